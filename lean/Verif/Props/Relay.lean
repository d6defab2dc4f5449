import Verif.Lemmas.Relay
import Verif.Props.Session

/-!
# Relays

C96: devices in a row, of any platforms, each of which serves functions which call the ones of the next device, behave as the last one.
-/

namespace Upd
open Spec TypeList

variable {σ : Type} {P : Platform} {K : Keyring} {defs : Nat → List Val → Eff σ (Option Val)} {ns : List Node}

/-- C96. Calls through any number of relays have the outcome of the same calls made locally: same results, same effects on the rest of the
world, same exception. No byte is left in transit and every dispatcher is ready for the next request. Arguments have to be in the domain of
every platform of the row, and the functions have to return values which are (`WellTyped`). -/
theorem C96_relays (hK : KeyringOk K) (ho : OneSignature K) (hP : P.Valid) (hs : Supported P K.e K.s) (hn : ∀ n ∈ ns, NodeOk K n)
    (ht : ∀ Q ∈ P :: ns.map Node.plat, ∀ d ∈ K.decls, WellTyped Q K.s ⟨d.sig, defs d.name⟩) :
    ∀ (calls : List (Nat × List Val)), (∀ Q ∈ P :: ns.map Node.plat, CallsOn Q K calls) → ∀ (W : Chain σ ns), Idle K defs ns W →
    RowOutcome K defs ns (localCalls defs calls (bottom ns W)) (localCalls (Chain.fns K defs P ns) calls W)
  | [], _, W, hw => ⟨W, rfl, hw, rfl⟩
  | (name, args) :: calls, hc, W, hw => by
    have h1 := chain_call hK ho ns P W name args hP hs hn ht (hc P (List.mem_cons_self ..) _ (List.mem_cons_self ..)).1
      (fun Q hQ => (hc Q hQ _ (List.mem_cons_self ..)).2) hw
    show RowOutcome K defs ns ((defs name args >>= fun r => localCalls defs calls >>= fun rs => pure (r :: rs)) (bottom ns W))
      ((Chain.fns K defs P ns name args >>= fun r => localCalls (Chain.fns K defs P ns) calls >>= fun rs => pure (r :: rs)) W)
    cases hd : defs name args (bottom ns W) with
    | fault e =>
      rw [hd] at h1
      rw [Eff.bind_fault hd]
      exact Eff.bind_fault h1
    | threw w' =>
      rw [hd] at h1
      obtain ⟨W', h2, h3⟩ := h1
      rw [Eff.bind_threw hd]
      exact ⟨W', Eff.bind_threw h2, h3⟩
    | ret r w' =>
      rw [hd] at h1
      obtain ⟨W', h2, h3, h4⟩ := h1
      have ih := C96_relays hK ho hP hs hn ht calls (fun Q hQ c hc' => hc Q hQ c (List.mem_cons_of_mem _ hc')) W' h3
      rw [Eff.bind_ret hd, Eff.bind_ret h2]
      rw [h4] at ih
      cases hrs : localCalls defs calls w' with
      | fault e => rw [hrs] at ih; rw [Eff.bind_fault hrs]; exact Eff.bind_fault ih
      | threw w2 =>
        rw [hrs] at ih
        obtain ⟨W2, h5, h6⟩ := ih
        rw [Eff.bind_threw hrs]
        exact ⟨W2, Eff.bind_threw h5, h6⟩
      | ret rs w2 =>
        rw [hrs] at ih
        obtain ⟨W2, h5, h6, h7⟩ := ih
        rw [Eff.bind_ret hrs]
        exact ⟨W2, Eff.bind_ret h5, h6, h7⟩

/-- C96. New devices are ready. -/
theorem C96_new (K : Keyring) (defs : Nat → List Val → Eff σ (Option Val)) (sizeMax : Nat) (w : σ) :
    ∀ (ns : List Node), Idle K defs ns (newRow K defs sizeMax w ns) ∧ bottom ns (newRow K defs sizeMax w ns) = w
  | [] => ⟨trivial, rfl⟩
  | .buffered P f shared :: ns =>
    have ih := C96_new K defs sizeMax w ns
    ⟨⟨rfl, rfl, ⟨sizeMax, _, .start⟩, fresh_pending _ _ _ _ _ _, ih.1⟩, ih.2⟩
  | .unbuffered P f :: ns =>
    have ih := C96_new K defs sizeMax w ns
    ⟨⟨rfl, rfl, ih.1⟩, ih.2⟩

/-! Example: a computer calls a microcontroller, which calls another one with one buffer, which calls another computer. -/

/-- Three devices. -/
def ledNodes : List Node := [.unbuffered avr .any, .buffered avr .any true, .buffered pc .weakReference false]

theorem ledNodes_ok : ∀ n ∈ ledNodes, NodeOk ledRing n := by
  simp only [ledNodes, List.mem_cons, List.not_mem_nil, or_false, forall_eq_or_imp, forall_eq]
  exact ⟨⟨avr_valid, avr_supported _ _⟩, ⟨avr_valid, avr_supported _ _, led_fit true, (led_setting .any).sizes⟩,
    pc_valid, pc_supported _ _, led_fit false, (led_setting .weakReference).sizes⟩

theorem ledNodes_plat : ∀ Q ∈ pc :: ledNodes.map Node.plat, Q = pc ∨ Q = avr := by
  simp [ledNodes, Node.plat]

example : ∃ W, localCalls (Chain.fns ledRing ledDefs pc ledNodes) ledCalls (newRow ledRing ledDefs 255 ([], [], []) ledNodes) =
      .ret [some (.int 307), some (.int (-1)), none] W ∧ Idle ledRing ledDefs ledNodes W ∧
    bottom ledNodes W = ([], [[.int 1, .int 300, .int 7], [.int 3, .int 4, .int 5], [.int 2]], []) := by
  have h := C96_relays (P := pc) (defs := ledDefs) (ns := ledNodes) ledRing_ok (by simp [OneSignature, ledRing]) pc_valid (pc_supported _ _)
    ledNodes_ok
    (fun Q hQ => by
      rcases ledNodes_plat Q hQ with rfl | rfl
      · exact (led_setting .any).typed
      · exact led_typed_avr) ledCalls
    (fun Q hQ c hc => by
      have := ledCalls_ok c hc
      rcases ledNodes_plat Q hQ with rfl | rfl
      · exact ⟨this.1, fun d hd hn => (this.2 d hd hn).2⟩
      · exact ⟨this.1, fun d hd hn => (this.2 d hd hn).1⟩)
    _ (C96_new ledRing ledDefs 255 ([], [], []) ledNodes).1
  rw [(C96_new ledRing ledDefs 255 ([], [], []) ledNodes).2, ledCalls_local] at h
  exact h

end Upd
