import Verif.Lemmas.Session
import Verif.Spec.Deferred

/-! # Deferred responses -/

namespace Upd
open Spec TypeList

variable {σ τ : Type} {P Q : Platform} {K : Keyring} {f : Features} {defs : Nat → List Val → Eff σ (Option Val)} {shared : Bool}

theorem zoom_fault {L : Lens τ σ} {α : Type} {x : Eff σ α} {t : τ} {e : Fault} (h : x (L.get t) = .fault e) :
    Eff.zoom L x t = .fault e := by
  unfold Eff.zoom; rw [h]

theorem accepts_discard (m : List Byte) (w : τ) : Accepts (fun _ => (pure () : Eff τ Unit)) w m w := by
  induction m with
  | nil => exact .nil _
  | cons x m ih => exact .cons rfl ih

theorem response_wires {e : Endian} {s : Mode} {ret : Option Ty} {r : Option Val} (hr : RetOk P s ret r) :
    response e s ret r = wires e s ret.toList r.toList ∧ Val.FitsAll (Safe P s) ret.toList r.toList := by
  cases ret with
  | none => cases r with
    | none => exact ⟨rfl, trivial⟩
    | some v => cases hr
  | some t => cases r with
    | none => cases hr
    | some v => exact ⟨by simp [response, wires], by simpa [Val.FitsAll, RetOk] using hr⟩

/-- A hook invoked on a response, whatever the state around. -/
theorem hook_invoke (hP : P.Valid) {k : Key} (hs : Supported P k.e k.s) {hook : Callback σ} (hh : Hookable P k.s k.sig.ret hook)
    {r : Option Val} (hr : RetOk P k.s k.sig.ret r) (L : Lens τ σ) {src : Eff τ Byte} {t t1 : τ}
    (hy : Yields src t (response k.e k.s k.sig.ret r) t1) :
    (k.withHook hook).invoke1 P L src t =
      match hook.fn r.toList (L.get t1) with
      | .ret _ w => .ret () (L.put w t1)
      | .threw w => .threw (L.put w t1)
      | .fault f => .fault f := by
  obtain ⟨h1, h2⟩ := response_wires (e := k.e) hr
  rw [h1, ← hh.params] at hy
  rw [← hh.params] at h2
  show (Action.stored k.e k.s hook).invoke P L src (fun _ => pure ()) t = _
  rw [Action.Holds.invoke (Or.inl rfl) P, call_args hP hs hh.sig _ h2 hy]
  cases hd : hook.fn r.toList (L.get t1) with
  | fault e => exact Eff.bind_fault (by unfold Eff.zoom; rw [hd])
  | threw w => exact Eff.bind_threw (zoom_threw hd)
  | ret v w =>
    rw [Eff.bind_ret (zoom_ret hd), respond_eq hP hs hh.sig.2.2 (hh.typed _ _ _ _ h2 hd), putAll_accepts (accepts_discard _ _)]

theorem hookable_hosted {s : Mode} {ret : Option Ty} {hook : Callback σ} (h : Hookable P s ret hook) : Hookable P s ret hook.hosted where
  params := h.params
  sig := h.sig
  typed := by
    intro args l r l' hf hr
    obtain ⟨w, hw, _⟩ := zoom_eq_ret (L := Link.rest) hr
    exact h.typed args _ r w hf hw

/-- Calls with hooks. -/
theorem hooked_server (hP : P.Valid) (hK : KeyringOk K) (hs : Supported P K.e K.s)
    (ht : ∀ d ∈ K.decls, WellTyped P K.s ⟨d.sig, defs d.name⟩) {L : Lens τ (Link σ)} {serve : Eff τ Unit} {Inv : τ → Prop}
    (hS : Server Q K defs L serve Inv) : ∀ (calls : List (Nat × List Val × Callback σ)) (w : σ) (t : τ),
    CallsOk P Q K (withoutHooks calls) → HooksOk P K calls → Inv t → L.get t = ⟨[], [], w⟩ →
    match localHooked defs calls w with
    | .ret _ w' => ∃ t', hookedCalls P K L serve calls t = .ret () t' ∧ Inv t' ∧ L.get t' = ⟨[], [], w'⟩
    | .threw w' => ∃ t', hookedCalls P K L serve calls t = .threw t' ∧ L.get t' = ⟨[], [], w'⟩
    | .fault f => hookedCalls P K L serve calls t = .fault f
  | [], w, t, _, _, hi, hl => ⟨t, rfl, hi, hl⟩
  | (name, args, hook) :: calls, w, t, hc, hhk, hinv, hl => by
    obtain ⟨he, hfit⟩ := hc (name, args) (List.mem_cons_self ..)
    obtain ⟨i, hi, hnm, hk⟩ := K.get11_isSome hK.1 (name := name) he
    subst hnm
    obtain ⟨hfP, hfQ⟩ := hfit _ (List.getElem_mem hi) rfl
    have hhook : Hookable P K.s K.decls[i].sig.ret hook := hhk _ (List.mem_cons_self ..) _ (List.getElem_mem hi) rfl
    have hbc : hookedCalls P K L serve ((K.decls[i].name, args, hook) :: calls) =
        (hookedCall P L serve ⟨K.e, K.s, K.idxBytes, i, K.decls[i].sig⟩ args hook >>= fun _ => hookedCalls P K L serve calls) := by
      rw [hookedCalls]; simp only [hk]
    rw [hbc]
    show match (defs K.decls[i].name args >>= fun r => hook.fn r.toList >>= fun _ => localHooked defs calls) w with
      | .ret rs w' => _ | .threw w' => _ | .fault f => _
    have h1 := send_request hP hK hs hi hfP hl
    rw [List.nil_append] at h1
    have h2 := hS.step i hi args [] [] w _ hfQ (hS.inv_put ⟨request K.e K.s K.idxBytes i K.decls[i].sig.params args, [], w⟩ t hinv)
      (by rw [hS.get_put, List.append_nil])
    cases hd : defs K.decls[i].name args w with
    | fault e =>
      rw [hd] at h2
      rw [Eff.bind_fault hd]
      exact Eff.bind_fault (by unfold hookedCall; rw [Eff.bind_ret h1]; exact Eff.bind_fault h2)
    | threw w' =>
      rw [hd] at h2
      rw [Eff.bind_threw hd]
      obtain ⟨t', h3, h4⟩ := h2
      exact ⟨t', Eff.bind_threw (by unfold hookedCall; rw [Eff.bind_ret h1]; exact Eff.bind_threw h3), h4⟩
    | ret r w' =>
      rw [hd] at h2
      obtain ⟨t1, h3, h4, h5⟩ := h2
      rw [List.nil_append] at h5
      have hr := ht _ (List.getElem_mem hi) _ _ _ _ hfP hd
      have h6 := hook_invoke hP (k := ⟨K.e, K.s, K.idxBytes, i, K.decls[i].sig⟩) hs (hookable_hosted hhook) hr (Lens.whole (Link σ))
        (src := Link.readFromSlave) (t := L.get t1) (t1 := ⟨[], [], w'⟩)
        (by rw [h5]; have := yields_down (response K.e K.s K.decls[i].sig.ret r) [] [] w'; rwa [List.append_nil] at this)
      have hcall : hookedCall P L serve ⟨K.e, K.s, K.idxBytes, i, K.decls[i].sig⟩ args hook t =
          Eff.zoom L (((⟨K.e, K.s, K.idxBytes, i, K.decls[i].sig⟩ : Key).withHook hook.hosted).invoke1 P (Lens.whole _) Link.readFromSlave) t1 := by
        unfold hookedCall; rw [Eff.bind_ret h1, Eff.bind_ret h3]
      have hget : (Lens.whole (Link σ)).get ⟨[], [], w'⟩ = ⟨[], [], w'⟩ := rfl
      rw [Eff.bind_ret hd]
      rw [hget] at h6
      cases hh : hook.fn r.toList w' with
      | fault e =>
        have h7 : hook.hosted.fn r.toList ⟨[], [], w'⟩ = .fault e := by
          show Eff.zoom Link.rest (hook.fn r.toList) _ = _
          have hh : hook.fn r.toList (Link.rest.get ⟨[], [], w'⟩) = .fault e := hh
          unfold Eff.zoom; rw [hh]
        rw [h7] at h6
        rw [Eff.bind_fault hh]
        exact Eff.bind_fault (hcall.trans (by unfold Eff.zoom; rw [h6]))
      | threw w2 =>
        have h7 : hook.hosted.fn r.toList ⟨[], [], w'⟩ = .threw ⟨[], [], w2⟩ := zoom_threw (L := Link.rest) hh
        rw [h7] at h6
        rw [Eff.bind_threw hh]
        exact ⟨_, Eff.bind_threw (hcall.trans (zoom_threw h6)), hS.get_put _ _⟩
      | ret v w2 =>
        have h7 : hook.hosted.fn r.toList ⟨[], [], w'⟩ = .ret v ⟨[], [], w2⟩ := zoom_ret (L := Link.rest) hh
        rw [h7] at h6
        have h8 := hcall.trans (zoom_ret h6)
        rw [Eff.bind_ret hh]
        have ih := hooked_server hP hK hs ht hS calls w2 (L.put ⟨[], [], w2⟩ t1) (fun c hc' => hc c (List.mem_cons_of_mem _ hc'))
          (fun c hc' => hhk c (List.mem_cons_of_mem _ hc')) (hS.inv_put _ _ h4) (hS.get_put _ _)
        cases hrs : localHooked defs calls w2 with
        | fault e => rw [hrs] at ih; exact (Eff.bind_ret h8).trans ih
        | threw w3 => rw [hrs] at ih; obtain ⟨t2, h9, h10⟩ := ih; exact ⟨t2, (Eff.bind_ret h8).trans h9, h10⟩
        | ret _ w3 => rw [hrs] at ih; obtain ⟨t2, h9, h10⟩ := ih; exact ⟨t2, (Eff.bind_ret h8).trans h9, h10⟩

/-- `read_from` on a whole request. -/
theorem readFrom_request (h : Setting P K f defs) {b : Buf σ} {w w1 : σ} (hr : Reachable P K f defs shared (b, w)) (hp : Pending b [])
    {i : Nat} (hi : i < K.decls.length) {args : List Val} (hf : Val.FitsAll (Safe P K.s) K.decls[i].sig.params args)
    (ho : retSize K.decls[i].sig.ret ≤ outRoom K shared) {src : Eff σ Byte}
    (hy : Yields src w (request K.e K.s K.idxBytes i K.decls[i].sig.params args) w1) :
    match defs K.decls[i].name args w1 with
    | .ret r w' => ∃ b', Buf.readFrom P src (b, w) = .ret .resolved (b', w') ∧ Pending b' [] ∧
        Unread b' (response K.e K.s K.decls[i].sig.ret r) ∧ b'.obufNext = 0
    | .threw w' => ∃ b', Buf.readFrom P src (b, w) = .threw (b', w')
    | .fault flt => Buf.readFrom P src (b, w) = .fault flt := by
  obtain ⟨hb, hlen, _, out, hm⟩ := reachable_pending h hr hp
  obtain ⟨h1, h2, h3⟩ := request_parts h hi hf
  have hne : request K.e K.s K.idxBytes i K.decls[i].sig.params args ≠ [] := by
    intro h0
    have := congrArg List.length h0
    have hpos := hb.serves.pos
    unfold request at this
    rw [List.length_append, h1] at this
    simp at this
    omega
  obtain ⟨init, x, hl⟩ : ∃ init x, request K.e K.s K.idxBytes i K.decls[i].sig.params args = init ++ [x] :=
    ⟨_, _, (List.dropLast_concat_getLast hne).symm⟩
  have hinc : Incomplete (protoOf K defs) ([] ++ init) :=
    incomplete_call h1 h2 h3 (l' := [x]) (by rw [List.nil_append, ← hl]; rfl) (by simp)
  have hcl : (protoOf K defs).classify ([] ++ init ++ [x]) = .request ⟨K.decls[i].sig, defs K.decls[i].name⟩
      (wires K.e K.s K.decls[i].sig.params args) := by rw [List.nil_append, ← hl]; exact classify_call h1 h2 h3
  have hcomp : ¬ Incomplete (protoOf K defs) ([] ++ init ++ [x]) := by
    rw [← classify_more_iff, hcl]; simp
  have hread : Buf.readFrom P src (b, w) = _ := readFrom_last h.valid hm.inp hb hinc hcomp (by rw [← hl]; exact hy)
  rw [← hl] at hread
  have hcb := hb.serves.sig _ (mem_of_get h2)
  have hun : unwires (protoOf K defs).e (protoOf K defs).s K.decls[i].sig.params
      (wires K.e K.s K.decls[i].sig.params args) = args := unwires_wires h.valid h.sup hcb.1 hcb.2.1 hf
  have hcall := puts_call_full h.valid w1 hm.inp hb h1 h2 h3 (decodes_args h.valid hb.serves.sup hcb hf) (by rw [hlen]; exact ho)
  simp only [hun] at hcall
  cases hd : defs K.decls[i].name args w1 with
  | fault flt =>
    rw [hd] at hcall
    exact hread.trans (Eff.bind_fault hcall)
  | threw w2 =>
    rw [hd] at hcall
    obtain ⟨b1, h4⟩ := hcall
    exact ⟨b1, hread.trans (Eff.bind_threw h4)⟩
  | ret r w2 =>
    rw [hd] at hcall
    obtain ⟨b1, h4, h5, h6, _, h7⟩ := hcall
    refine ⟨b1, ?_, pending_relIn h5, h6, h7⟩
    rw [hread]
    refine (Eff.bind_ret h4).trans ?_
    simp [List.getLastD_eq_getLast?]

theorem yields_array (m rest : List Byte) (w : σ) : Yields (arraySrc (σ := σ)) (m ++ rest, w) m (rest, w) := by
  induction m with
  | nil => exact .nil _
  | cons x m ih => exact .cons rfl ih

theorem byte_of_byte (l : List Byte) : (l.map fun x => Val.int x.toNat).map Val.byte = l := by
  induction l with
  | nil => rfl
  | cons x l ih =>
    rw [List.map_cons, List.map_cons, ih]
    congr 1
    show BitVec.ofInt 8 (x.toNat : Int) = x
    rw [BitVec.ofInt_natCast, BitVec.ofNat_toNat, BitVec.setWidth_eq]

/-- The callback which receives the reply. -/
theorem replyFn_eq (hP : P.Valid) {k : Key} (hs : Supported P k.e k.s) {hook : Callback σ} (hh : Hookable P k.s k.sig.ret hook)
    {r : Option Val} (hr : RetOk P k.s k.sig.ret r) (junk : List Byte) (w : σ) :
    replyFn P (k.withHook hook) [.arr ((response k.e k.s k.sig.ret r ++ junk).map fun x => .int x.toNat)] w =
      match hook.fn r.toList w with
      | .ret _ w' => .ret none w'
      | .threw w' => .threw w'
      | .fault f => .fault f := by
  unfold replyFn
  simp only [byte_of_byte]
  rw [hook_invoke hP hs hh hr _ (yields_array _ junk w)]
  cases hook.fn r.toList w <;> rfl

end Upd
