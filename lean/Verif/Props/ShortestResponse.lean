import Verif.Props.Shortest
import Verif.Props.Sink

/-!
# How short responses can be (C106)
-/

namespace Upd
open Spec TypeList

variable {σ : Type}

theorem putAll_ret_iff {τ : Type} {dest : Byte → Eff τ Unit} : ∀ {bs : List Byte} {w w' : τ}, putAll dest bs w = .ret () w' ↔ Accepts dest w bs w'
  | [], w, w' => by
    constructor
    · intro h; cases h; exact .nil _
    · intro h; cases h; rfl
  | x :: bs, w, w' => by
    constructor
    · intro h
      have h : (dest x >>= fun _ => putAll dest bs) w = .ret () w' := h
      cases hx : dest x w with
      | ret u w1 => rw [Eff.bind_ret hx] at h; exact .cons hx (putAll_ret_iff.1 h)
      | threw w1 => rw [Eff.bind_threw hx] at h; cases h
      | fault e => rw [Eff.bind_fault hx] at h; cases h
    · exact putAll_accepts

/-- C106, responses: the dispatcher outputs a sequence of bytes `out` for what the function returns; whatever the encoding of the values of the return type, even if its end is known by other
means, it takes at least as many bytes for some value. This holds without `bool` in arrays and classes nor negative zero, and for integers and `bool` by themselves in
any representation. -/
theorem C106_response {P : Platform} {K : Keyring} {f : Features} {defs : Nat → List Val → Eff σ (Option Val)} (h : Setting P K f defs) {i : Nat}
    (hi : i < K.decls.length) {t : Ty} (ht : K.decls[i].sig.ret = some t)
    (hm : ((K.s = .twosComplement ∨ K.s = .offsetBinary) ∧ NoBools [t]) ∨ t = .bool ∨ (∃ n, 1 ≤ n ∧ t = .uint n) ∨ ∃ k, 1 ≤ k ∧ k ≤ 8 ∧ t = .sint k)
    {args : List Val} (hf : Val.FitsAll (Safe P K.s) K.decls[i].sig.params args) {src : Eff σ Byte} {w w1 w2 : σ}
    (hy : Yields src w (request K.e K.s K.idxBytes i K.decls[i].sig.params args) w1) {r : Option Val} (hd : defs K.decls[i].name args w1 = .ret r w2) :
    ∃ out : List Byte, (∀ (dest : Byte → Eff σ Unit) (w3 : σ), (Dispatcher.make K f defs).run P (Lens.whole σ) src dest w = .ret i w3 ↔ Accepts dest w2 out w3) ∧
      ∀ enc, Unambiguous K.s [t] enc → ∃ v, Val.FitsAll (Representable K.s) [t] [v] ∧ out.length ≤ (enc [v]).length := by
  have hg := h.ring.2 K.decls[i] (List.getElem_mem _)
  have hib : i < 256 ^ K.idxBytes := Nat.lt_trans hi (idxBytes_pos h.ring.1).2
  have hret := h.typed _ (List.getElem_mem hi) _ _ _ _ hf hd
  refine ⟨response K.e K.s K.decls[i].sig.ret r, fun dest w3 => ?_, fun enc he => ?_⟩
  · have h0 := run_request h.valid (D := Dispatcher.make K f defs) h.sup (idxBytes_pos h.ring.1).1 (i := i)
      (by show i < K.size; rw [K.size_eq h.ring.1]; exact hi) hib (make_acts hi) (makeAction_holds f K.e K.s _) hg (Lens.whole σ)
      (dest := dest) hf hy
    rw [h0, zoom_whole]
    show (defs K.decls[i].name args >>= _) w1 = _ ↔ _
    rw [Eff.bind_ret hd]
    show (respond P K.e K.s K.decls[i].sig.ret r dest >>= _) w2 = _ ↔ _
    rw [respond_eq h.valid h.sup hg.2.2 hret, ← putAll_ret_iff]
    cases hp : putAll dest (response K.e K.s K.decls[i].sig.ret r) w2 with
    | ret _ w4 => rw [Eff.bind_ret hp]; exact ⟨fun h => by cases h; rfl, fun h => by cases h; rfl⟩
    | threw w4 => rw [Eff.bind_threw hp]; simp
    | fault e => rw [Eff.bind_fault hp]; simp
  · change RetOk P K.s K.decls[i].sig.ret r at hret
    have hwf := hg.2.2 t ht
    rw [ht] at hret ⊢
    cases r with
    | none => exact hret.elim
    | some v =>
      have hfit : v.Fits (Safe P K.s) t := hret
      have hfits : Val.FitsAll (Safe P K.s) [t] [v] := ⟨hfit, trivial⟩
      have hws : Ty.WFs [t] := ⟨hwf.1, trivial⟩
      have hps : PackedAll [t] := ⟨hwf.2, trivial⟩
      have hlen : (response K.e K.s (some t) (some v)).length = (wires K.e K.s [t] [v]).length := by
        rw [wires_length hps hfits]
        show (wire K.e K.s t v).length = wireSize t + 0
        rw [wire_length hwf.2 hfit]
        rfl
      rw [hlen]
      have hmk := make_wires h.valid h.sup hws hps hfits
      rcases hm with ⟨h1, h2⟩ | h1
      · obtain ⟨vs, h3, h4⟩ := C106_tuple h.valid h.sup h1 hws hps h2 hfits hmk he
        match vs, h3, h4 with
        | [v'], h3, h4 => exact ⟨v', h3, h4⟩
      · exact C106_single h.valid h.sup h1 hfits hmk he

/-- `add(300, 7)`: no encoding of `uint16_t` has a better worst case than what is output. -/
example (f : Features) : ∃ out : List Byte,
    (∀ (dest : Byte → Eff _ Unit) w3, (Dispatcher.make ledRing f ledDefs).run pc (Lens.whole _) demoSrc dest ([0#8, 0x2c#8, 1#8, 7#8], [], []) = .ret 0 w3 ↔
      Accepts dest ([], [[.int 1, .int 300, .int 7]], []) out w3) ∧
    ∀ enc, Unambiguous ledRing.s [.uint 2] enc → ∃ v, Val.FitsAll (Representable ledRing.s) [.uint 2] [v] ∧ out.length ≤ (enc [v]).length :=
  C106_response (led_setting f) (i := 0) (by decide) rfl (.inr (.inr (.inl ⟨2, by decide, rfl⟩))) (args := [.int 300, .int 7])
    (by simp [ledRing, Val.FitsAll, Val.Fits]) add_yields (r := some (.int 307)) rfl

end Upd
