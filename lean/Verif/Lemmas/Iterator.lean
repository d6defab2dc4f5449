import Verif.Lemmas.Deferred
import Verif.Model.Iterator

/-! # Streams given as iterators -/

namespace Upd
open Spec TypeList

variable {σ : Type}

theorem slice_bound {m : Mem} {off n : Nat} {bs : List Byte} (h : slice m off n = bs) (hn : bs.length = n) (hb : bs ≠ []) : off + n ≤ m.length := by
  have : (slice m off n).length = n := by rw [h, hn]
  simp only [slice, List.length_take, List.length_drop] at this
  have : bs.length ≠ 0 := fun h => hb (List.length_eq_zero_iff.1 h)
  omega

theorem yields_its : ∀ (bs : List Byte) (mem : Mem) (input output : Nat) (w : σ), slice mem input bs.length = bs →
    Yields (Its.read (σ := σ)) ((input, output), mem, w) bs ((input + bs.length, output), mem, w)
  | [], mem, input, output, w, _ => .nil _
  | b :: bs, mem, input, output, w, h => by
    have hb : input + (b :: bs).length ≤ mem.length := slice_bound h rfl (by simp)
    rw [List.length_cons] at hb h
    rw [slice_succ (by omega)] at h
    obtain ⟨h1, h2⟩ := List.cons.inj h
    have := yields_its bs mem (input + 1) output w h2
    rw [List.length_cons, show input + (bs.length + 1) = input + 1 + bs.length by omega]
    refine .cons ?_ this
    show (match mem.rd input with | .ok x => _ | .error f => _) = _
    rw [Mem.rd_ok (by omega), h1]

theorem putAll_its : ∀ (bs : List Byte) (mem : Mem) (input output : Nat) (w : σ), output ≤ mem.length →
    putAll Its.write bs ((input, output), mem, w) =
      if output + bs.length ≤ mem.length then .ret () ((input, output + bs.length), splice mem output bs, w) else .fault .oobWrite
  | [], mem, input, output, w, h => by
    rw [if_pos (by simpa using h), splice_nil]; rfl
  | b :: bs, mem, input, output, w, h => by
    show (Its.write b >>= fun _ => putAll Its.write bs) _ = _
    by_cases ho : output < mem.length
    · have h1 : Its.write b ((input, output), mem, w) = .ret () ((input, output + 1), mem.set output b, w) := by
        show (match mem.wr output b with | .ok mem => _ | .error f => _) = _
        rw [Mem.wr_ok ho]
      rw [Eff.bind_ret h1, putAll_its bs _ _ _ _ (by rw [List.length_set]; omega), List.length_set, List.length_cons]
      by_cases hb : output + (bs.length + 1) ≤ mem.length
      · rw [if_pos (by omega), if_pos hb, splice_set_cons hb, show output + 1 + bs.length = output + (bs.length + 1) by omega]
      · rw [if_neg (by omega), if_neg hb]
    · have h1 : Its.write b ((input, output), mem, w) = .fault .oobWrite := by
        show (match mem.wr output b with | .ok mem => _ | .error f => _) = _
        rw [Mem.wr_oob (by omega)]
      rw [Eff.bind_fault h1, if_neg (by rw [List.length_cons]; omega)]

theorem its_hosted_typed {P : Platform} {s : Mode} {sig : Sig} {defs : Nat → List Val → Eff (Mem × σ) (Option Val)} {name : Nat}
    (h : WellTyped P s ⟨sig, defs name⟩) : WellTyped P s ⟨sig, Its.hosted defs name⟩ := by
  intro args l r l' hf hr
  obtain ⟨w, hw, _⟩ := zoom_eq_ret (L := Its.world) hr
  exact h args _ r w hf hw

theorem its_hosted_setting {Q : Platform} {K : Keyring} {f : Features} {defs : Nat → List Val → Eff (Mem × σ) (Option Val)}
    (h : Setting Q K f defs) : Setting Q K f (Its.hosted defs) :=
  ⟨h.valid, h.ring, h.sup, h.sizes, fun d hd => its_hosted_typed (h.typed d hd)⟩

/-- The callback and the response, on iterators. -/
theorem its_respond {P : Platform} (hP : P.Valid) {e : Endian} {s : Mode} (hs : Supported P e s) {cb : Callback (Mem × σ)} (hg : SigOk cb.sig)
    (hc : WellTyped P s cb) {args : List Val} (hf : Val.FitsAll (Safe P s) cb.sig.params args) {α : Type} (a : α) (input output : Nat)
    (mem : Mem) (w : σ) (ho : ∀ r mem' w', cb.fn args (mem, w) = .ret r (mem', w') → output ≤ mem'.length) :
    (Eff.zoom Its.world (cb.fn args) >>= fun r => respond P e s cb.sig.ret r Its.write >>= fun _ => pure a) ((input, output), mem, w) =
      match cb.fn args (mem, w) with
      | .ret r (mem', w') =>
        if output + (response e s cb.sig.ret r).length ≤ mem'.length then
          .ret a ((input, output + (response e s cb.sig.ret r).length), splice mem' output (response e s cb.sig.ret r), w')
        else .fault .oobWrite
      | .threw st => .threw ((input, output), st)
      | .fault f => .fault f := by
  cases hd : cb.fn args (mem, w) with
  | fault e => exact Eff.bind_fault (zoom_fault (L := Its.world) hd)
  | threw w' => exact Eff.bind_threw (zoom_threw (L := Its.world) hd)
  | ret r w' =>
    obtain ⟨mem', w'⟩ := w'
    rw [Eff.bind_ret (zoom_ret (L := Its.world) hd), respond_eq hP hs hg.2.2 (hc _ _ _ _ hf hd)]
    have := putAll_its (response e s cb.sig.ret r) mem' input output w' (ho _ _ _ hd)
    by_cases hb : output + (response e s cb.sig.ret r).length ≤ mem'.length
    · rw [if_pos hb] at this
      have := Eff.bind_ret (f := fun _ => (pure a : Eff (Its σ) α)) this
      simp only [if_pos hb]
      exact this
    · rw [if_neg hb] at this
      have := Eff.bind_fault (f := fun _ => (pure a : Eff (Its σ) α)) this
      simp only [if_neg hb]
      exact this

end Upd
