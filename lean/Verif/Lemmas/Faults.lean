import Verif.Spec.Faults
import Verif.Lemmas.Cases
import Verif.Lemmas.Packets

/-! Helper lemmas: decoding and putting arbitrary bytes, exactly. -/

namespace Upd
open Spec TypeList

/-- The result of decoding, from the reason why it is impossible and from the value. -/
def orFault {α : Type} (f : Option Fault) (a : α) : M α :=
  match f with
  | none => .ok a
  | some f => .error f

theorem wireValue_byte {e : Endian} {x : Byte} : 1 < wireValue e [x] ↔ x ≠ 0#8 ∧ x ≠ 1#8 := by
  rw [wireValue_single]
  constructor
  · intro h
    exact ⟨by rintro rfl; simp at h, by rintro rfl; simp at h⟩
  · rintro ⟨h0, h1⟩
    have h0 : x.toNat ≠ 0 := fun h => h0 (BitVec.eq_of_toNat_eq h)
    have h1 : x.toNat ≠ 1 := fun h => h1 (BitVec.eq_of_toNat_eq h)
    omega

mutual
theorem readAs_exact {P : Platform} (hP : P.Valid) {e : Endian} {s : Mode} (hs : Supported P e s) :
    ∀ (t : Ty) (mem : Mem) (off : Nat), t.WF → Packed t → off + wireSize t ≤ mem.length →
      readAs P e s t mem off = orFault (undecodable P e s t (slice mem off (wireSize t))) (unwire e s t (slice mem off (wireSize t)))
  | .bool, mem, off, _, _, h => by
    simp only [wireSize] at h ⊢
    rw [slice_succ (by omega), slice_zero, unwire, undecodable, readAs, readBool, Mem.rd_ok (by omega), except_bind_ok]
    simp only [wireValue_byte]
    rw [wireValue_single]
    generalize mem[off] = x
    have hx : x = 0#8 ↔ x.toNat = 0 := ⟨by rintro rfl; rfl, fun h => BitVec.eq_of_toNat_eq h⟩
    by_cases he : P.endianMacro = some e
    · by_cases h0 : x = 0#8
      · simp [he, h0, orFault]; rfl
      · by_cases h1 : x = 1#8
        · simp [he, h1, orFault]; rfl
        · simp [he, h0, h1, orFault]; rfl
    · simp [he, orFault, ← hx]; rfl
  | .uint n, mem, off, _, _, h => by
    simp only [wireSize] at h ⊢
    rw [readAs, readUint_ok hP e h, unwire, undecodable]
    rfl
  | .sint k, mem, off, hw, _, h => by
    simp only [wireSize] at h ⊢
    simp only [Ty.WF] at hw
    rw [readAs, readSint_spec hP hs hw h, unwire, undecodable]
    split <;> rfl
  | .arr t n, mem, off, hw, hp, h => by
    simp only [wireSize] at h ⊢
    simp only [Ty.WF] at hw
    simp only [Packed] at hp
    have key : ∀ n off, off + n * wireSize t ≤ mem.length →
        readLoop (readAs P e s t) t.sizeof mem n off =
          orFault ((List.range n).findSome? fun i => undecodable P e s t (slice mem (off + i * wireSize t) (wireSize t)))
            ((List.range n).map fun i => unwire e s t (slice mem (off + i * wireSize t) (wireSize t))) := by
      intro n
      induction n with
      | zero => intro off _; rfl
      | succ n ih =>
        intro off h
        rw [Nat.succ_mul] at h
        have hsh : ∀ i, off + wireSize t + i * wireSize t = off + (i + 1) * wireSize t := by intro i; rw [Nat.succ_mul]; omega
        rw [readLoop, readAs_exact hP hs t mem off hw.1 hp.1 (by omega), hp.2, List.range_succ_eq_map, List.findSome?_cons, List.map_cons]
        simp only [Nat.zero_mul, Nat.add_zero]
        cases hu : undecodable P e s t (slice mem off (wireSize t)) with
        | some f => rfl
        | none =>
          have := ih (off + wireSize t) (by omega)
          rw [hp.2] at this
          simp only [orFault, except_bind_ok, this, hsh, List.findSome?_map, List.map_map, Function.comp_def]
          cases (List.range n).findSome? fun i => undecodable P e s t (slice mem (off + (i + 1) * wireSize t) (wireSize t)) <;> rfl
    have hsl : ∀ i ∈ List.range n, slice (slice mem off (n * wireSize t)) (i * wireSize t) (wireSize t) = slice mem (off + i * wireSize t) (wireSize t) := by
      intro i hi
      have hi : i < n := List.mem_range.mp hi
      have := Nat.mul_le_mul_right (wireSize t) (show i + 1 ≤ n by omega)
      rw [Nat.succ_mul] at this
      rw [slice_slice (by omega)]
    have hfind : ((List.range n).findSome? fun i => undecodable P e s t (slice (slice mem off (n * wireSize t)) (i * wireSize t) (wireSize t))) =
        (List.range n).findSome? fun i => undecodable P e s t (slice mem (off + i * wireSize t) (wireSize t)) := by
      generalize hl : List.range n = l at hsl
      clear hl
      induction l with
      | nil => rfl
      | cons i l ih => rw [List.findSome?_cons, List.findSome?_cons, hsl i (by simp), ih fun j hj => hsl j (by simp [hj])]
    rw [readAs, key n off h, unwire, undecodable, hfind, List.map_congr_left (f := fun i => unwire e s t (slice (slice mem off (n * wireSize t)) _ _))
      (g := fun i => unwire e s t (slice mem (off + i * wireSize t) (wireSize t))) fun i hi => by rw [hsl i hi]]
    cases (List.range n).findSome? fun i => undecodable P e s t (slice mem (off + i * wireSize t) (wireSize t)) <;> rfl
  | .user _ fs, mem, off, hw, hp, h => by
    simp only [wireSize] at h ⊢
    simp only [Ty.WF] at hw
    simp only [Packed] at hp
    rw [readAs, readAll_exact hP hs fs mem off hw.2 hp h, unwire, undecodable]
    cases undecodables P e s fs (slice mem off (wireSizes fs)) <;> rfl

theorem readAll_exact {P : Platform} (hP : P.Valid) {e : Endian} {s : Mode} (hs : Supported P e s) :
    ∀ (ts : List Ty) (mem : Mem) (off : Nat), Ty.WFs ts → PackedAll ts → off + wireSizes ts ≤ mem.length →
      readAll P e s ts mem off = orFault (undecodables P e s ts (slice mem off (wireSizes ts))) (unwires e s ts (slice mem off (wireSizes ts)))
  | [], mem, off, _, _, _ => by rw [readAll, undecodables, unwires]; rfl
  | t :: ts, mem, off, hw, hp, h => by
    simp only [wireSizes] at h ⊢
    simp only [Ty.WFs] at hw
    simp only [PackedAll] at hp
    rw [readAll, readAs_exact hP hs t mem off hw.1 hp.1 (by omega), packed_serSize t hp.1, readAll_exact hP hs ts mem _ hw.2 hp.2 (by omega),
      unwires, undecodables, slice_take (by omega), slice_drop, Nat.add_sub_cancel_left]
    cases undecodable P e s t (slice mem off (wireSize t)) with
    | some f => rfl
    | none => cases undecodables P e s ts (slice mem (off + wireSize t) (wireSizes ts)) <;> rfl
end

variable {σ : Type}

/-- The bytes of a whole request, whatever they are and whatever the callback returns. -/
theorem puts_call_exact {P : Platform} (hP : P.Valid) {p : Proto σ} (w : σ) {b : Buf σ} (h : RelIn p b []) (hb : BufOk P p b)
    {cb : Callback σ} {index args : List Byte} (hl : index.length = p.idxBytes)
    (hc : p.cbs[wireValue p.e index]? = some cb) (ha : args.length = wireSizes cb.sig.params) :
    match undecodables P p.e p.s cb.sig.params args with
    | some f => puts P (index ++ args) (b, w) = .fault f
    | none =>
      match cb.fn (unwires p.e p.s cb.sig.params args) w with
      | .ret _ w' =>
        if b.out.length < retSize cb.sig.ret then puts P (index ++ args) (b, w) = .fault .obufOverrun
        else ∃ b', puts P (index ++ args) (b, w) =
          .ret (List.replicate (index.length + args.length - 1) .loading ++ [.resolved]) (b', w') ∧ RelIn p b' [] ∧ Same b b'
      | .threw w' => ∃ b', puts P (index ++ args) (b, w) = .threw (b', w')
      | .fault f => puts P (index ++ args) (b, w) = .fault f := by
  have hne : index ++ args ≠ [] := by
    intro h0; have := hb.serves.pos; rw [List.append_eq_nil_iff.1 h0 |>.1] at hl; simp at hl; omega
  obtain ⟨init, x, he⟩ : ∃ init x, index ++ args = init ++ [x] := ⟨_, _, (List.dropLast_concat_getLast hne).symm⟩
  have hi : Incomplete p ([] ++ init) := incomplete_call hl hc ha he (by simp)
  have hlen : index.length + args.length = init.length + 1 := by simpa using congrArg List.length he
  obtain ⟨b1, h1, h2, h3, h4⟩ := puts_last hP w (x := x) h hb hi
  have hcl : p.classify (([] ++ init) ++ [x]) = .request cb args := by
    rw [List.nil_append, ← he]; exact classify_call hl hc ha
  have hb1 := hb.same h2
  have hg := hb.serves.sig cb (mem_of_get hc)
  have hx := readAll_exact hP hb.serves.sup cb.sig.params args 0 hg.1 hg.2.1 (by omega)
  rw [slice_all ha] at hx
  rw [he, h4, hlen]
  rcases put_cases hP h1 hb1 x w with ⟨h5, _⟩ | ⟨h5, _⟩ | ⟨cb', args', h5, hm, hl', h6⟩
  · rw [hcl] at h5; cases h5
  · rw [hcl] at h5; cases h5
  · rw [hcl] at h5
    injection h5 with e1 e2
    subst e1 e2
    rcases h6 with ⟨hd, h6⟩ | ⟨f, _, hd, h6⟩
    · cases hu : undecodables P p.e p.s cb.sig.params args with
      | some f => rw [hu, hd.1] at hx; cases hx
      | none =>
        rcases h6 with ⟨r, w', hfn, hr, h6⟩ | ⟨w', b', hfn, h6⟩ | ⟨f, hfn, h6⟩
        · simp only [hfn]
          obtain ⟨b2, h7, h8⟩ := put_request_eq hP h1 hb1 hcl hd w
          rcases h6 with ⟨b', h6, h9, _, h10⟩ | ⟨h9, h6⟩
          · rw [if_neg ?_]
            · exact ⟨b', Eff.bind_ret h6, h9, h2.trans h10⟩
            · intro hlt
              rw [hfn] at h8
              simp only at h8
              rw [if_neg (by rw [response_length hg hr, (h2.trans h7).outLen]; omega), h6] at h8
              cases h8
          · rw [h2.outLen] at h9
            rw [if_pos h9]
            exact Eff.bind_fault h6
        · simp only [hfn]
          exact ⟨b', Eff.bind_threw h6⟩
        · simp only [hfn]
          exact Eff.bind_fault h6
    · cases hu : undecodables P p.e p.s cb.sig.params args with
      | some f' =>
        rw [hu, hd] at hx
        injection hx with hx
        subst hx
        exact Eff.bind_fault h6
      | none => rw [hu, hd] at hx; cases hx

/-- Any bytes. -/
theorem puts_exact {P : Platform} (hP : P.Valid) {p : Proto σ} {room : Nat} {bs rest : List Byte} {ps : List (Packet σ)}
    (hcut : Cuts p bs ps rest) :
    ∀ {b : Buf σ} {w : σ}, RelIn p b [] → BufOk P p b → b.out.length = room →
    match serveExact P p room rest ps w with
    | .ret sts w' => ∃ b', puts P bs (b, w) = .ret sts (b', w') ∧ RelIn p b' rest ∧ Same b b'
    | .threw w' => ∃ b', puts P bs (b, w) = .threw (b', w')
    | .fault f => puts P bs (b, w) = .fault f := by
  induction hcut with
  | rest hi =>
    intro b w h hb _
    obtain ⟨b', h1, h2, h3, _⟩ := puts_loading hP w h hb (by simpa using hi)
    exact ⟨b', h1, by simpa using h2, h3⟩
  | @invalid index bs rest ps hl hc _ ih =>
    intro b w h hb ho
    obtain ⟨b1, h1, h2, h3, _⟩ := puts_invalid hP w h hb hl hc
    have := ih (w := w) h2 (hb.same h3) (h3.outLen.trans ho)
    rw [puts_append, Eff.bind_ret h1]
    revert this
    show _ → match (serveExact P p room rest ps >>= fun sts =>
      pure (List.replicate (index.length - 1) .loading ++ .dropped :: sts)) w with | .ret sts w' => _ | .threw w' => _ | .fault f => _
    cases hs : serveExact P p room rest ps w with
    | ret sts w' =>
      rw [Eff.bind_ret hs]
      rintro ⟨b', h4, h5, h6⟩
      exact ⟨b', by rw [Eff.bind_ret h4]; simp, h5, h3.trans h6⟩
    | threw w' =>
      rw [Eff.bind_threw hs]
      rintro ⟨b', h4⟩
      exact ⟨b', by rw [Eff.bind_threw h4]⟩
    | fault f =>
      rw [Eff.bind_fault hs]
      intro h4
      exact Eff.bind_fault h4
  | @call cb index args bs rest ps hl hc ha _ ih =>
    intro b w h hb ho
    have h1 := puts_call_exact hP w h hb hl hc ha
    rw [puts_append]
    cases hu : undecodables P p.e p.s cb.sig.params args with
    | some f =>
      simp only [hu] at h1
      simp only [serveExact, hu]
      exact Eff.bind_fault h1
    | none =>
      simp only [hu] at h1
      simp only [serveExact, hu]
      revert h1
      cases hfn : cb.fn (unwires p.e p.s cb.sig.params args) w with
      | fault f => rw [Eff.bind_fault hfn]; intro h1; exact Eff.bind_fault h1
      | threw w' => rw [Eff.bind_threw hfn]; rintro ⟨b', h1⟩; exact ⟨b', Eff.bind_threw h1⟩
      | ret r w1 =>
        rw [Eff.bind_ret hfn, ho]
        by_cases hroom : room < retSize cb.sig.ret
        · dsimp only
          rw [if_pos hroom, if_pos hroom]
          intro h1
          exact Eff.bind_fault h1
        · dsimp only
          rw [if_neg hroom, if_neg hroom]
          rintro ⟨b1, h1, h2, h3⟩
          have := ih (w := w1) h2 (hb.same h3) (h3.outLen.trans ho)
          rw [Eff.bind_ret h1]
          revert this
          cases hs : serveExact P p room rest ps w1 with
          | ret sts w' =>
            rw [Eff.bind_ret hs]
            rintro ⟨b', h4, h5, h6⟩
            exact ⟨b', by rw [Eff.bind_ret h4]; simp, h5, h3.trans h6⟩
          | threw w' =>
            rw [Eff.bind_threw hs]
            rintro ⟨b', h4⟩
            exact ⟨b', by rw [Eff.bind_threw h4]⟩
          | fault f =>
            rw [Eff.bind_fault hs]
            intro h4
            exact Eff.bind_fault h4

end Upd
