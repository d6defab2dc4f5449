import Verif.Lemmas.Tuple2
import Verif.Lemmas.Decode

/-! Helper lemmas: reading or writing succeeds only if the bytes of the type are inside the object. -/

namespace Upd
open Spec

theorem packedAll_take {ts : List Ty} (h : PackedAll ts) : ∀ i, PackedAll (ts.take i) := by
  induction ts with
  | nil => intro i; simp [PackedAll]
  | cons t ts ih =>
    simp only [PackedAll] at h
    intro i
    cases i with
    | zero => simp [PackedAll]
    | succ i => simp only [List.take_succ_cons, PackedAll]; exact ⟨h.1, ih h.2 i⟩

theorem sizeof_pos : ∀ t : Ty, t.WF → 1 ≤ t.sizeof
  | .bool, _ => by simp [Ty.sizeof]
  | .uint n, h => by simpa [Ty.sizeof, Ty.WF] using h
  | .sint n, h => by simp only [Ty.sizeof, Ty.WF] at h ⊢; exact h.1
  | .arr t n, h => by
    simp only [Ty.sizeof, Ty.WF] at h ⊢
    exact Nat.mul_le_mul h.2 (sizeof_pos t h.1)
  | .user size fs, h => by simp only [Ty.sizeof, Ty.WF] at h ⊢; exact h.1

theorem rd_eq_ok {m : Mem} {i : Nat} {b : Byte} (h : m.rd i = .ok b) : i < m.length := by
  unfold Mem.rd at h
  by_cases hi : i < m.length
  · exact hi
  · rw [List.getElem?_eq_none (by omega)] at h
    cases h

theorem wr_eq_ok {m m' : Mem} {i : Nat} {b : Byte} (h : m.wr i b = .ok m') : i < m.length ∧ m'.length = m.length := by
  unfold Mem.wr at h
  by_cases hi : i < m.length
  · rw [if_pos hi] at h
    injection h with h
    subst h
    exact ⟨hi, by simp⟩
  · rw [if_neg hi] at h
    cases h

theorem rdN_eq_ok {m : Mem} : ∀ {n off : Nat} {bs : List Byte}, m.rdN off n = .ok bs → n = 0 ∨ off + n ≤ m.length
  | 0, _, _, _ => Or.inl rfl
  | n + 1, off, bs, h => by
    rw [Mem.rdN] at h
    obtain ⟨b, hb, h⟩ := except_bind_eq_ok h
    obtain ⟨cs, hcs, _⟩ := except_bind_eq_ok h
    have := rd_eq_ok hb
    rcases rdN_eq_ok hcs with h | h <;> omega

theorem wrN_eq_ok : ∀ {bs : List Byte} {m m' : Mem} {off : Nat}, m.wrN off bs = .ok m' →
    (bs.length = 0 ∨ off + bs.length ≤ m.length) ∧ m'.length = m.length
  | [], m, m', _, h => by
    rw [Mem.wrN] at h
    injection h with h
    subst h
    exact ⟨Or.inl rfl, rfl⟩
  | b :: bs, m, m', off, h => by
    rw [Mem.wrN] at h
    obtain ⟨m1, h1, h⟩ := except_bind_eq_ok h
    obtain ⟨hi, hl⟩ := wr_eq_ok h1
    obtain ⟨h2, h3⟩ := wrN_eq_ok h
    rw [List.length_cons]
    constructor
    · right
      rcases h2 with h2 | h2 <;> omega
    · omega

theorem fromEndianessLoop_bounds {P : Platform} {w : Nat} {e : Endian} {mem : Mem} {off n : Nat} :
    ∀ {rem i shift : Nat} {acc x : BitVec w}, fromEndianessLoop P w e mem off n rem i shift acc = .ok x →
      ∀ j, i ≤ j → j < i + rem → off + endianPos e n j < mem.length
  | 0, _, _, _, _, _, j, h1, h2 => by omega
  | rem + 1, i, shift, acc, x, h, j, h1, h2 => by
    rw [fromEndianessLoop] at h
    obtain ⟨b, hb, h⟩ := except_bind_eq_ok h
    obtain ⟨t, _, h⟩ := except_bind_eq_ok h
    by_cases hj : j = i
    · rw [hj]; exact rd_eq_ok hb
    · exact fromEndianessLoop_bounds h j (by omega) (by omega)

theorem fromEndianess_bounds {P : Platform} {w : Nat} {e : Endian} {mem : Mem} {off n : Nat} {x : BitVec w}
    (h : fromEndianess P w e mem off n = .ok x) : n = 0 ∨ off + n ≤ mem.length := by
  unfold fromEndianess at h
  split at h
  · obtain ⟨bs, hb, _⟩ := except_bind_eq_ok h
    exact rdN_eq_ok hb
  · by_cases hn : n = 0
    · exact Or.inl hn
    · right
      cases e
      · have := fromEndianessLoop_bounds h (n - 1) (by omega) (by omega)
        simp only [endianPos] at this
        omega
      · have := fromEndianessLoop_bounds h 0 (by omega) (by omega)
        simp only [endianPos] at this
        omega

theorem toEndianessLoop_bounds {P : Platform} {w : Nat} {e : Endian} {off n : Nat} :
    ∀ {rem i : Nat} {x : BitVec w} {mem mem' : Mem}, toEndianessLoop P e off n rem i x mem = .ok mem' →
      (∀ j, i ≤ j → j < i + rem → off + endianPos e n j < mem.length) ∧ mem'.length = mem.length
  | 0, _, _, mem, mem', h => by
    rw [toEndianessLoop] at h
    injection h with h
    subst h
    exact ⟨fun j h1 h2 => by omega, rfl⟩
  | rem + 1, i, x, mem, mem', h => by
    rw [toEndianessLoop] at h
    obtain ⟨m1, h1, h⟩ := except_bind_eq_ok h
    obtain ⟨y, _, h⟩ := except_bind_eq_ok h
    obtain ⟨hi, hl⟩ := wr_eq_ok h1
    obtain ⟨h2, h3⟩ := toEndianessLoop_bounds h
    refine ⟨fun j hj1 hj2 => ?_, by omega⟩
    by_cases hj : j = i
    · rw [hj]; exact hi
    · have := h2 j (by omega) (by omega)
      omega

theorem toEndianess_bounds {P : Platform} {w : Nat} {e : Endian} {mem mem' : Mem} {off n : Nat} {x : BitVec w}
    (h : toEndianess P e mem off x n = .ok mem') : (n = 0 ∨ off + n ≤ mem.length) ∧ mem'.length = mem.length := by
  unfold toEndianess at h
  split at h
  · obtain ⟨bs, hb, h⟩ := except_bind_eq_ok h
    obtain ⟨h1, h2⟩ := wrN_eq_ok h
    have hl : bs.length = n := by
      rcases rdN_eq_ok hb with h0 | h0
      · subst h0
        rw [Mem.rdN] at hb
        injection hb with hb
        rw [← hb]
        rfl
      · rw [Mem.rdN_ok h0] at hb
        injection hb with hb
        rw [← hb]
        exact slice_length h0
    rw [hl] at h1
    exact ⟨h1, h2⟩
  · obtain ⟨h1, h2⟩ := toEndianessLoop_bounds h
    refine ⟨?_, h2⟩
    by_cases hn : n = 0
    · exact Or.inl hn
    · right
      cases e
      · have := h1 (n - 1) (by omega) (by omega)
        simp only [endianPos] at this
        omega
      · have := h1 0 (by omega) (by omega)
        simp only [endianPos] at this
        omega

mutual
theorem readAs_bounds {P : Platform} {e : Endian} {s : Mode} : ∀ (t : Ty) (mem : Mem) (off : Nat) (v : Val), Packed t →
    readAs P e s t mem off = .ok v → wireSize t = 0 ∨ off + wireSize t ≤ mem.length
  | .bool, mem, off, v, _, h => by
    rw [readAs, readBool] at h
    obtain ⟨b, hb, _⟩ := except_bind_eq_ok h
    obtain ⟨c, hc, _⟩ := except_bind_eq_ok hb
    have := rd_eq_ok hc
    right
    simp only [wireSize]
    omega
  | .uint n, mem, off, v, _, h => by
    rw [readAs, readUint] at h
    obtain ⟨b, hb, _⟩ := except_bind_eq_ok h
    obtain ⟨c, hc, _⟩ := except_bind_eq_ok hb
    simp only [wireSize]
    exact fromEndianess_bounds hc
  | .sint n, mem, off, v, _, h => by
    rw [readAs, readSint] at h
    obtain ⟨b, hb, _⟩ := except_bind_eq_ok h
    obtain ⟨c, hc, _⟩ := except_bind_eq_ok hb
    simp only [wireSize]
    exact fromEndianess_bounds hc
  | .arr t n, mem, off, v, hp, h => by
    simp only [Packed] at hp
    rw [readAs] at h
    obtain ⟨vs, hv, _⟩ := except_bind_eq_ok h
    clear h
    simp only [wireSize]
    have key : ∀ n off vs, readLoop (readAs P e s t) t.sizeof mem n off = .ok vs →
        n * wireSize t = 0 ∨ off + n * wireSize t ≤ mem.length := by
      intro n
      induction n with
      | zero => intro off vs _; left; omega
      | succ n ih =>
        intro off vs h
        rw [readLoop] at h
        obtain ⟨w, hw, h⟩ := except_bind_eq_ok h
        obtain ⟨ws, hws, _⟩ := except_bind_eq_ok h
        have h1 := readAs_bounds t mem off w hp.1 hw
        have h2 := ih _ _ hws
        rw [hp.2] at h2
        rw [Nat.succ_mul]
        rcases h1 with h1 | h1
        · left; rw [h1]; simp
        · rcases h2 with h2 | h2 <;> omega
    exact key n off vs hv
  | .user _ fs, mem, off, v, hp, h => by
    simp only [Packed] at hp
    rw [readAs] at h
    obtain ⟨vs, hv, _⟩ := except_bind_eq_ok h
    simp only [wireSize]
    exact readAll_bounds fs mem off vs hp hv

theorem readAll_bounds {P : Platform} {e : Endian} {s : Mode} : ∀ (ts : List Ty) (mem : Mem) (off : Nat) (vs : List Val),
    PackedAll ts → readAll P e s ts mem off = .ok vs → wireSizes ts = 0 ∨ off + wireSizes ts ≤ mem.length
  | [], _, _, _, _, _ => Or.inl (by simp [wireSizes])
  | t :: ts, mem, off, vs, hp, h => by
    simp only [PackedAll] at hp
    rw [readAll] at h
    obtain ⟨w, hw, h⟩ := except_bind_eq_ok h
    obtain ⟨ws, hws, _⟩ := except_bind_eq_ok h
    have h1 := readAs_bounds t mem off w hp.1 hw
    have h2 := readAll_bounds ts mem _ ws hp.2 hws
    rw [packed_serSize t hp.1] at h2
    simp only [wireSizes]
    rcases h1 with h1 | h1 <;> rcases h2 with h2 | h2 <;> omega
end

mutual
theorem writeAs_bounds {P : Platform} {e : Endian} {s : Mode} : ∀ (t : Ty) (v : Val) (mem mem' : Mem) (off : Nat),
    Packed t → writeAs P e s t v mem off = .ok mem' →
      (wireSize t = 0 ∨ off + wireSize t ≤ mem.length) ∧ mem'.length = mem.length
  | .bool, .bool b, mem, mem', off, _, h => by
    rw [writeAs, writeBool] at h
    obtain ⟨h1, h2⟩ := wr_eq_ok h
    simp only [wireSize]
    exact ⟨Or.inr (by omega), h2⟩
  | .uint n, .int z, mem, mem', off, _, h => by
    rw [writeAs, writeUint] at h
    simp only [wireSize]
    exact toEndianess_bounds h
  | .sint n, .int z, mem, mem', off, _, h => by
    rw [writeAs, writeSint] at h
    obtain ⟨c, _, h⟩ := except_bind_eq_ok h
    simp only [wireSize]
    exact toEndianess_bounds h
  | .arr t n, .arr vs, mem, mem', off, hp, h => by
    simp only [Packed] at hp
    rw [writeAs] at h
    split at h
    · rename_i hlen
      simp only [wireSize]
      rw [← hlen]
      clear hlen
      have key : ∀ (vs : List Val) (off : Nat) (mem mem' : Mem),
          writeLoop (writeAs P e s t) t.sizeof vs mem off = .ok mem' →
          (vs.length * wireSize t = 0 ∨ off + vs.length * wireSize t ≤ mem.length) ∧ mem'.length = mem.length := by
        intro vs
        induction vs with
        | nil =>
          intro off mem mem' h
          rw [writeLoop] at h
          injection h with h
          subst h
          exact ⟨Or.inl (by simp), rfl⟩
        | cons v vs ih =>
          intro off mem mem' h
          rw [writeLoop] at h
          obtain ⟨m1, h1, h⟩ := except_bind_eq_ok h
          obtain ⟨h1, hl1⟩ := writeAs_bounds t v mem m1 off hp.1 h1
          obtain ⟨h2, hl2⟩ := ih _ _ _ h
          rw [hp.2] at h2
          rw [List.length_cons, Nat.succ_mul]
          refine ⟨?_, by omega⟩
          rcases h1 with h1 | h1
          · left; rw [h1]; simp
          · rcases h2 with h2 | h2 <;> omega
      exact key vs off mem mem' h
    · cases h
  | .user _ fs, .user vs, mem, mem', off, hp, h => by
    simp only [Packed] at hp
    rw [writeAs] at h
    simp only [wireSize]
    exact writeAll_bounds fs vs mem mem' off hp h
  | .bool, .int _, _, _, _, _, h | .bool, .arr _, _, _, _, _, h | .bool, .user _, _, _, _, _, h
  | .uint _, .bool _, _, _, _, _, h | .uint _, .arr _, _, _, _, _, h | .uint _, .user _, _, _, _, _, h
  | .sint _, .bool _, _, _, _, _, h | .sint _, .arr _, _, _, _, _, h | .sint _, .user _, _, _, _, _, h
  | .arr _ _, .bool _, _, _, _, _, h | .arr _ _, .int _, _, _, _, _, h | .arr _ _, .user _, _, _, _, _, h
  | .user _ _, .bool _, _, _, _, _, h | .user _ _, .int _, _, _, _, _, h | .user _ _, .arr _, _, _, _, _, h => by
    simp [writeAs] at h

theorem writeAll_bounds {P : Platform} {e : Endian} {s : Mode} : ∀ (ts : List Ty) (vs : List Val) (mem mem' : Mem)
    (off : Nat), PackedAll ts → writeAll P e s ts vs mem off = .ok mem' →
      (wireSizes ts = 0 ∨ off + wireSizes ts ≤ mem.length) ∧ mem'.length = mem.length
  | [], [], mem, mem', _, _, h => by
    rw [writeAll] at h
    injection h with h
    subst h
    exact ⟨Or.inl (by simp [wireSizes]), rfl⟩
  | t :: ts, v :: vs, mem, mem', off, hp, h => by
    simp only [PackedAll] at hp
    rw [writeAll] at h
    obtain ⟨m1, h1, h⟩ := except_bind_eq_ok h
    obtain ⟨h1, hl1⟩ := writeAs_bounds t v mem m1 off hp.1 h1
    obtain ⟨h2, hl2⟩ := writeAll_bounds ts vs _ _ _ hp.2 h
    rw [packed_serSize t hp.1] at h2
    simp only [wireSizes]
    refine ⟨?_, by omega⟩
    rcases h1 with h1 | h1 <;> rcases h2 with h2 | h2 <;> omega
  | [], _ :: _, _, _, _, _, h | _ :: _, [], _, _, _, _, h => by simp [writeAll] at h
end

end Upd
