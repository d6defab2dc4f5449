import Verif.Lemmas.Decode

/-! Helper lemmas: a write leaves the bytes outside of the announced size unchanged, on every platform, for every value. -/

namespace Upd
open Spec

/-- `m'` differs from `m` at most on `[off, off + n)`. -/
def Frame (m m' : Mem) (off n : Nat) : Prop :=
  m'.length = m.length ∧ ∀ i, i < off ∨ off + n ≤ i → m'[i]? = m[i]?

theorem Frame.refl (m : Mem) (off n : Nat) : Frame m m off n := ⟨rfl, fun _ _ => rfl⟩

theorem Frame.trans {a b c : Mem} {off n : Nat} (h1 : Frame a b off n) (h2 : Frame b c off n) : Frame a c off n :=
  ⟨h2.1.trans h1.1, fun i hi => (h2.2 i hi).trans (h1.2 i hi)⟩

theorem Frame.mono {a b : Mem} {off n off' n' : Nat} (h : Frame a b off n) (h1 : off' ≤ off)
    (h2 : off + n ≤ off' + n') : Frame a b off' n' := ⟨h.1, fun i hi => h.2 i (by omega)⟩

theorem Frame.wr {m m' : Mem} {i : Nat} {b : Byte} (h : m.wr i b = .ok m') : Frame m m' i 1 := by
  unfold Mem.wr at h
  split at h
  · injection h with h
    subst h
    refine ⟨by simp, fun j hj => ?_⟩
    rw [List.getElem?_set, if_neg (by omega)]
  · cases h

theorem Frame.wrN {m m' : Mem} {off : Nat} {bs : List Byte} (h : m.wrN off bs = .ok m') :
    Frame m m' off bs.length := by
  induction bs generalizing m off with
  | nil => injection h with h; subst h; exact Frame.refl _ _ _
  | cons b bs ih =>
    rw [Mem.wrN] at h
    obtain ⟨m1, h1, h⟩ := except_bind_eq_ok h
    simp only [List.length_cons]
    exact (Frame.mono (Frame.wr h1) (by omega) (by omega)).trans (Frame.mono (ih h) (by omega) (by omega))

theorem rdN_length {m : Mem} {off n : Nat} {bs : List Byte} (h : m.rdN off n = .ok bs) : bs.length = n := by
  induction n generalizing off bs with
  | zero => injection h with h; subst h; rfl
  | succ n ih =>
    rw [Mem.rdN] at h
    obtain ⟨b, _, h⟩ := except_bind_eq_ok h
    obtain ⟨bs', h2, h⟩ := except_bind_eq_ok h
    injection h with h
    subst h
    simp [ih h2]

theorem Frame.toEndianess {P : Platform} {w : Nat} {e : Endian} {mem mem' : Mem} {off : Nat} {x : BitVec w} {n : Nat}
    (h : toEndianess P e mem off x n = .ok mem') : Frame mem mem' off n := by
  unfold Upd.toEndianess at h
  split at h
  · obtain ⟨bs, h1, h⟩ := except_bind_eq_ok h
    have := Frame.wrN h
    rwa [rdN_length h1] at this
  · unfold toEndianessImpl at h
    have key : ∀ (rem i : Nat) (x : BitVec w) (m : Mem), i + rem = n →
        toEndianessLoop P e off n rem i x m = .ok mem' → Frame m mem' off n := by
      intro rem
      induction rem with
      | zero => intro i x m _ h; injection h with h; subst h; exact Frame.refl _ _ _
      | succ rem ih =>
        intro i x m hi h
        rw [toEndianessLoop] at h
        obtain ⟨m1, h1, h⟩ := except_bind_eq_ok h
        obtain ⟨x1, _, h⟩ := except_bind_eq_ok h
        refine (Frame.mono (Frame.wr h1) (by omega) ?_).trans (ih (i + 1) x1 m1 (by omega) h)
        cases e <;> simp only [endianPos] <;> omega
    exact key n 0 x mem (by omega) h

mutual
theorem writeAs_frame {P : Platform} {e : Endian} {s : Mode} :
    ∀ (t : Ty) (v : Val) (mem mem' : Mem) (off : Nat), Loose t → writeAs P e s t v mem off = .ok mem' →
      Frame mem mem' off t.serSize
  | .bool, .bool b, mem, mem', off, _, h => Frame.wr h
  | .uint n, .int z, mem, mem', off, _, h => Frame.toEndianess h
  | .sint k, .int z, mem, mem', off, _, h => by
    rw [writeAs, writeSint] at h
    obtain ⟨x, _, h⟩ := except_bind_eq_ok h
    exact Frame.toEndianess h
  | .arr t n, .arr vs, mem, mem', off, hl, h => by
    simp only [Loose] at hl
    rw [writeAs] at h
    split at h
    · rename_i hlen
      simp only [Ty.serSize]
      rw [← hlen]
      clear hlen
      induction vs generalizing mem off with
      | nil => injection h with h; subst h; exact Frame.refl _ _ _
      | cons v vs ih =>
        rw [writeLoop] at h
        obtain ⟨m1, h1, h⟩ := except_bind_eq_ok h
        have f1 := writeAs_frame t v mem m1 off hl.1 h1
        have f2 := ih m1 (off + t.sizeof) h
        rw [List.length_cons, Nat.succ_mul]
        exact (Frame.mono f1 (by omega) (by omega)).trans (Frame.mono f2 (by omega) (by omega))
    · cases h
  | .user _ fs, .user vs, mem, mem', off, hl, h => by
    simp only [Loose] at hl
    rw [writeAs] at h
    simp only [Ty.serSize]
    exact writeAll_frame fs vs mem mem' off hl h
  | .bool, .int _, _, _, _, _, h | .bool, .arr _, _, _, _, _, h | .bool, .user _, _, _, _, _, h
  | .uint _, .bool _, _, _, _, _, h | .uint _, .arr _, _, _, _, _, h | .uint _, .user _, _, _, _, _, h
  | .sint _, .bool _, _, _, _, _, h | .sint _, .arr _, _, _, _, _, h | .sint _, .user _, _, _, _, _, h
  | .arr _ _, .bool _, _, _, _, _, h | .arr _ _, .int _, _, _, _, _, h | .arr _ _, .user _, _, _, _, _, h
  | .user _ _, .bool _, _, _, _, _, h | .user _ _, .int _, _, _, _, _, h
  | .user _ _, .arr _, _, _, _, _, h => by simp [writeAs] at h

theorem writeAll_frame {P : Platform} {e : Endian} {s : Mode} :
    ∀ (ts : List Ty) (vs : List Val) (mem mem' : Mem) (off : Nat), LooseAll ts →
      writeAll P e s ts vs mem off = .ok mem' → Frame mem mem' off (Ty.serSizes ts)
  | [], [], mem, mem', off, _, h => by
    rw [writeAll] at h; injection h with h; subst h; exact Frame.refl _ _ _
  | t :: ts, v :: vs, mem, mem', off, hl, h => by
    simp only [LooseAll] at hl
    rw [writeAll] at h
    obtain ⟨m1, h1, h⟩ := except_bind_eq_ok h
    have f1 := writeAs_frame t v mem m1 off hl.1 h1
    have f2 := writeAll_frame ts vs m1 mem' _ hl.2 h
    simp only [Ty.serSizes]
    exact (Frame.mono f1 (by omega) (by omega)).trans (Frame.mono f2 (by omega) (by omega))
  | [], _ :: _, _, _, _, _, h | _ :: _, [], _, _, _, _, h => by simp [writeAll] at h
end

/-- Reading depends only on the bytes announced. -/
theorem matches_congr {m m' : Mem} {off : Nat} {cs : List (Option Byte)}
    (h : ∀ i, i < cs.length → m'[off + i]? = m[off + i]?) (hm : Matches m off cs) : Matches m' off cs := by
  intro i b hi
  have hlt : i < cs.length := by
    apply Nat.lt_of_not_le
    intro hle
    rw [List.getElem?_eq_none hle] at hi
    cases hi
  rw [h i hlt]
  exact hm i b hi

end Upd
