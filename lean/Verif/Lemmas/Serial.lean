import Verif.Lemmas.Scalar
import Verif.Spec.Types

/-! Helper lemmas: reading and writing values of any serializable type. A serialized value is described by a list of
cells; a cell is `none` for a byte which is not written (gap between array elements whose `sizeof` exceeds their
serialized size). -/

namespace Upd
open Spec

mutual
def cells (e : Endian) (s : Mode) : Ty → Val → List (Option Byte)
  | .bool, .bool b => [some (if b then 1#8 else 0#8)]
  | .uint n, .int z => (wireBytes e n z.toNat).map some
  | .sint k, .int z => (wireBytes e k (signedCode s k z)).map some
  | .arr t _, .arr vs => vs.flatMap fun v => cells e s t v ++ List.replicate (t.sizeof - t.serSize) none
  | .user _ fs, .user vs => cellsAll e s fs vs
  | _, _ => []

def cellsAll (e : Endian) (s : Mode) : List Ty → List Val → List (Option Byte)
  | t :: ts, v :: vs => cells e s t v ++ cellsAll e s ts vs
  | _, _ => []
end

mutual
theorem cells_length (e : Endian) (s : Mode) (leaf : Nat → Int → Prop) :
    ∀ (t : Ty) (v : Val), Loose t → v.Fits leaf t → (cells e s t v).length = t.serSize
  | .bool, .bool b, _, _ => by simp [cells, Ty.serSize]
  | .uint n, .int z, _, _ => by simp [cells, Ty.serSize]
  | .sint k, .int z, _, _ => by simp [cells, Ty.serSize]
  | .arr t n, .arr vs, hl, hf => by
    simp only [Loose] at hl
    simp only [Val.Fits] at hf
    obtain ⟨hlen, hall⟩ := hf
    simp only [cells, Ty.serSize]
    rw [← hlen]
    clear hlen
    induction vs with
    | nil => simp
    | cons v vs ih =>
      have h1 := cells_length e s leaf t v hl.1 (hall v (by simp))
      have h2 := ih (fun w hw => hall w (by simp [hw]))
      rw [List.flatMap_cons, List.length_append, List.length_append, h1, h2, List.length_replicate, List.length_cons,
        Nat.succ_mul]
      omega
  | .user _ fs, .user vs, hl, hf => by
    simp only [Loose] at hl
    simp only [Val.Fits] at hf
    simp only [cells, Ty.serSize]
    exact cellsAll_length e s leaf fs vs hl hf
  | .bool, .int _, _, h | .bool, .arr _, _, h | .bool, .user _, _, h | .uint _, .bool _, _, h | .uint _, .arr _, _, h
  | .uint _, .user _, _, h | .sint _, .bool _, _, h | .sint _, .arr _, _, h | .sint _, .user _, _, h
  | .arr _ _, .bool _, _, h | .arr _ _, .int _, _, h | .arr _ _, .user _, _, h
  | .user _ _, .bool _, _, h | .user _ _, .int _, _, h | .user _ _, .arr _, _, h => by simp [Val.Fits] at h

theorem cellsAll_length (e : Endian) (s : Mode) (leaf : Nat → Int → Prop) :
    ∀ (ts : List Ty) (vs : List Val), LooseAll ts → Val.FitsAll leaf ts vs →
      (cellsAll e s ts vs).length = Ty.serSizes ts
  | [], [], _, _ => by simp [cellsAll, Ty.serSizes]
  | t :: ts, v :: vs, hl, hf => by
    simp only [LooseAll] at hl
    simp only [Val.FitsAll] at hf
    simp only [cellsAll, Ty.serSizes, List.length_append]
    rw [cells_length e s leaf t v hl.1 hf.1, cellsAll_length e s leaf ts vs hl.2 hf.2]
  | [], _ :: _, _, h | _ :: _, [], _, h => by simp [Val.FitsAll] at h
end

/-- Store the written cells at `off`. -/
def overlay (m : Mem) (off : Nat) : List (Option Byte) → Mem
  | [] => m
  | none :: cs => overlay m (off + 1) cs
  | some b :: cs => overlay (m.set off b) (off + 1) cs

theorem overlay_append (m : Mem) (off : Nat) (as bs : List (Option Byte)) :
    overlay m off (as ++ bs) = overlay (overlay m off as) (off + as.length) bs := by
  induction as generalizing m off with
  | nil => simp [overlay]
  | cons a as ih =>
    cases a <;> simp only [List.cons_append, overlay, ih, List.length_cons] <;> congr 1 <;> omega

theorem overlay_replicate_none (m : Mem) (off n : Nat) : overlay m off (List.replicate n none) = m := by
  induction n generalizing off with
  | zero => rfl
  | succ n ih => simp [List.replicate_succ, overlay, ih]

@[simp] theorem overlay_length (m : Mem) (off : Nat) (cs : List (Option Byte)) :
    (overlay m off cs).length = m.length := by
  induction cs generalizing m off with
  | nil => rfl
  | cons c cs ih => cases c <;> simp [overlay, ih]

theorem overlay_map_some {m : Mem} {off : Nat} {bs : List Byte} (h : off + bs.length ≤ m.length) :
    overlay m off (bs.map some) = splice m off bs := by
  induction bs generalizing m off with
  | nil => simp [overlay, splice_nil]
  | cons b bs ih =>
    simp only [List.length_cons] at h
    simp only [List.map_cons, overlay]
    rw [ih (by simp; omega), splice_set_cons h]

theorem overlay_getElem?_out {m : Mem} {off : Nat} {cs : List (Option Byte)} {i : Nat}
    (h : i < off ∨ off + cs.length ≤ i) : (overlay m off cs)[i]? = m[i]? := by
  induction cs generalizing m off with
  | nil => rfl
  | cons c cs ih =>
    simp only [List.length_cons] at h
    cases c
    · rw [overlay, ih (by omega)]
    · rw [overlay, ih (by omega), List.getElem?_set, if_neg (by omega)]

theorem overlay_getElem?_in {m : Mem} {off : Nat} {cs : List (Option Byte)} {i : Nat} {b : Byte}
    (h : cs[i]? = some (some b)) (hl : off + cs.length ≤ m.length) : (overlay m off cs)[off + i]? = some b := by
  induction cs generalizing m off i with
  | nil => simp at h
  | cons c cs ih =>
    simp only [List.length_cons] at hl
    cases i with
    | zero =>
      simp only [List.getElem?_cons_zero, Option.some.injEq] at h
      subst h
      rw [overlay, overlay_getElem?_out (by omega)]
      exact List.getElem?_set_self (by omega)
    | succ i =>
      simp only [List.getElem?_cons_succ] at h
      have e1 : off + (i + 1) = off + 1 + i := by omega
      rw [e1]
      cases c
      · rw [overlay]; exact ih h (by omega)
      · rw [overlay]; exact ih h (by simp; omega)

theorem overlay_getElem?_gap {m : Mem} {off : Nat} {cs : List (Option Byte)} {i : Nat}
    (h : cs[i]? = some none) : (overlay m off cs)[off + i]? = m[off + i]? := by
  induction cs generalizing m off i with
  | nil => simp at h
  | cons c cs ih =>
    cases i with
    | zero =>
      simp only [List.getElem?_cons_zero, Option.some.injEq] at h
      subst h
      rw [overlay, overlay_getElem?_out (by omega)]
    | succ i =>
      simp only [List.getElem?_cons_succ] at h
      have e1 : off + (i + 1) = off + 1 + i := by omega
      rw [e1]
      cases c
      · rw [overlay]; exact ih h
      · rw [overlay, ih h, List.getElem?_set, if_neg (by omega)]

/-- The memory holds the cells at `off`. -/
def Matches (m : Mem) (off : Nat) (cs : List (Option Byte)) : Prop :=
  ∀ i b, cs[i]? = some (some b) → m[off + i]? = some b

theorem matches_overlay {m : Mem} {off : Nat} {cs : List (Option Byte)} (h : off + cs.length ≤ m.length) :
    Matches (overlay m off cs) off cs := fun _ _ hi => overlay_getElem?_in hi h

theorem matches_append {m : Mem} {off : Nat} {as bs : List (Option Byte)} (h : Matches m off (as ++ bs)) :
    Matches m off as ∧ Matches m (off + as.length) bs := by
  constructor
  · intro i b hi
    apply h
    rw [List.getElem?_append_left, hi]
    apply Nat.lt_of_not_le
    intro hle
    rw [List.getElem?_eq_none hle] at hi
    cases hi
  · intro i b hi
    have := h (as.length + i) b
    rw [List.getElem?_append_right (by omega)] at this
    have e1 : as.length + i - as.length = i := by omega
    rw [e1] at this
    rw [Nat.add_assoc]
    exact this hi

theorem matches_map_some {m : Mem} {off : Nat} {bs : List Byte} (h : Matches m off (bs.map some)) (h0 : 1 ≤ bs.length) :
    off + bs.length ≤ m.length ∧ slice m off bs.length = bs := by
  have hin : off + bs.length ≤ m.length := by
    have hlt : bs.length - 1 < bs.length := by omega
    have := h (bs.length - 1) bs[bs.length - 1] (by
      rw [List.getElem?_map, List.getElem?_eq_getElem hlt]; rfl)
    apply Nat.le_of_not_lt
    intro hgt
    rw [List.getElem?_eq_none (by omega)] at this
    cases this
  refine ⟨hin, ?_⟩
  apply List.ext_getElem?
  intro i
  rw [slice_getElem?]
  by_cases hi : i < bs.length
  · rw [if_pos hi, List.getElem?_eq_getElem hi]
    apply h
    rw [List.getElem?_map, List.getElem?_eq_getElem hi]; rfl
  · rw [if_neg hi, List.getElem?_eq_none (by omega)]

theorem except_bind_ok {α β : Type} (a : α) (f : α → M β) : (Except.ok a >>= f) = f a := rfl
theorem except_bind_error {α β : Type} (x : Fault) (f : α → M β) : ((Except.error x : M α) >>= f) = .error x := rfl

mutual
theorem writeAs_ok {P : Platform} (hP : P.Valid) {e : Endian} {s : Mode} (hs : Supported P e s) :
    ∀ (t : Ty) (v : Val) (mem : Mem) (off : Nat), t.WF → Loose t → v.Fits (Safe P s) t →
      off + t.serSize ≤ mem.length → writeAs P e s t v mem off = .ok (overlay mem off (cells e s t v))
  | .bool, .bool b, mem, off, _, _, _, h => by
    simp only [Ty.serSize] at h
    simp only [writeAs, writeBool, cells, overlay]
    exact Mem.wr_ok (by omega)
  | .uint n, .int z, mem, off, hw, _, hf, h => by
    simp only [Ty.serSize] at h
    simp only [Ty.WF] at hw
    simp only [Val.Fits] at hf
    simp only [writeAs, cells]
    rw [writeUint_ok hP e hw hf.1 hf.2 h, overlay_map_some (by simpa using h)]
  | .sint k, .int z, mem, off, hw, _, hf, h => by
    simp only [Ty.serSize] at h
    simp only [Ty.WF] at hw
    simp only [Val.Fits] at hf
    simp only [writeAs, cells]
    rw [writeSint_ok hP hs hw hf h, overlay_map_some (by simpa using h)]
  | .arr t n, .arr vs, mem, off, hw, hl, hf, h => by
    simp only [Ty.serSize] at h
    simp only [Ty.WF] at hw
    simp only [Loose] at hl
    simp only [Val.Fits] at hf
    obtain ⟨hlen, hall⟩ := hf
    simp only [writeAs, cells, if_pos hlen]
    rw [← hlen] at h
    clear hlen
    induction vs generalizing mem off with
    | nil => simp [writeLoop, overlay]
    | cons v vs ih =>
      simp only [List.length_cons, Nat.succ_mul] at h
      have hv := hall v (by simp)
      have h1 := writeAs_ok hP hs t v mem off hw.1 hl.1 hv (by have := Nat.zero_le (vs.length * t.sizeof); omega)
      rw [writeLoop, h1, except_bind_ok,
        ih (overlay mem off (cells e s t v)) (off + t.sizeof) (by rw [overlay_length]; omega)
          (fun w hw => hall w (by simp [hw]))]
      rw [List.flatMap_cons, overlay_append, overlay_append, overlay_replicate_none, List.length_append,
        cells_length e s _ t v hl.1 hv, List.length_replicate]
      congr 3
      omega
  | .user _ fs, .user vs, mem, off, hw, hl, hf, h => by
    simp only [Ty.serSize] at h
    simp only [Ty.WF] at hw
    simp only [Loose] at hl
    simp only [Val.Fits] at hf
    simp only [writeAs, cells]
    exact writeAll_ok hP hs fs vs mem off hw.2 hl hf h
  | .bool, .int _, _, _, _, _, h, _ | .bool, .arr _, _, _, _, _, h, _ | .bool, .user _, _, _, _, _, h, _
  | .uint _, .bool _, _, _, _, _, h, _ | .uint _, .arr _, _, _, _, _, h, _ | .uint _, .user _, _, _, _, _, h, _
  | .sint _, .bool _, _, _, _, _, h, _ | .sint _, .arr _, _, _, _, _, h, _ | .sint _, .user _, _, _, _, _, h, _
  | .arr _ _, .bool _, _, _, _, _, h, _ | .arr _ _, .int _, _, _, _, _, h, _ | .arr _ _, .user _, _, _, _, _, h, _
  | .user _ _, .bool _, _, _, _, _, h, _ | .user _ _, .int _, _, _, _, _, h, _
  | .user _ _, .arr _, _, _, _, _, h, _ => by simp [Val.Fits] at h

theorem writeAll_ok {P : Platform} (hP : P.Valid) {e : Endian} {s : Mode} (hs : Supported P e s) :
    ∀ (ts : List Ty) (vs : List Val) (mem : Mem) (off : Nat), Ty.WFs ts → LooseAll ts →
      Val.FitsAll (Safe P s) ts vs → off + Ty.serSizes ts ≤ mem.length →
      writeAll P e s ts vs mem off = .ok (overlay mem off (cellsAll e s ts vs))
  | [], [], mem, off, _, _, _, _ => by simp [writeAll, cellsAll, overlay]
  | t :: ts, v :: vs, mem, off, hw, hl, hf, h => by
    simp only [Ty.serSizes] at h
    simp only [Ty.WFs] at hw
    simp only [LooseAll] at hl
    simp only [Val.FitsAll] at hf
    rw [writeAll, writeAs_ok hP hs t v mem off hw.1 hl.1 hf.1 (by omega), except_bind_ok,
      writeAll_ok hP hs ts vs _ _ hw.2 hl.2 hf.2 (by rw [overlay_length]; omega), cellsAll, overlay_append,
      cells_length e s _ t v hl.1 hf.1]
  | [], _ :: _, _, _, _, _, h, _ | _ :: _, [], _, _, _, _, h, _ => by simp [Val.FitsAll] at h
end

theorem readBool_ok (P : Platform) (e : Endian) {mem : Mem} {off : Nat} {b : Bool}
    (h : mem[off]? = some (if b then 1#8 else 0#8)) : readBool P e mem off = .ok b := by
  unfold readBool
  rw [Mem.rd_eq h, except_bind_ok]
  cases b <;> simp <;> split <;> rfl

mutual
theorem readAs_ok {P : Platform} (hP : P.Valid) {e : Endian} {s : Mode} (hs : Supported P e s) :
    ∀ (t : Ty) (v : Val) (mem : Mem) (off : Nat), t.WF → Loose t → v.Fits (Safe P s) t →
      Matches mem off (cells e s t v) → readAs P e s t mem off = .ok v
  | .bool, .bool b, mem, off, _, _, _, h => by
    have h0 : mem[off]? = _ := h 0 (if b then 1#8 else 0#8) (by simp [cells])
    rw [readAs, readBool_ok P e h0]; rfl
  | .uint n, .int z, mem, off, hw, _, hf, h => by
    simp only [Ty.WF] at hw
    simp only [Val.Fits] at hf
    simp only [cells] at h
    obtain ⟨h1, h2⟩ := matches_map_some h (by simpa using hw)
    rw [wireBytes_length] at h1 h2
    rw [readAs, readUint_ok hP e h1, h2, wireValue_wireBytes]
    · rw [except_bind_ok]; congr 2; omega
    · have : ((z.toNat : Nat) : Int) < ((256 ^ n : Nat) : Int) := by
        rw [Int.toNat_of_nonneg hf.1]; simpa using hf.2
      exact Int.ofNat_lt.mp this
  | .sint k, .int z, mem, off, hw, _, hf, h => by
    simp only [Ty.WF] at hw
    simp only [Val.Fits] at hf
    simp only [cells] at h
    obtain ⟨h1, h2⟩ := matches_map_some h (by simpa using hw.1)
    rw [wireBytes_length] at h1 h2
    rw [readAs, readSint_ok hP hs hw hf h1 h2]; rfl
  | .arr t n, .arr vs, mem, off, hw, hl, hf, h => by
    simp only [Ty.WF] at hw
    simp only [Loose] at hl
    simp only [Val.Fits] at hf
    obtain ⟨hlen, hall⟩ := hf
    simp only [cells] at h
    have : readLoop (readAs P e s t) t.sizeof mem n off = .ok vs := by
      rw [← hlen]
      clear hlen
      induction vs generalizing off with
      | nil => rfl
      | cons v vs ih =>
        rw [List.flatMap_cons, List.append_assoc] at h
        obtain ⟨h1, h2⟩ := matches_append h
        obtain ⟨_, h3⟩ := matches_append h2
        have hv := hall v (by simp)
        have hoff : off + (cells e s t v).length + (List.replicate (t.sizeof - t.serSize) (none : Option Byte)).length
            = off + t.sizeof := by
          rw [cells_length e s _ t v hl.1 hv, List.length_replicate]; omega
        rw [hoff] at h3
        rw [List.length_cons, readLoop, readAs_ok hP hs t v mem off hw.1 hl.1 hv h1, except_bind_ok,
          ih (off + t.sizeof) h3 (fun w hw => hall w (by simp [hw]))]
        rfl
    rw [readAs, this]; rfl
  | .user _ fs, .user vs, mem, off, hw, hl, hf, h => by
    simp only [Ty.WF] at hw
    simp only [Loose] at hl
    simp only [Val.Fits] at hf
    simp only [cells] at h
    rw [readAs, readAll_ok hP hs fs vs mem off hw.2 hl hf h]; rfl
  | .bool, .int _, _, _, _, _, h, _ | .bool, .arr _, _, _, _, _, h, _ | .bool, .user _, _, _, _, _, h, _
  | .uint _, .bool _, _, _, _, _, h, _ | .uint _, .arr _, _, _, _, _, h, _ | .uint _, .user _, _, _, _, _, h, _
  | .sint _, .bool _, _, _, _, _, h, _ | .sint _, .arr _, _, _, _, _, h, _ | .sint _, .user _, _, _, _, _, h, _
  | .arr _ _, .bool _, _, _, _, _, h, _ | .arr _ _, .int _, _, _, _, _, h, _ | .arr _ _, .user _, _, _, _, _, h, _
  | .user _ _, .bool _, _, _, _, _, h, _ | .user _ _, .int _, _, _, _, _, h, _
  | .user _ _, .arr _, _, _, _, _, h, _ => by simp [Val.Fits] at h

theorem readAll_ok {P : Platform} (hP : P.Valid) {e : Endian} {s : Mode} (hs : Supported P e s) :
    ∀ (ts : List Ty) (vs : List Val) (mem : Mem) (off : Nat), Ty.WFs ts → LooseAll ts →
      Val.FitsAll (Safe P s) ts vs → Matches mem off (cellsAll e s ts vs) →
      readAll P e s ts mem off = .ok vs
  | [], [], mem, off, _, _, _, _ => rfl
  | t :: ts, v :: vs, mem, off, hw, hl, hf, h => by
    simp only [Ty.WFs] at hw
    simp only [LooseAll] at hl
    simp only [Val.FitsAll] at hf
    simp only [cellsAll] at h
    obtain ⟨h1, h2⟩ := matches_append h
    rw [cells_length e s _ t v hl.1 hf.1] at h2
    rw [readAll, readAs_ok hP hs t v mem off hw.1 hl.1 hf.1 h1, except_bind_ok,
      readAll_ok hP hs ts vs mem _ hw.2 hl.2 hf.2 h2]
    rfl
  | [], _ :: _, _, _, _, _, h, _ | _ :: _, [], _, _, _, _, h, _ => by simp [Val.FitsAll] at h
end

/-! Packed types -/

mutual
theorem packed_serSize : ∀ t, Packed t → t.serSize = wireSize t
  | .bool, _ | .uint _, _ | .sint _, _ => by simp [Ty.serSize, wireSize]
  | .arr t n, h => by
    simp only [Packed] at h
    simp [Ty.serSize, wireSize, h.2]
  | .user _ fs, h => by
    simp only [Packed] at h
    simp only [Ty.serSize, wireSize]
    exact packedAll_serSizes fs h

theorem packedAll_serSizes : ∀ ts, PackedAll ts → Ty.serSizes ts = wireSizes ts
  | [], _ => rfl
  | t :: ts, h => by
    simp only [PackedAll] at h
    simp [Ty.serSizes, wireSizes, packed_serSize t h.1, packedAll_serSizes ts h.2]
end

mutual
theorem packed_loose : ∀ t, Packed t → Loose t
  | .bool, _ | .uint _, _ | .sint _, _ => by simp [Loose]
  | .arr t n, h => by
    simp only [Packed] at h
    simp only [Loose]
    exact ⟨packed_loose t h.1, by rw [h.2, packed_serSize t h.1]; exact Nat.le_refl _⟩
  | .user _ fs, h => by
    simp only [Packed] at h
    simp only [Loose]
    exact packedAll_loose fs h

theorem packedAll_loose : ∀ ts, PackedAll ts → LooseAll ts
  | [], _ => by simp [LooseAll]
  | t :: ts, h => by
    simp only [PackedAll] at h
    simp only [LooseAll]
    exact ⟨packed_loose t h.1, packedAll_loose ts h.2⟩
end

mutual
theorem packed_cells (e : Endian) (s : Mode) (leaf : Nat → Int → Prop) :
    ∀ (t : Ty) (v : Val), Packed t → v.Fits leaf t → cells e s t v = (wire e s t v).map some
  | .bool, .bool b, _, _ => by simp [cells, wire]
  | .uint n, .int z, _, _ => by simp [cells, wire]
  | .sint k, .int z, _, _ => by simp [cells, wire]
  | .arr t n, .arr vs, hl, hf => by
    simp only [Packed] at hl
    simp only [Val.Fits] at hf
    obtain ⟨hlen, hall⟩ := hf
    simp only [cells, wire]
    clear hlen
    have h0 : t.sizeof - t.serSize = 0 := by rw [hl.2, packed_serSize t hl.1]; omega
    induction vs with
    | nil => simp
    | cons v vs ih =>
      have h1 := packed_cells e s leaf t v hl.1 (hall v (by simp))
      have h2 := ih (fun w hw => hall w (by simp [hw]))
      rw [List.flatMap_cons, List.flatMap_cons, List.map_append, h1, h2, h0]
      simp
  | .user _ fs, .user vs, hl, hf => by
    simp only [Packed] at hl
    simp only [Val.Fits] at hf
    simp only [cells, wire]
    exact packedAll_cells e s leaf fs vs hl hf
  | .bool, .int _, _, h | .bool, .arr _, _, h | .bool, .user _, _, h | .uint _, .bool _, _, h | .uint _, .arr _, _, h
  | .uint _, .user _, _, h | .sint _, .bool _, _, h | .sint _, .arr _, _, h | .sint _, .user _, _, h
  | .arr _ _, .bool _, _, h | .arr _ _, .int _, _, h | .arr _ _, .user _, _, h
  | .user _ _, .bool _, _, h | .user _ _, .int _, _, h | .user _ _, .arr _, _, h => by simp [Val.Fits] at h

theorem packedAll_cells (e : Endian) (s : Mode) (leaf : Nat → Int → Prop) :
    ∀ (ts : List Ty) (vs : List Val), PackedAll ts → Val.FitsAll leaf ts vs →
      cellsAll e s ts vs = (wires e s ts vs).map some
  | [], [], _, _ => by simp [cellsAll, wires]
  | t :: ts, v :: vs, hl, hf => by
    simp only [PackedAll] at hl
    simp only [Val.FitsAll] at hf
    simp only [cellsAll, wires, List.map_append]
    rw [packed_cells e s leaf t v hl.1 hf.1, packedAll_cells e s leaf ts vs hl.2 hf.2]
  | [], _ :: _, _, h | _ :: _, [], _, h => by simp [Val.FitsAll] at h
end

theorem wire_length {e : Endian} {s : Mode} {leaf : Nat → Int → Prop} {t : Ty} {v : Val} (hp : Packed t)
    (hf : v.Fits leaf t) : (wire e s t v).length = wireSize t := by
  have h := cells_length e s leaf t v (packed_loose t hp) hf
  rw [packed_cells e s leaf t v hp hf, List.length_map, packed_serSize t hp] at h
  exact h

theorem wires_length {e : Endian} {s : Mode} {leaf : Nat → Int → Prop} {ts : List Ty} {vs : List Val}
    (hp : PackedAll ts) (hf : Val.FitsAll leaf ts vs) : (wires e s ts vs).length = wireSizes ts := by
  have h := cellsAll_length e s leaf ts vs (packedAll_loose ts hp) hf
  rw [packedAll_cells e s leaf ts vs hp hf, List.length_map, packedAll_serSizes ts hp] at h
  exact h

theorem writeAs_packed {P : Platform} (hP : P.Valid) {e : Endian} {s : Mode} (hs : Supported P e s) {t : Ty} {v : Val}
    {mem : Mem} {off : Nat} (hw : t.WF) (hp : Packed t) (hf : v.Fits (Safe P s) t)
    (h : off + wireSize t ≤ mem.length) : writeAs P e s t v mem off = .ok (splice mem off (wire e s t v)) := by
  rw [writeAs_ok hP hs t v mem off hw (packed_loose t hp) hf (by rw [packed_serSize t hp]; exact h),
    packed_cells e s _ t v hp hf, overlay_map_some (by rw [wire_length hp hf]; exact h)]

theorem slice_matches {m : Mem} {off : Nat} {bs : List Byte} (h : slice m off bs.length = bs) :
    Matches m off (bs.map some) := by
  intro i b hi
  rw [List.getElem?_map] at hi
  have hlt : i < bs.length := by
    apply Nat.lt_of_not_le
    intro hle
    rw [List.getElem?_eq_none hle] at hi
    cases hi
  have : (slice m off bs.length)[i]? = bs[i]? := by rw [h]
  rw [slice_getElem?, if_pos hlt] at this
  rw [this]
  cases hb : bs[i]? with
  | none => rw [hb] at hi; cases hi
  | some c => rw [hb] at hi; simpa using hi

theorem readAs_packed {P : Platform} (hP : P.Valid) {e : Endian} {s : Mode} (hs : Supported P e s) {t : Ty} {v : Val}
    {mem : Mem} {off : Nat} (hw : t.WF) (hp : Packed t) (hf : v.Fits (Safe P s) t)
    (h : slice mem off (wireSize t) = wire e s t v) : readAs P e s t mem off = .ok v := by
  apply readAs_ok hP hs t v mem off hw (packed_loose t hp) hf
  rw [packed_cells e s _ t v hp hf]
  apply slice_matches
  rw [wire_length hp hf, h]

end Upd
