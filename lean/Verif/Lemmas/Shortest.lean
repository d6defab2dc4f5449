import Verif.Spec.Shortest
import Verif.Lemmas.Forward
import Verif.Lemmas.Key

/-! Helper lemmas: counting encodings. -/

namespace Upd
open Spec

/-- The pigeonhole principle. -/
theorem pigeonhole : ∀ (b a : Nat) (f : Nat → Nat), (∀ x, x < a → f x < b) → (∀ x y, x < a → y < a → f x = f y → x = y) → a ≤ b
  | 0, a, f, h, _ => by
    rcases Nat.eq_zero_or_pos a with h0 | h0
    · omega
    · exact absurd (h 0 h0) (by omega)
  | b + 1, 0, f, _, _ => by omega
  | b + 1, a + 1, f, h, hi => by
    have key := pigeonhole b a (fun x => if f x = b then f a else f x)
      (by
        intro x hx
        show (if f x = b then f a else f x) < b
        split
        · rename_i he
          have := h a (by omega)
          have : f a ≠ b := fun hb => absurd (hi x a (by omega) (by omega) (by omega)) (by omega)
          omega
        · have := h x (by omega)
          omega)
      (by
        intro x y hx hy he
        have he : (if f x = b then f a else f x) = (if f y = b then f a else f y) := he
        split at he <;> split at he
        · exact hi x y (by omega) (by omega) (by omega)
        · exact absurd (hi a y (by omega) (by omega) he) (by omega)
        · exact absurd (hi x a (by omega) (by omega) he) (by omega)
        · exact hi x y (by omega) (by omega) he)
    omega

/-- A number for each byte sequence. -/
def wordNumber : List Byte → Nat
  | [] => 0
  | x :: xs => x.toNat + 1 + 256 * wordNumber xs

theorem wordNumber_inj : ∀ (u v : List Byte), wordNumber u = wordNumber v → u = v
  | [], [], _ => rfl
  | [], y :: ys, h | y :: ys, [], h => by simp only [wordNumber] at h; omega
  | x :: xs, y :: ys, h => by
    simp only [wordNumber] at h
    have hx := x.isLt
    have hy := y.isLt
    have h1 : x.toNat = y.toNat := by omega
    rw [BitVec.eq_of_toNat_eq h1, wordNumber_inj xs ys (by omega)]

theorem wordNumber_lt : ∀ (u : List Byte), 255 * wordNumber u + 256 ≤ 256 ^ (u.length + 1)
  | [] => by simp [wordNumber]
  | x :: xs => by
    have ih := wordNumber_lt xs
    have hx := x.isLt
    rw [wordNumber, List.length_cons, Nat.pow_succ]
    omega

/-- There are `(256 ^ n − 1) / 255` byte sequences of fewer than `n` bytes: no injective encoding of more things is that short. -/
theorem no_short {n m : Nat} (hm : 256 ^ n ≤ 255 * m) (enc : Nat → List Byte) (hi : ∀ x y, x < m → y < m → enc x = enc y → x = y) :
    ∃ x, x < m ∧ n ≤ (enc x).length := by
  apply Classical.byContradiction
  intro hc
  have hs : ∀ x, x < m → (enc x).length < n := fun x hx => Nat.lt_of_not_le fun h => hc ⟨x, hx, h⟩
  have h2 : 0 < 256 ^ n := Nat.pow_pos (by omega)
  have hb : ∀ x, x < m → wordNumber (enc x) < (256 ^ n - 1) / 255 := by
    intro x hx
    have h1 := wordNumber_lt (enc x)
    have h3 : 256 ^ ((enc x).length + 1) ≤ 256 ^ n := Nat.pow_le_pow_right (by omega) (hs x hx)
    omega
  have := pigeonhole ((256 ^ n - 1) / 255) m (fun x => wordNumber (enc x)) hb (fun x y hx hy he => hi x y hx hy (wordNumber_inj _ _ he))
  omega

/-- A byte sequence, lengthened. -/
def padded (n : Nat) (u : List Byte) : List Byte := u ++ List.replicate (n - u.length) 0#8

theorem padded_length {n : Nat} {u : List Byte} (h : u.length ≤ n) : (padded n u).length = n := by
  simp [padded]; omega

theorem prefix_of_padded {n : Nat} {u v : List Byte} (h : padded n u = padded n v) : u <+: v ∨ v <+: u := by
  have h1 : u <+: padded n v := ⟨_, h⟩
  have h2 : v <+: padded n v := ⟨_, rfl⟩
  exact List.prefix_or_prefix_of_prefix h1 h2

/-- More than `256 ^ n` things have no prefix-free encoding in at most `n` bytes. -/
theorem no_short_prefix_free {n m : Nat} (hm : 256 ^ n < m) (enc : Nat → List Byte) (hi : ∀ x y, x < m → y < m → enc x <+: enc y → x = y) :
    ∃ x, x < m ∧ n < (enc x).length := by
  apply Classical.byContradiction
  intro hc
  have hs : ∀ x, x < m → (enc x).length ≤ n := fun x hx => Nat.le_of_not_lt fun h => hc ⟨x, hx, h⟩
  have := pigeonhole (256 ^ n) m (fun x => wireValue .little (padded n (enc x)))
    (fun x hx => by
      have := wireValue_lt .little (padded n (enc x))
      rwa [padded_length (hs x hx)] at this)
    (fun x y hx hy he => by
      have he := wireValue_inj (by rw [padded_length (hs x hx), padded_length (hs y hy)]) he
      rcases prefix_of_padded he with h | h
      · exact hi x y hx hy h
      · exact (hi y x hy hx h).symm)
  omega

/-! Numbering of pairs (index, number of arguments) -/

/-- Pairs of an index and a number below the limit of this index, as one number. -/
def pack : List Nat → Nat → Nat → Nat
  | [], _, y => y
  | _ :: _, 0, y => y
  | n :: ns, i + 1, y => n + pack ns i y

/-- Inverse of `pack`. -/
def unpack : List Nat → Nat → Nat × Nat
  | [], x => (0, x)
  | n :: ns, x => if x < n then (0, x) else ((unpack ns (x - n)).1 + 1, (unpack ns (x - n)).2)

theorem unpack_spec : ∀ (ns : List Nat) (x : Nat), x < ns.sum →
    (∃ n, ns[(unpack ns x).1]? = some n ∧ (unpack ns x).2 < n) ∧ pack ns (unpack ns x).1 (unpack ns x).2 = x
  | [], x, h => by simp at h
  | n :: ns, x, h => by
    rw [List.sum_cons] at h
    unfold unpack
    split
    · exact ⟨⟨n, rfl, ‹_›⟩, rfl⟩
    · obtain ⟨⟨m, h1, h2⟩, h3⟩ := unpack_spec ns (x - n) (by omega)
      refine ⟨⟨m, by simpa using h1, h2⟩, ?_⟩
      show n + pack ns _ _ = x
      rw [h3]
      omega

theorem pack_lt : ∀ (ns : List Nat) (i y n : Nat), ns[i]? = some n → y < n → pack ns i y < ns.sum
  | [], i, y, n, h, _ => by simp at h
  | m :: ns, 0, y, n, h, hy => by
    simp at h
    rw [pack, List.sum_cons]
    omega
  | m :: ns, i + 1, y, n, h, hy => by
    have := pack_lt ns i y n (by simpa using h) hy
    rw [pack, List.sum_cons]
    omega

theorem pack_inj : ∀ (ns : List Nat) (i j y z n m : Nat), ns[i]? = some n → y < n → ns[j]? = some m → z < m → pack ns i y = pack ns j z → i = j ∧ y = z
  | [], i, _, _, _, n, _, h, _, _, _, _ => by simp at h
  | k :: ns, 0, 0, y, z, n, m, _, _, _, _, he => ⟨rfl, he⟩
  | k :: ns, 0, j + 1, y, z, n, m, h1, hy, _, _, he => by
    simp at h1
    rw [pack, pack] at he
    omega
  | k :: ns, i + 1, 0, y, z, n, m, _, _, h1, hz, he => by
    simp at h1
    rw [pack, pack] at he
    omega
  | k :: ns, i + 1, j + 1, y, z, n, m, h1, hy, h2, hz, he => by
    rw [pack, pack] at he
    obtain ⟨h3, h4⟩ := pack_inj ns i j y z n m (by simpa using h1) hy (by simpa using h2) hz (by omega)
    exact ⟨by omega, h4⟩

/-! Values -/

mutual
theorem unwire_fits (e : Endian) (s : Mode) : ∀ (t : Ty) (bs : List Byte), t.WF → bs.length = wireSize t → (unwire e s t bs).Fits (Representable s) t
  | .bool, bs, _, _ => by simp [unwire, Val.Fits]
  | .uint n, bs, _, h => by
    simp only [wireSize] at h
    simp only [unwire, Val.Fits]
    have := wireValue_lt e bs
    rw [h] at this
    refine ⟨by omega, ?_⟩
    have := Int.ofNat_lt.mpr this
    simpa using this
  | .sint k, bs, hw, h => by
    simp only [wireSize] at h
    simp only [unwire, Val.Fits]
    simp only [Ty.WF] at hw
    have := wireValue_lt e bs
    rw [h] at this
    exact signedValue_inRange hw this
  | .arr t n, bs, hw, h => by
    simp only [wireSize] at h
    simp only [Ty.WF] at hw
    simp only [unwire, Val.Fits, List.length_map, List.length_range, true_and]
    intro v hv
    obtain ⟨i, hi, rfl⟩ := List.mem_map.mp hv
    have hi : i < n := List.mem_range.mp hi
    apply unwire_fits e s t _ hw.1
    have := Nat.mul_le_mul_right (wireSize t) (show i + 1 ≤ n by omega)
    rw [Nat.succ_mul] at this
    simp [slice]
    omega
  | .user _ fs, bs, hw, h => by
    simp only [wireSize] at h
    simp only [Ty.WF] at hw
    simp only [unwire, Val.Fits]
    exact unwires_fits e s fs bs hw.2 h

theorem unwires_fits (e : Endian) (s : Mode) : ∀ (ts : List Ty) (bs : List Byte), Ty.WFs ts → bs.length = wireSizes ts →
    Val.FitsAll (Representable s) ts (unwires e s ts bs)
  | [], bs, _, _ => by simp [unwires, Val.FitsAll]
  | t :: ts, bs, hw, h => by
    simp only [wireSizes] at h
    simp only [Ty.WFs] at hw
    simp only [unwires, Val.FitsAll]
    exact ⟨unwire_fits e s t _ hw.1 (by rw [List.length_take]; omega), unwires_fits e s ts _ hw.2 (by rw [List.length_drop]; omega)⟩
end

/-- Values of the types, from a number. -/
def nthVals (s : Mode) (ts : List Ty) (x : Nat) : List Val := unwires .little s ts (wireBytes .little (wireSizes ts) x)

theorem nthVals_fits {s : Mode} {ts : List Ty} (hw : Ty.WFs ts) (x : Nat) : Val.FitsAll (Representable s) ts (nthVals s ts x) :=
  unwires_fits _ _ _ _ hw (wireBytes_length _ _ _)

theorem nthVals_inj {s : Mode} (hs : s = .twosComplement ∨ s = .offsetBinary) {ts : List Ty} (hw : Ty.WFs ts) (hb : NoBools ts) {x y : Nat}
    (hx : x < 256 ^ wireSizes ts) (hy : y < 256 ^ wireSizes ts) (h : nthVals s ts x = nthVals s ts y) : x = y := by
  have h := congrArg (wires .little s ts) h
  unfold nthVals at h
  rw [canonicals_eq _ _ hw (wireBytes_length _ _ _), canonicals_eq _ _ hw (wireBytes_length _ _ _),
    canonicals_id hs _ _ hb (wireBytes_length _ _ _), canonicals_id hs _ _ hb (wireBytes_length _ _ _)] at h
  rw [← wireValue_wireBytes (e := .little) hx, ← wireValue_wireBytes (e := .little) hy, h]

theorem wires_inj' {e : Endian} {s : Mode} {ts : List Ty} (hw : Ty.WFs ts) (hp : PackedAll ts) {a b : List Val}
    (ha : Val.FitsAll (Representable s) ts a) (hb : Val.FitsAll (Representable s) ts b) (h : wires e s ts a = wires e s ts b) : a = b := by
  rw [← unwires_wires' (e := e) hw hp ha, ← unwires_wires' (e := e) hw hp hb, h]

mutual
/-- A value of the type: zeros. -/
def zeroOf : Ty → Val
  | .bool => .bool false
  | .uint _ | .sint _ => .int 0
  | .arr t n => .arr (List.replicate n (zeroOf t))
  | .user _ fs => .user (zerosOf fs)

/-- `zeroOf`, element-wise. -/
def zerosOf : List Ty → List Val
  | [] => []
  | t :: ts => zeroOf t :: zerosOf ts
end

mutual
theorem zeroOf_fits (P : Platform) (s : Mode) : ∀ (t : Ty), (zeroOf t).Fits (Safe P s) t
  | .bool => by simp [zeroOf, Val.Fits]
  | .uint n => by
    have : (0 : Int) < 256 ^ n := Int.pow_pos (by omega)
    simp [zeroOf, Val.Fits, this]
  | .sint k => by
    have : (0 : Int) < 2 ^ (8 * k - 1) := Int.pow_pos (by omega)
    simp only [zeroOf, Val.Fits, Safe]
    refine ⟨?_, .inr (by omega)⟩
    cases s <;> simp only [Representable, InRange] <;> omega
  | .arr t n => by
    simp only [zeroOf, Val.Fits, List.length_replicate, true_and]
    intro v hv
    rw [List.eq_of_mem_replicate hv]
    exact zeroOf_fits P s t
  | .user _ fs => by
    simp only [zeroOf, Val.Fits]
    exact zerosOf_fits P s fs

theorem zerosOf_fits (P : Platform) (s : Mode) : ∀ (ts : List Ty), Val.FitsAll (Safe P s) ts (zerosOf ts)
  | [] => by simp [zerosOf, Val.FitsAll]
  | t :: ts => by
    simp only [zerosOf, Val.FitsAll]
    exact ⟨zeroOf_fits P s t, zerosOf_fits P s ts⟩
end

end Upd
