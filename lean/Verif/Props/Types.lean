import Verif.Lemmas.Frame
import Verif.Props.Integers

/-!
# Any serializable type (C05, C06, C09, C10, C12, C13, C14)
-/

namespace Upd
open Spec

/-! ## C05 -/

/-- C05, the frame. On every platform and for every value, a write which goes through leaves all the bytes outside of
`[off, off + size)` unchanged, where `size` is the size announced for the type. -/
theorem C05_write_frame {P : Platform} {e : Endian} {s : Mode} {t : Ty} (hl : Loose t) {v : Val} {mem mem' : Mem}
    {off : Nat} (h : writeAs P e s t v mem off = .ok mem') :
    mem'.length = mem.length ∧ ∀ i, i < off ∨ off + t.serSize ≤ i → mem'[i]? = mem[i]? :=
  writeAs_frame t v mem mem' off hl h

example : (writeAs ppcEndian .big .signMagnitude (.arr (.sint 2) 2) (.arr [.int (-2), .int 300])
    (List.replicate 6 9#8) 1) = .ok [9#8, 0#8, 0#8, 0#8, 0#8, 9#8] ∧ Loose (.arr (.sint 2) 2) :=
  ⟨rfl, by simp [Loose, Ty.serSize, Ty.sizeof]⟩

/-- C05, the content. For a type without gaps, the bytes `[off, off + size)` after the write are a function of the value
only: the previous content of the buffer does not matter. -/
theorem C05_write_footprint {P : Platform} (hP : P.Valid) {e : Endian} {s : Mode} (hs : Supported P e s) {t : Ty}
    (hw : t.WF) (hp : Packed t) {v : Val} (hf : v.Fits (Safe P s) t) {mem : Mem} {off : Nat}
    (h : off + wireSize t ≤ mem.length) :
    (wire e s t v).length = wireSize t ∧
    writeAs P e s t v mem off = .ok (mem.take off ++ wire e s t v ++ mem.drop (off + wireSize t)) := by
  have hlen := wire_length (e := e) (s := s) hp hf
  refine ⟨hlen, ?_⟩
  rw [writeAs_packed hP hs hw hp hf h, splice, hlen]

example (mem : Mem) (h : mem.length = 6) :
    writeAs pc .big .twosComplement (.user 16 [.sint 1, .uint 2]) (.user [.int (-1), .int 0x102]) mem 2 =
      .ok (mem.take 2 ++ wire .big .twosComplement (.user 16 [.sint 1, .uint 2]) (.user [.int (-1), .int 0x102]) ++
        mem.drop (2 + 3)) :=
  (C05_write_footprint pc_valid (pc_supported _ _) (by simp [Ty.WF, Ty.WFs]) (by simp [Packed, PackedAll])
    (by simp [Val.Fits, Val.FitsAll, Safe, MinSafe, Representable, InRange]) (by simp [wireSize, wireSizes, h])).2
example : wire .big .twosComplement (.user 16 [.sint 1, .uint 2]) (.user [.int (-1), .int 0x102]) =
    [0xff#8, 0x01#8, 0x02#8] := by rfl

/-! ## C06 -/

/-- C06. If two values of a type are written in two buffers and the bytes at their places are the same, the values are
the same. -/
theorem C06_unambiguous {P : Platform} (hP : P.Valid) {e : Endian} {s : Mode} (hs : Supported P e s) {t : Ty}
    (hw : t.WF) (hl : Loose t) {v w : Val} (hv : v.Fits (Safe P s) t) (hw' : w.Fits (Safe P s) t)
    {mem₁ mem₂ mem₁' mem₂' : Mem} {off₁ off₂ : Nat}
    (h₁ : off₁ + t.serSize ≤ mem₁.length) (h₂ : off₂ + t.serSize ≤ mem₂.length)
    (r₁ : writeAs P e s t v mem₁ off₁ = .ok mem₁') (r₂ : writeAs P e s t w mem₂ off₂ = .ok mem₂')
    (heq : slice mem₁' off₁ t.serSize = slice mem₂' off₂ t.serSize) : v = w := by
  rw [writeAs_ok hP hs t v mem₁ off₁ hw hl hv h₁] at r₁
  rw [writeAs_ok hP hs t w mem₂ off₂ hw hl hw' h₂] at r₂
  injection r₁ with r₁; injection r₂ with r₂
  have l1 := cells_length e s _ t v hl hv
  have l2 := cells_length e s _ t w hl hw'
  have m1 : Matches mem₁' off₁ (cells e s t v) := by rw [← r₁]; exact matches_overlay (by rw [l1]; exact h₁)
  have m2 : Matches mem₂' off₂ (cells e s t w) := by rw [← r₂]; exact matches_overlay (by rw [l2]; exact h₂)
  have m1' : Matches mem₂' off₂ (cells e s t v) := by
    intro i b hi
    have hlt : i < t.serSize := by
      rw [← l1]
      apply Nat.lt_of_not_le
      intro hle
      rw [List.getElem?_eq_none hle] at hi
      cases hi
    have := congrArg (fun l => l[i]?) heq
    simp only [slice_getElem?, if_pos hlt] at this
    rw [← this]
    exact m1 i b hi
  have e1 := readAs_ok hP hs t v mem₂' off₂ hw hl hv m1'
  have e2 := readAs_ok hP hs t w mem₂' off₂ hw hl hw' m2
  rw [e1] at e2
  injection e2

example : wire .little .offsetBinary (.sint 1) (.int 5) ≠ wire .little .offsetBinary (.sint 1) (.int 6) := by
  intro heq
  have h1 : writeAs pc .little .offsetBinary (.sint 1) (.int 5) [0#8] 0 = .ok [0x85#8] := rfl
  have h2 : writeAs pc .little .offsetBinary (.sint 1) (.int 6) [0#8] 0 = .ok [0x86#8] := rfl
  have := C06_unambiguous pc_valid (pc_supported _ _) (by simp [Ty.WF]) (by simp [Loose])
    (by simp [Val.Fits, Safe, MinSafe, Representable, InRange])
    (by simp [Val.Fits, Safe, MinSafe, Representable, InRange]) (by decide) (by decide) h1 h2 heq
  injection this with this
  exact absurd this (by decide)

/-- C06 on the serialized form itself, for every representable value (including those the code cannot write without
overflow on some platforms). -/
theorem C06_wire_injective (e : Endian) (s : Mode) {t : Ty} (hw : t.WF) (hp : Packed t) {v w : Val}
    (hv : v.Fits (Representable s) t) (hw' : w.Fits (Representable s) t) (h : wire e s t v = wire e s t w) : v = w := by
  have hsafe : ∀ k z, Representable s k z → Safe pcMacros s k z := by
    intro k z hz
    refine ⟨hz, ?_⟩
    cases s
    · right; have := hz.1; omega
    · right; have := hz.1; omega
    · exact Or.inl (Or.inl rfl)
    · exact Or.inl (Or.inr (Or.inl rfl))
  have hv2 := fits_mono hsafe t v hv
  have hw2 := fits_mono hsafe t w hw'
  have l1 := wire_length (e := e) (s := s) hp hv2
  have l2 := wire_length (e := e) (s := s) hp hw2
  have r1 := readAs_packed (mem := wire e s t v) (off := 0) pcMacros_valid (pcMacros_supported e s) hw hp hv2
    (by rw [← l1]; simp [slice])
  have r2 := readAs_packed (mem := wire e s t w) (off := 0) pcMacros_valid (pcMacros_supported e s) hw hp hw2
    (by rw [← l2]; simp [slice])
  rw [h, r2] at r1
  injection r1 with r1
  exact r1.symm

example : (Val.arr [.int (-2147483648), .int 1]).Fits (Representable .twosComplement) (.arr (.sint 4) 2) ∧
    Packed (.arr (.sint 4) 2) ∧ (Ty.arr (.sint 4) 2).WF := by
  simp [Val.Fits, Representable, InRange, Packed, Ty.sizeof, wireSize, Ty.WF]

/-! ## C09 -/

/-- Full statement of C09. -/
def C09_Statement : Prop :=
  ∀ (P Q : Platform) (e : Endian) (s : Mode) (t : Ty) (v : Val) (mem : Mem) (off : Nat), P.Valid → Q.Valid →
    Supported P e s → Supported Q e s → t.WF → Loose t → v.Fits (Representable s) t → off + t.serSize ≤ mem.length →
    ∃ mem', writeAs P e s t v mem off = .ok mem' ∧ readAs Q e s t mem' off = .ok v

/-- The full statement is false: a PC with the macros sends the least 16-bit integer, an AVR (16-bit `int`, no macro)
overflows while decoding it. -/
theorem C09_full_statement_is_false : ¬ C09_Statement := by
  intro h
  obtain ⟨m, hw, hr⟩ := h pcMacros avr .little .twosComplement (.sint 2) (.int (-32768)) [0#8, 0#8] 0 pcMacros_valid
    avr_valid (pcMacros_supported _ _) (avr_supported _ _) (by simp [Ty.WF]) (by simp [Loose])
    (by simp [Val.Fits, Representable, InRange]) (by decide)
  have hw' : writeAs pcMacros .little .twosComplement (.sint 2) (.int (-32768)) [0#8, 0#8] 0 =
    .ok [0x00#8, 0x80#8] := rfl
  rw [hw'] at hw
  injection hw with hw
  subst hw
  have hr' : readAs avr .little .twosComplement (.sint 2) [0x00#8, 0x80#8] 0 = .error .signedOverflow := rfl
  rw [hr'] at hr
  cases hr

/-- C09. What is written on a platform is read on any other one as the same value. Missing from the full statement: the
least value of the type in two's complement when one side uses the generic path on a type at least as wide as its `int`
(`Safe`). -/
theorem C09_peers_agree_partial {P Q : Platform} (hP : P.Valid) (hQ : Q.Valid) {e : Endian} {s : Mode}
    (hsP : Supported P e s) (hsQ : Supported Q e s) {t : Ty} (hw : t.WF) (hl : Loose t) {v : Val}
    (hvP : v.Fits (Safe P s) t) (hvQ : v.Fits (Safe Q s) t) {mem : Mem} {off : Nat}
    (h : off + t.serSize ≤ mem.length) :
    ∃ mem', writeAs P e s t v mem off = .ok mem' ∧ readAs Q e s t mem' off = .ok v := by
  refine ⟨_, writeAs_ok hP hsP t v mem off hw hl hvP h, ?_⟩
  exact readAs_ok hQ hsQ t v _ off hw hl hvQ (matches_overlay (by rw [cells_length e s _ t v hl hvP]; exact h))

example : ∃ mem', writeAs ppcMacros .big .twosComplement (.arr (.sint 4) 2) (.arr [.int (-70000), .int 5])
      (List.replicate 9 0#8) 1 = .ok mem' ∧
    readAs avr .big .twosComplement (.arr (.sint 4) 2) mem' 1 = .ok (.arr [.int (-70000), .int 5]) :=
  C09_peers_agree_partial ppcMacros_valid avr_valid ppcMacros_supported (avr_supported _ _)
    (by simp [Ty.WF]) (by simp [Loose, Ty.serSize, Ty.sizeof])
    (by simp [Val.Fits, Safe, MinSafe, Representable, InRange])
    (by simp [Val.Fits, Safe, MinSafe, Representable, InRange]) (by decide)

/-- C09 for arbitrary bytes, e.g. from a third party: two platforms which both decode them decode the same value. -/
theorem C09_decoders_agree {P Q : Platform} (hP : P.Valid) (hQ : Q.Valid) {e : Endian} {s : Mode}
    (hsP : Supported P e s) (hsQ : Supported Q e s) {t : Ty} (hw : t.WF) (hl : Loose t) {mem : Mem} {off : Nat}
    (h : off + t.serSize ≤ mem.length) {v w : Val} (h₁ : readAs P e s t mem off = .ok v)
    (h₂ : readAs Q e s t mem off = .ok w) : v = w :=
  readAs_agree hP hQ hsP hsQ t mem off v w hw hl h h₁ h₂

example : readAs pcMacros .little .twosComplement (.sint 2) [0xfe#8, 0xff#8] 0 = .ok (.int (-2)) ∧
    readAs ppc .little .twosComplement (.sint 2) [0xfe#8, 0xff#8] 0 = .ok (.int (-2)) := ⟨rfl, rfl⟩

/-! ## C10 -/

/-- The platform without the macros. -/
def Platform.bare (P : Platform) : Platform := { P with endianMacro := none, signedMacro := none }

/-- Full statement of C10: the macros change neither the bytes written nor the values read. -/
def C10_Statement : Prop :=
  ∀ (P : Platform) (e : Endian) (s : Mode) (t : Ty) (v : Val) (mem : Mem) (off : Nat), P.Valid → t.WF → Loose t →
    v.Fits InRange t → off + t.serSize ≤ mem.length →
    writeAs P e s t v mem off = writeAs P.bare e s t v mem off ∧ readAs P e s t mem off = readAs P.bare e s t mem off

/-- The full statement is false. On a big-endian host with UPD_PLATFORM_ENDIANESS only, writing the 16-bit integer 1 in
big-endian order copies the first two bytes of an eight-byte object (include/upd/detail/serialization.hpp:134-135 with
include/upd/detail/endianess.hpp:65-68): the bytes are 00 00 instead of 00 01. -/
theorem C10_full_statement_is_false : ¬ C10_Statement := by
  intro h
  have h1 := (h ppcEndian .big .twosComplement (.sint 2) (.int 1) [9#8, 9#8] 0 ppcEndian_valid (by simp [Ty.WF])
    (by simp [Loose]) (by simp [Val.Fits, InRange]) (by decide)).1
  have a : writeAs ppcEndian .big .twosComplement (.sint 2) (.int 1) [9#8, 9#8] 0 = .ok [0#8, 0#8] := rfl
  have b : writeAs ppcEndian.bare .big .twosComplement (.sint 2) (.int 1) [9#8, 9#8] 0 = .ok [0#8, 1#8] := rfl
  rw [a, b] at h1
  injection h1 with h1
  exact absurd h1 (by decide)

/-- Another counterexample: with UPD_PLATFORM_SIGNED_MODE only, on a big-endian host, the bytes written are those of the
uninitialised part of a variable, and the integer read is always 0. -/
theorem C10_signed_macro_counterexample :
    writeAs ppcSigned .big .twosComplement (.sint 2) (.int 1) [9#8, 9#8] 0 = .ok [0xAA#8, 0xAA#8] ∧
    readAs ppcSigned .big .twosComplement (.sint 2) [0#8, 1#8] 0 = .ok (.int 0) := ⟨rfl, rfl⟩

theorem bare_valid {P : Platform} (h : P.Valid) : P.bare.Valid :=
  ⟨h.int_ge, h.int_le, (by intro e h; cases h), (by intro e h; cases h)⟩

theorem bare_supported (P : Platform) (e : Endian) (s : Mode) : Supported P.bare e s :=
  Or.inr (Or.inl ⟨by simp [Platform.bare], by simp [Platform.bare]⟩)

theorem bare_safe {P : Platform} {s : Mode} (k : Nat) (z : Int) (h : Safe P.bare s k z) : Safe P s k z := by
  obtain ⟨h1, h2⟩ := h
  refine ⟨h1, ?_⟩
  rcases h2 with (h | h | h) | h
  · simp [Platform.bare] at h
  · exact Or.inl (Or.inr (Or.inl h))
  · exact Or.inl (Or.inr (Or.inr h))
  · exact Or.inr h

/-- C10, writing. On the supported combinations of macros (all of them on a little-endian host), the bytes written are
those written without macros, for every value that can be written without them. Missing: big-endian hosts with exactly
one applicable macro; values whose encoding overflows without the macros. -/
theorem C10_macros_transparent_write_partial {P : Platform} (hP : P.Valid) {e : Endian} {s : Mode}
    (hs : Supported P e s) {t : Ty} (hw : t.WF) (hl : Loose t) {v : Val} (hf : v.Fits (Safe P.bare s) t) {mem : Mem}
    {off : Nat} (h : off + t.serSize ≤ mem.length) :
    writeAs P e s t v mem off = writeAs P.bare e s t v mem off := by
  rw [writeAs_ok hP hs t v mem off hw hl (fits_mono bare_safe t v hf) h,
    writeAs_ok (bare_valid hP) (bare_supported P e s) t v mem off hw hl hf h]

example : writeAs ppcMacros .big .twosComplement (.user 3 [.sint 2, .uint 4]) (.user [.int (-7), .int 9])
      (List.replicate 6 0#8) 0 =
    writeAs ppcMacros.bare .big .twosComplement (.user 3 [.sint 2, .uint 4]) (.user [.int (-7), .int 9])
      (List.replicate 6 0#8) 0 :=
  C10_macros_transparent_write_partial ppcMacros_valid ppcMacros_supported (by simp [Ty.WF, Ty.WFs])
    (by simp [Loose, LooseAll])
    (by simp [Val.Fits, Val.FitsAll, Safe, MinSafe, Representable, InRange]) (by decide)

/-- C10, reading: on the supported combinations of macros, if the bytes can be decoded with and without the macros, the
values are the same. -/
theorem C10_macros_transparent_read_partial {P : Platform} (hP : P.Valid) {e : Endian} {s : Mode} (hs : Supported P e s)
    {t : Ty} (hw : t.WF) (hl : Loose t) {mem : Mem} {off : Nat} (h : off + t.serSize ≤ mem.length) {v w : Val}
    (h₁ : readAs P e s t mem off = .ok v) (h₂ : readAs P.bare e s t mem off = .ok w) : v = w :=
  C09_decoders_agree hP (bare_valid hP) hs (bare_supported P e s) hw hl h h₁ h₂

example : readAs ppcMacros .big .twosComplement (.sint 2) [0xff#8, 0xfe#8] 0 = .ok (.int (-2)) ∧
    readAs ppcMacros.bare .big .twosComplement (.sint 2) [0xff#8, 0xfe#8] 0 = .ok (.int (-2)) := ⟨rfl, rfl⟩

/-- C10 for unsigned integers: no restriction at all on the macros and the host. -/
theorem C10_macros_transparent_unsigned {P : Platform} (hP : P.Valid) (e : Endian) (s : Mode) {n : Nat} (hn : 1 ≤ n)
    {z : Int} (h0 : 0 ≤ z) (h1 : z < 256 ^ n) {mem : Mem} {off : Nat} (h : off + n ≤ mem.length) :
    writeAs P e s (.uint n) (.int z) mem off = writeAs P.bare e s (.uint n) (.int z) mem off ∧
    readAs P e s (.uint n) mem off = readAs P.bare e s (.uint n) mem off := by
  rw [C03_unsigned_wire_format hP e s hn h0 h1 h, C03_unsigned_wire_format (bare_valid hP) e s hn h0 h1 h,
    C03_unsigned_decoding hP e s h, C03_unsigned_decoding (bare_valid hP) e s h]
  exact ⟨rfl, rfl⟩

example : writeAs ppcEndian .big .twosComplement (.uint 2) (.int 1) [9#8, 9#8] 0 =
    writeAs ppcEndian.bare .big .twosComplement (.uint 2) (.int 1) [9#8, 9#8] 0 :=
  (C10_macros_transparent_unsigned ppcEndian_valid _ _ (by decide) (by decide) (by decide) (by decide)).1

/-! ## C12 -/

/-- C12. An array is written as the concatenation of the encodings of its elements, in index order, and it is read back
as it was. -/
theorem C12_array {P : Platform} (hP : P.Valid) {e : Endian} {s : Mode} (hs : Supported P e s) {t : Ty} (hw : t.WF)
    (hp : Packed t) (hsz : t.sizeof = wireSize t) {vs : List Val} (h0 : 1 ≤ vs.length)
    (hf : ∀ v ∈ vs, v.Fits (Safe P s) t) {mem : Mem} {off : Nat} (h : off + vs.length * wireSize t ≤ mem.length) :
    ∃ mem', writeAs P e s (.arr t vs.length) (.arr vs) mem off = .ok mem' ∧
      mem' = splice mem off (vs.flatMap (wire e s t)) ∧
      readAs P e s (.arr t vs.length) mem' off = .ok (.arr vs) := by
  have hfa : (Val.arr vs).Fits (Safe P s) (.arr t vs.length) := by simp only [Val.Fits]; exact ⟨trivial, hf⟩
  have hwa : (Ty.arr t vs.length).WF := by simp only [Ty.WF]; exact ⟨hw, h0⟩
  have hpa : Packed (.arr t vs.length) := by simp only [Packed]; exact ⟨hp, hsz⟩
  have hwr := writeAs_packed (mem := mem) (off := off) hP hs hwa hpa hfa (by simpa [wireSize] using h)
  have hwl := wire_length (e := e) (s := s) hpa hfa
  simp only [wire] at hwr hwl
  refine ⟨_, hwr, rfl, ?_⟩
  apply readAs_packed hP hs hwa hpa hfa
  rw [← hwl, slice_splice_same (by rw [hwl]; simpa [wireSize] using h)]
  simp [wire]

example : ∃ mem', writeAs pc .big .twosComplement (.arr (.arr (.sint 2) 2) 2)
      (.arr [.arr [.int 1, .int (-1)], .arr [.int 2, .int 3]]) (List.replicate 9 0#8) 1 = .ok mem' ∧
      mem' = splice (List.replicate 9 0#8) 1 ([Val.arr [.int 1, .int (-1)], .arr [.int 2, .int 3]].flatMap
        (wire .big .twosComplement (.arr (.sint 2) 2))) ∧
      readAs pc .big .twosComplement (.arr (.arr (.sint 2) 2) 2) mem' 1 =
        .ok (.arr [.arr [.int 1, .int (-1)], .arr [.int 2, .int 3]]) :=
  C12_array (vs := [.arr [.int 1, .int (-1)], .arr [.int 2, .int 3]]) pc_valid (pc_supported _ _)
    (by simp [Ty.WF]) (by simp [Packed, Ty.sizeof, wireSize]) (by simp [Ty.sizeof, wireSize]) (by decide)
    (by simp [Val.Fits, Safe, MinSafe, Representable, InRange]) (by decide)

/-- C12 covers every array of integers, and arrays of such arrays. -/
theorem C12_builtin_types_are_packed : ∀ t, Builtin t → Packed t ∧ t.sizeof = wireSize t
  | .bool, _ | .uint _, _ | .sint _, _ => by simp [Packed, Ty.sizeof, wireSize]
  | .arr t n, h => by
    simp only [Builtin] at h
    have := C12_builtin_types_are_packed t h
    simp only [Packed, Ty.sizeof, wireSize]
    exact ⟨this, by rw [this.2]⟩
  | .user _ _, h => by simp [Builtin] at h

example : Builtin (.arr (.arr (.sint 4) 3) 2) := by simp [Builtin]

/-! ## C13 -/

/-- C13. A user-extended type is written as the concatenation of the encodings of its fields, whatever its object size, and
read back as it was. -/
theorem C13_user_type {P : Platform} (hP : P.Valid) {e : Endian} {s : Mode} (hs : Supported P e s) {size : Nat}
    {fs : List Ty} (hw : Ty.WFs fs) (hsize : 1 ≤ size) (hp : PackedAll fs) {vs : List Val}
    (hf : Val.FitsAll (Safe P s) fs vs) {mem : Mem} {off : Nat} (h : off + wireSizes fs ≤ mem.length) :
    ∃ mem', writeAs P e s (.user size fs) (.user vs) mem off = .ok mem' ∧
      mem' = splice mem off (wires e s fs vs) ∧
      readAs P e s (.user size fs) mem' off = .ok (.user vs) := by
  have hfa : (Val.user vs).Fits (Safe P s) (.user size fs) := by simp only [Val.Fits]; exact hf
  have hwa : (Ty.user size fs).WF := by simp only [Ty.WF]; exact ⟨hsize, hw⟩
  have hpa : Packed (.user size fs) := by simp only [Packed]; exact hp
  have hwr := writeAs_packed (mem := mem) (off := off) hP hs hwa hpa hfa (by simpa [wireSize] using h)
  have hwl := wire_length (e := e) (s := s) hpa hfa
  simp only [wire] at hwr hwl
  refine ⟨_, hwr, rfl, ?_⟩
  apply readAs_packed hP hs hwa hpa hfa
  rw [← hwl, slice_splice_same (by rw [hwl]; simpa [wireSize] using h)]
  simp [wire]

example : ∃ mem', writeAs pc .little .twosComplement (.user 24 [.uint 1, .user 8 [.sint 2, .bool]])
      (.user [.int 7, .user [.int (-2), .bool true]]) (List.replicate 5 0#8) 0 = .ok mem' ∧
      mem' = splice (List.replicate 5 0#8) 0 (wires .little .twosComplement [.uint 1, .user 8 [.sint 2, .bool]]
        [.int 7, .user [.int (-2), .bool true]]) ∧
      readAs pc .little .twosComplement (.user 24 [.uint 1, .user 8 [.sint 2, .bool]]) mem' 0 =
        .ok (.user [.int 7, .user [.int (-2), .bool true]]) :=
  C13_user_type pc_valid (pc_supported _ _) (by simp [Ty.WF, Ty.WFs]) (by decide) (by simp [Packed, PackedAll])
    (by simp [Val.Fits, Val.FitsAll, Safe, MinSafe, Representable, InRange]) (by decide)
example : wires .little .twosComplement [.uint 1, .user 8 [.sint 2, .bool]]
        [.int 7, .user [.int (-2), .bool true]] = [7#8, 0xfe#8, 0xff#8, 1#8] := by rfl

/-! ## C14 -/

/-!
The error message of `tuple` announces arrays of user-extended types as serializable (include/upd/tuple.hpp:91-93) and `is_serializable` is true of
them, but a conforming compiler rejects their use: the array overloads call `read_as` and `write_as` by unqualified names
(include/upd/detail/serialization.hpp:77, :142) before the overloads for user-extended types are declared (:81-86, :144-149), and
argument-dependent lookup does not look into `upd::detail` (`byte_t` is `unsigned char`). The model describes what the code does if these overloads are
found, as with compilers which postpone all lookups to the instantiation. `C14_conforming` is about the types which remain.
-/

/-- Full statement of C14: in a buffer of the announced size, an array of user-extended values is written and read
back. -/
def C14_Statement : Prop :=
  ∀ (P : Platform) (e : Endian) (s : Mode) (size : Nat) (fs : List Ty) (vs : List Val) (mem : Mem), P.Valid →
    Supported P e s → 1 ≤ size → Ty.WFs fs → LooseAll fs → 1 ≤ vs.length →
    (∀ v ∈ vs, v.Fits (Safe P s) (.user size fs)) → mem.length = (Ty.arr (.user size fs) vs.length).serSize →
    ∃ mem', writeAs P e s (.arr (.user size fs) vs.length) (.arr vs) mem 0 = .ok mem' ∧
      readAs P e s (.arr (.user size fs) vs.length) mem' 0 = .ok (.arr vs)

/-- The full statement is false, even if the compiler accepts such arrays: the size announced for an array is its object size (include/upd/tuple.hpp:53-56) and the
stride is the object size of the elements (include/upd/detail/serialization.hpp:77 and :142). If an object of one byte is
serialized as four bytes, an array of two of them is announced as two bytes, and its serialization goes past its end. -/
theorem C14_full_statement_is_false : ¬ C14_Statement := by
  intro h
  obtain ⟨m, hw, _⟩ := h pc .little .twosComplement 1 [.uint 4] [.user [.int 1], .user [.int 2]] [0#8, 0#8] pc_valid
    (pc_supported _ _) (by decide) (by simp [Ty.WFs, Ty.WF]) (by simp [LooseAll, Loose]) (by decide)
    (by simp [Val.Fits, Val.FitsAll]) (by simp [Ty.serSize, Ty.sizeof])
  have herr : writeAs pc .little .twosComplement (.arr (.user 1 [.uint 4]) 2) (.arr [.user [.int 1], .user [.int 2]])
    [0#8, 0#8] 0 = .error .oobWrite := rfl
  rw [show ([Val.user [.int 1], .user [.int 2]]).length = 2 from rfl, herr] at hw
  cases hw

/-- Even in a buffer large enough, the elements overwrite each other: the first one is not read back. -/
theorem C14_overlap_counterexample :
    writeAs pc .little .twosComplement (.arr (.user 1 [.uint 4]) 2) (.arr [.user [.int 1], .user [.int 2]])
      (List.replicate 8 0#8) 0 = .ok [1#8, 2#8, 0#8, 0#8, 0#8, 0#8, 0#8, 0#8] ∧
    readAs pc .little .twosComplement (.arr (.user 1 [.uint 4]) 2) [1#8, 2#8, 0#8, 0#8, 0#8, 0#8, 0#8, 0#8] 0 =
      .ok (.arr [.user [.int 513], .user [.int 2]]) := ⟨rfl, rfl⟩

/-- C14 when objects are at least as large as their serialized form: the array round trips within the announced size.
Missing: elements whose serialized form is larger than their object size. -/
theorem C14_array_of_user_type_partial {P : Platform} (hP : P.Valid) {e : Endian} {s : Mode} (hs : Supported P e s)
    {size : Nat} {fs : List Ty} (hsize : 1 ≤ size) (hw : Ty.WFs fs) (hl : LooseAll fs) (hfit : Ty.serSizes fs ≤ size)
    {vs : List Val} (h0 : 1 ≤ vs.length) (hf : ∀ v ∈ vs, v.Fits (Safe P s) (.user size fs)) {mem : Mem} {off : Nat}
    (h : off + vs.length * size ≤ mem.length) :
    ∃ mem', writeAs P e s (.arr (.user size fs) vs.length) (.arr vs) mem off = .ok mem' ∧
      (∀ i, i < off ∨ off + vs.length * size ≤ i → mem'[i]? = mem[i]?) ∧
      readAs P e s (.arr (.user size fs) vs.length) mem' off = .ok (.arr vs) := by
  have hfa : (Val.arr vs).Fits (Safe P s) (.arr (.user size fs) vs.length) := by simp only [Val.Fits]; exact ⟨trivial, by
    intro v hv; have := hf v hv; simpa only [Val.Fits] using this⟩
  have hwa : (Ty.arr (.user size fs) vs.length).WF := by simp only [Ty.WF]; exact ⟨⟨hsize, hw⟩, h0⟩
  have hla : Loose (.arr (.user size fs) vs.length) := by
    simp only [Loose, Ty.serSize, Ty.sizeof]; exact ⟨hl, hfit⟩
  have hsz : (Ty.arr (.user size fs) vs.length).serSize = vs.length * size := by simp [Ty.serSize, Ty.sizeof]
  refine ⟨_, writeAs_ok hP hs _ _ mem off hwa hla hfa (by rw [hsz]; exact h), ?_, ?_⟩
  · intro i hi
    apply overlay_getElem?_out
    rw [cells_length e s _ _ _ hla hfa, hsz]
    exact hi
  · apply readAs_ok hP hs _ _ _ off hwa hla hfa
    apply matches_overlay
    rw [cells_length e s _ _ _ hla hfa, hsz]
    exact h

example : ∃ mem', writeAs pc .little .twosComplement (.arr (.user 4 [.uint 1, .uint 2]) 2)
      (.arr [.user [.int 1, .int 2], .user [.int 3, .int 4]]) (List.replicate 8 9#8) 0 = .ok mem' ∧
      (∀ i, i < 0 ∨ 0 + 2 * 4 ≤ i → mem'[i]? = (List.replicate 8 9#8)[i]?) ∧
      readAs pc .little .twosComplement (.arr (.user 4 [.uint 1, .uint 2]) 2) mem' 0 =
        .ok (.arr [.user [.int 1, .int 2], .user [.int 3, .int 4]]) :=
  C14_array_of_user_type_partial (vs := [.user [.int 1, .int 2], .user [.int 3, .int 4]]) pc_valid (pc_supported _ _)
    (by decide) (by simp [Ty.WFs, Ty.WF]) (by simp [LooseAll, Loose]) (by decide) (by decide)
    (by simp [Val.Fits, Val.FitsAll]) (by decide)

/-- The same array: the fourth byte of each element is not written, so that it keeps whatever the buffer held (such
an array is not serialized "unpadded"). -/
theorem C14_gap_counterexample :
    writeAs pc .little .twosComplement (.arr (.user 4 [.uint 1, .uint 2]) 2)
      (.arr [.user [.int 1, .int 2], .user [.int 3, .int 4]]) (List.replicate 8 9#8) 0 =
    .ok [1#8, 2#8, 0#8, 9#8, 3#8, 4#8, 0#8, 9#8] := rfl

mutual
/-- C14, types accepted by a conforming compiler: no array has padded elements, so that the hypotheses `Packed` and `Loose` of the other theorems are
met. -/
theorem C14_conforming : ∀ t, Conforming t → Packed t ∧ Loose t
  | .bool, _ | .uint _, _ | .sint _, _ => by simp [Packed, Loose]
  | .arr t n, h => by
    have hp := C12_builtin_types_are_packed (.arr t n) h
    exact ⟨hp.1, packed_loose _ hp.1⟩
  | .user _ fs, h => by
    simp only [Conforming] at h
    have := C14_conforming_all fs h
    simpa only [Packed, Loose] using this

/-- C14, element-wise. -/
theorem C14_conforming_all : ∀ ts, ConformingAll ts → PackedAll ts ∧ LooseAll ts
  | [], _ => by simp [PackedAll, LooseAll]
  | t :: ts, h => by
    have h1 := C14_conforming t h.1
    have h2 := C14_conforming_all ts h.2
    exact ⟨⟨h1.1, h2.1⟩, ⟨h1.2, h2.2⟩⟩
end

/-- `struct { uint8_t; std::array<std::array<int16_t, 3>, 2>; }`, of 14 bytes. -/
example : Packed (.user 14 [.uint 1, .arr (.arr (.sint 2) 3) 2]) ∧ Loose (.user 14 [.uint 1, .arr (.arr (.sint 2) 3) 2]) :=
  C14_conforming _ (by simp [Conforming, ConformingAll, Builtin])

/-! ## Further uses -/

example {mem' : Mem} (h : writeAs ppcEndian .big .signMagnitude (.arr (.sint 2) 2) (.arr [.int (-2), .int 300])
    [1#8, 2#8, 3#8, 4#8, 5#8, 6#8, 7#8] 1 = .ok mem') : mem'.length = 7 ∧ mem'[0]? = some 1#8 ∧ mem'[6]? = some 7#8 := by
  obtain ⟨h1, h2⟩ := C05_write_frame (by simp [Loose, Ty.serSize, Ty.sizeof]) h
  exact ⟨h1, h2 0 (by decide), h2 6 (by simp [Ty.serSize, Ty.sizeof])⟩

example {z : Int} (hz : InRange 2 z)
    (h : wire .big .twosComplement (.user 16 [.sint 2, .bool]) (.user [.int z, .bool true]) = [0xff#8, 0xfe#8, 1#8]) : z = -2 := by
  have := C06_wire_injective .big .twosComplement (t := .user 16 [.sint 2, .bool]) (v := .user [.int z, .bool true])
    (w := .user [.int (-2), .bool true]) (by simp [Ty.WF, Ty.WFs]) (by simp [Packed, PackedAll])
    (by simpa [Val.Fits, Val.FitsAll, Representable] using hz) (by simp [Val.Fits, Val.FitsAll, Representable, InRange]) (h.trans (by rfl))
  simpa using this

example {v : Val} (h : readAs avr .little .twosComplement (.sint 2) [0xfe#8, 0xff#8] 0 = .ok v) : v = .int (-2) :=
  C09_decoders_agree avr_valid pcMacros_valid (avr_supported _ _) (pcMacros_supported _ _) (by simp [Ty.WF]) (by simp [Loose])
    (by decide) h rfl

example {v : Val} (h : readAs ppcMacros.bare .big .twosComplement (.sint 2) [0xff#8, 0xfe#8] 0 = .ok v) : .int (-2) = v :=
  C10_macros_transparent_read_partial ppcMacros_valid ppcMacros_supported (by simp [Ty.WF]) (by simp [Loose]) (by decide) rfl h

example : Packed (.arr (.arr (.sint 4) 3) 2) ∧ (Ty.arr (.arr (.sint 4) 3) 2).sizeof = wireSize (.arr (.arr (.sint 4) 3) 2) :=
  C12_builtin_types_are_packed _ (by simp [Builtin])

example : PackedAll [.uint 1, .user 14 [.uint 1, .arr (.sint 2) 3]] ∧ LooseAll [.uint 1, .user 14 [.uint 1, .arr (.sint 2) 3]] :=
  C14_conforming_all _ (by simp [Conforming, ConformingAll, Builtin])

end Upd
