import Verif.Lemmas.Exact

/-!
# C04, C08 and C09 for all types, exactly

The partial theorems on C04 and C09 are about the values which the code encodes without overflow (`Safe`). The theorems of this file say that
nothing else works, whatever the type, and what happens to the other values.
-/

namespace Upd
open Spec

/-- C04, exactly, for every representable value: the code of the value, or an overflow. -/
theorem C04_signed_wire_format_exact {P : Platform} (hP : P.Valid) {e : Endian} {s : Mode} (hs : Supported P e s) {k : Nat} (hk1 : 1 ≤ k)
    (hk8 : k ≤ 8) {z : Int} (hz : Representable s k z) {mem : Mem} {off : Nat} (h : off + k ≤ mem.length) :
    (Safe P s k z → writeAs P e s (.sint k) (.int z) mem off = .ok (splice mem off (wireBytes e k (signedCode s k z)))) ∧
    (¬ Safe P s k z → writeAs P e s (.sint k) (.int z) mem off = .error .signedOverflow) :=
  ⟨fun hz => C04_signed_wire_format_partial hP hs hk1 hk8 hz h, writeSint_cases hP hs hk8 hz h⟩

example : writeAs pc .big .twosComplement (.sint 8) (.int (-9223372036854775808)) (List.replicate 8 0#8) 0 = .error .signedOverflow :=
  (C04_signed_wire_format_exact pc_valid (pc_supported _ _) (by decide) (by decide) (by simp [Representable, InRange]) (by decide)).2
    (by simp [Safe, MinSafe, pc])

/-- C09, exactly. `P` writes any value of any type, `Q` reads it: the value is read back if and only if both encode it without overflow. Nothing is
assumed of `v`, which may even be out of the range of the type. -/
theorem C09_peers_agree_iff {P Q : Platform} (hP : P.Valid) (hQ : Q.Valid) {e : Endian} {s : Mode} (hsP : Supported P e s)
    (hsQ : Supported Q e s) {t : Ty} (hw : t.WF) (hl : Loose t) (v : Val) {mem : Mem} {off : Nat} (h : off + t.serSize ≤ mem.length) :
    (∃ mem', writeAs P e s t v mem off = .ok mem' ∧ readAs Q e s t mem' off = .ok v) ↔ v.Fits (Safe P s) t ∧ v.Fits (Safe Q s) t := by
  constructor
  · rintro ⟨mem', hm, hr⟩
    have hv : v.Fits (Safe Q s) t := by
      rcases readAs_cases hQ hsQ t mem' off hw hl (by rw [(C05_write_frame hl hm).1]; exact h) with ⟨v', hv', hf⟩ | ⟨f, hf, _⟩
      · rw [hr] at hv'
        injection hv' with hv'
        subst hv'
        exact hf
      · rw [hr] at hf
        cases hf
    refine ⟨Classical.byContradiction fun hn => ?_, hv⟩
    rw [writeAs_cases hP hsP t v mem off hw hl (fits_mono (fun _ _ hz => hz.1) t v hv) h hn] at hm
    cases hm
  · rintro ⟨h1, h2⟩
    exact C09_peers_agree_partial hP hQ hsP hsQ hw hl h1 h2 h

example : ¬ ∃ mem', writeAs pcMacros .little .twosComplement (.arr (.sint 2) 2) (.arr [.int 1, .int (-32768)]) (List.replicate 4 0#8) 0 = .ok mem' ∧
    readAs avr .little .twosComplement (.arr (.sint 2) 2) mem' 0 = .ok (.arr [.int 1, .int (-32768)]) := by
  rw [C09_peers_agree_iff pcMacros_valid avr_valid (pcMacros_supported _ _) (avr_supported _ _) (by simp [Ty.WF])
    (by simp [Loose, Ty.serSize, Ty.sizeof]) _ (by simp [Ty.serSize, Ty.sizeof])]
  simp [Val.Fits, Safe, MinSafe, Representable, InRange, avr]

/-- C09, the other representable values: either the writer overflows, or the bytes are written and the reader faults. In no case is a wrong value
read. -/
theorem C09_never_wrong {P Q : Platform} (hP : P.Valid) (hQ : Q.Valid) {e : Endian} {s : Mode} (hsP : Supported P e s) (hsQ : Supported Q e s)
    {t : Ty} (hw : t.WF) (hl : Loose t) {v : Val} (hv : v.Fits (Representable s) t) {mem : Mem} {off : Nat}
    (h : off + t.serSize ≤ mem.length) :
    (¬ v.Fits (Safe P s) t → writeAs P e s t v mem off = .error .signedOverflow) ∧
    (v.Fits (Safe P s) t → ¬ v.Fits (Safe Q s) t →
      ∃ mem' f, writeAs P e s t v mem off = .ok mem' ∧ readAs Q e s t mem' off = .error f) := by
  refine ⟨writeAs_cases hP hsP t v mem off hw hl hv h, fun h1 h2 => ?_⟩
  obtain ⟨mem', hm, hr⟩ := C09_peers_agree_partial hP hP hsP hsP hw hl h1 h1 h
  have hlen : off + t.serSize ≤ mem'.length := by rw [(C05_write_frame hl hm).1]; exact h
  rcases readAs_cases hQ hsQ t mem' off hw hl hlen with ⟨v', hv', hf⟩ | ⟨f, hf, _⟩
  · rw [C09_decoders_agree hP hQ hsP hsQ hw hl hlen hr hv'] at h2
    exact absurd hf h2
  · exact ⟨mem', f, hm, hf⟩

example : ∃ mem' f, writeAs pcMacros .little .twosComplement (.sint 2) (.int (-32768)) (List.replicate 2 0#8) 0 = .ok mem' ∧
    readAs avr .little .twosComplement (.sint 2) mem' 0 = .error f :=
  (C09_never_wrong pcMacros_valid avr_valid (pcMacros_supported _ _) (avr_supported _ _) (by simp [Ty.WF]) (by simp [Loose])
    (by simp [Val.Fits, Representable, InRange]) (by decide)).2 (by simp [Val.Fits, Safe, MinSafe, Representable, InRange, pcMacros])
    (by simp [Val.Fits, Safe, MinSafe, Representable, InRange, avr])

/-- C08 for every type. A value decoded from any bytes, whatever they are, can be encoded again, anywhere, and is then decoded as the same value. -/
theorem C08_stable {P : Platform} (hP : P.Valid) {e : Endian} {s : Mode} (hs : Supported P e s) {t : Ty} (hw : t.WF) (hl : Loose t) {mem : Mem}
    {off : Nat} (h : off + t.serSize ≤ mem.length) {v : Val} (hr : readAs P e s t mem off = .ok v) {dst : Mem} {doff : Nat}
    (hd : doff + t.serSize ≤ dst.length) :
    ∃ dst', writeAs P e s t v dst doff = .ok dst' ∧ readAs P e s t dst' doff = .ok v := by
  rcases readAs_cases hP hs t mem off hw hl h with ⟨v', hv', hf⟩ | ⟨f, hf, _⟩
  · rw [hr] at hv'
    injection hv' with hv'
    subst hv'
    exact C09_peers_agree_partial hP hP hs hs hw hl hf hf hd
  · rw [hr] at hf
    cases hf

/-- An array whose second element is the code of negative zero. -/
example : ∃ dst', writeAs pc .little .signMagnitude (.arr (.sint 1) 2) (.arr [.int (-1), .int 0]) [7#8, 7#8] 0 = .ok dst' ∧
    readAs pc .little .signMagnitude (.arr (.sint 1) 2) dst' 0 = .ok (.arr [.int (-1), .int 0]) :=
  C08_stable (mem := [0x81#8, 0x80#8]) (off := 0) pc_valid (pc_supported _ _) (by simp [Ty.WF]) (by simp [Loose, Ty.serSize, Ty.sizeof])
    (by decide) rfl (by decide)

end Upd
