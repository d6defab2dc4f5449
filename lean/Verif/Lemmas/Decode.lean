import Verif.Lemmas.Serial

/-! Helper lemmas: decoding arbitrary bytes; encoding the least value of a signed type. -/

namespace Upd
open Spec

theorem slice_wireBytes {mem : Mem} {off k : Nat} (e : Endian) (h : off + k ≤ mem.length) :
    wireBytes e k (wireValue e (slice mem off k)) = slice mem off k := by
  have := wireBytes_wireValue e (slice mem off k)
  rwa [slice_length h] at this

instance (s : Mode) (k c : Nat) : Decidable (NegZero s k c) := inferInstanceAs (Decidable (_ ∨ _))

theorem signedCode_signedValue {s : Mode} {k c : Nat} (h : SizeOk k) (hc : c < 256 ^ k) :
    signedCode s k (signedValue s k c) = if NegZero s k c then 0 else c := by
  obtain ⟨H, B, hH, hB, e1, e2, e3, e4, e5, e6⟩ := pows h
  cases s <;> simp only [NegZero, signedCode, signedValue, e1, e2, e3, e4, e5] at hc ⊢
  · simp
    split <;> split <;> (try split) <;> omega
  · simp
    split <;> split <;> (try split) <;> omega
  · simp
    split <;> (try split) <;> omega
  · simp

theorem signedValue_min {s : Mode} {k c : Nat} (h : SizeOk k) (hc : c < 256 ^ k)
    (hv : signedValue s k c = -(2 ^ (8 * k - 1) : Int)) :
    (s = .twosComplement ∧ c = 2 ^ (8 * k - 1)) ∨ (s = .offsetBinary ∧ c = 0) := by
  obtain ⟨H, B, hH, hB, e1, e2, e3, e4, e5, e6⟩ := pows h
  cases s <;> simp only [signedValue, e1, e3, e4, e5] at hc hv ⊢ <;> simp
  · split at hv <;> omega
  · split at hv <;> omega
  · split at hv <;> omega
  · omega

/-- A decoded signed integer can always be encoded. -/
theorem readSint_safe {P : Platform} (hP : P.Valid) {e : Endian} {s : Mode} (hs : Supported P e s) {k : Nat}
    (hk : SizeOk k) {mem : Mem} {off : Nat} (h : off + k ≤ mem.length) {z : Int}
    (hr : readSint P e s k mem off = .ok z) :
    z = signedValue s k (wireValue e (slice mem off k)) ∧ Safe P s k z := by
  rw [readSint_spec hP hs hk h] at hr
  have hc : wireValue e (slice mem off k) < 256 ^ k := by
    have := wireValue_lt e (slice mem off k)
    rwa [slice_length h] at this
  split at hr
  · cases hr
  · rename_i hcond
    have hz : signedValue s k (wireValue e (slice mem off k)) = z := by injection hr
    refine ⟨hz.symm, hz ▸ signedValue_inRange hk hc, ?_⟩
    by_cases hmin : z = -(2 ^ (8 * k - 1) : Int)
    · left
      rcases signedValue_min hk hc (hz.trans hmin) with ⟨h1, h2⟩ | ⟨h1, _⟩
      · by_cases hm : P.signedMacro = some s
        · exact Or.inl hm
        · right; right
          apply Nat.lt_of_not_le
          intro hle
          exact hcond ⟨hm, h1, h2, hle⟩
      · exact Or.inr (Or.inl h1)
    · exact Or.inr hmin

/-- Encoding the least value of a signed type with the generic path. -/
theorem writeSint_min {P : Platform} (hP : P.Valid) {e : Endian} {s : Mode} (hs : Supported P e s) {k : Nat}
    (hk : SizeOk k) (hm : P.signedMacro ≠ some s) {mem : Mem} {off : Nat} (h : off + k ≤ mem.length) :
    writeSint P e s k (-(2 ^ (8 * k - 1) : Int)) mem off =
      if s = .offsetBinary ∨ k < P.intBytes then
        .ok (splice mem off (wireBytes e k
          (if s = .signMagnitude then 2 ^ (8 * k - 1) else signedCode s k (-(2 ^ (8 * k - 1) : Int)))))
      else .error .signedOverflow := by
  have hk1 := hk.1
  unfold writeSint toSignedMode
  rw [if_neg hm]
  rcases supported_cases k hs with ⟨hn, _⟩ | ⟨_, hms, _⟩
  · split
    · rename_i hc
      obtain ⟨x, hx, hv⟩ := toSignedModeImpl_ok P s (z := -(2 ^ (8 * k - 1) : Int)) hk
        ⟨Int.le_refl _, by have : (0 : Int) < 2 ^ (8 * k - 1) := Int.pow_pos (by decide); omega⟩
        (hc.elim Or.inl (fun h => Or.inr (Or.inr h)))
      rw [hx, except_bind_ok, toEndianess_ok hP (by omega) e mem off x k (by have := hk.2; omega) hn h,
        ← wireBytes_mod, hv]
      simp
    · rename_i hc
      rw [toSignedModeImpl_err P hk (fun h => hc (Or.inl h)) (by omega)]
      rfl
  · exact absurd hms hm

theorem leDigits_zero' (k : Nat) : leDigits k 0 = List.replicate k 0#8 := by
  induction k with
  | zero => rfl
  | succ k ih => simp [leDigits, ih, List.replicate_succ]

theorem wireBytes_zero (e : Endian) (k : Nat) : wireBytes e k 0 = List.replicate k 0#8 := by
  cases e <;> simp [wireBytes, leDigits_zero']

mutual
theorem fits_mono {p q : Nat → Int → Prop} (hpq : ∀ k z, p k z → q k z) :
    ∀ (t : Ty) (v : Val), v.Fits p t → v.Fits q t
  | .bool, .bool _, _ => by simp [Val.Fits]
  | .uint _, .int _, h => by simpa only [Val.Fits] using h
  | .sint _, .int _, h => by simp only [Val.Fits] at h ⊢; exact hpq _ _ h
  | .arr t _, .arr vs, h => by
    simp only [Val.Fits] at h ⊢
    exact ⟨h.1, fun v hv => fits_mono hpq t v (h.2 v hv)⟩
  | .user _ fs, .user vs, h => by simp only [Val.Fits] at h ⊢; exact fitsAll_mono hpq fs vs h
  | .bool, .int _, h | .bool, .arr _, h | .bool, .user _, h | .uint _, .bool _, h | .uint _, .arr _, h
  | .uint _, .user _, h | .sint _, .bool _, h | .sint _, .arr _, h | .sint _, .user _, h
  | .arr _ _, .bool _, h | .arr _ _, .int _, h | .arr _ _, .user _, h
  | .user _ _, .bool _, h | .user _ _, .int _, h | .user _ _, .arr _, h => by simp [Val.Fits] at h

theorem fitsAll_mono {p q : Nat → Int → Prop} (hpq : ∀ k z, p k z → q k z) :
    ∀ (ts : List Ty) (vs : List Val), Val.FitsAll p ts vs → Val.FitsAll q ts vs
  | [], [], _ => by simp [Val.FitsAll]
  | t :: ts, v :: vs, h => by
    simp only [Val.FitsAll] at h ⊢
    exact ⟨fits_mono hpq t v h.1, fitsAll_mono hpq ts vs h.2⟩
  | [], _ :: _, h | _ :: _, [], h => by simp [Val.FitsAll] at h
end

/-! Decoding arbitrary bytes as any type -/

mutual
theorem readAs_total {P : Platform} (hP : P.Valid) {e : Endian} {s : Mode} (hs : Supported P e s) :
    ∀ (t : Ty) (mem : Mem) (off : Nat), t.WF → Loose t → DecodeSafe P e s t → off + t.serSize ≤ mem.length →
      ∃ v, readAs P e s t mem off = .ok v ∧ v.Fits (Safe P s) t
  | .bool, mem, off, _, _, hd, h => by
    simp only [DecodeSafe] at hd
    simp only [Ty.serSize] at h
    rw [readAs, readBool, Mem.rd_ok (by omega), except_bind_ok, if_neg hd]
    exact ⟨_, rfl, by simp [Val.Fits]⟩
  | .uint n, mem, off, _, _, _, h => by
    simp only [Ty.serSize] at h
    rw [readAs, readUint_ok hP e h]
    refine ⟨_, rfl, ?_⟩
    simp only [Val.Fits]
    have := wireValue_lt e (slice mem off n)
    rw [slice_length h] at this
    refine ⟨by omega, ?_⟩
    have := Int.ofNat_lt.mpr this
    simpa using this
  | .sint k, mem, off, hw, _, hd, h => by
    simp only [Ty.serSize] at h
    simp only [Ty.WF] at hw
    simp only [DecodeSafe] at hd
    have hr := readSint_spec hP hs hw h
    rw [if_neg (by rintro ⟨h1, h2, _, h4⟩; rcases hd with hd | hd | hd; exact h1 hd; exact hd h2; omega)] at hr
    rw [readAs, hr]
    exact ⟨_, rfl, by simp only [Val.Fits]; exact (readSint_safe hP hs hw h hr).2⟩
  | .arr t n, mem, off, hw, hl, hd, h => by
    simp only [Ty.serSize] at h
    simp only [Ty.WF] at hw
    simp only [Loose] at hl
    simp only [DecodeSafe] at hd
    have : ∀ m off, off + m * t.sizeof ≤ mem.length → ∃ vs, readLoop (readAs P e s t) t.sizeof mem m off = .ok vs ∧
        vs.length = m ∧ ∀ v ∈ vs, v.Fits (Safe P s) t := by
      intro m
      induction m with
      | zero => intro off _; exact ⟨[], rfl, rfl, by simp⟩
      | succ m ih =>
        intro off h
        rw [Nat.succ_mul] at h
        obtain ⟨v, hv, hf⟩ := readAs_total hP hs t mem off hw.1 hl.1 hd (by omega)
        obtain ⟨vs, hvs, hlen, hfs⟩ := ih (off + t.sizeof) (by omega)
        refine ⟨v :: vs, by rw [readLoop, hv, except_bind_ok, hvs]; rfl, by simp [hlen], ?_⟩
        intro w hw
        rcases List.mem_cons.mp hw with rfl | hw
        · exact hf
        · exact hfs w hw
    obtain ⟨vs, hvs, hlen, hfs⟩ := this n off h
    exact ⟨.arr vs, by rw [readAs, hvs]; rfl, by simp only [Val.Fits]; exact ⟨hlen, hfs⟩⟩
  | .user _ fs, mem, off, hw, hl, hd, h => by
    simp only [Ty.serSize] at h
    simp only [Ty.WF] at hw
    simp only [Loose] at hl
    simp only [DecodeSafe] at hd
    obtain ⟨vs, hvs, hf⟩ := readAll_total hP hs fs mem off hw.2 hl hd h
    exact ⟨.user vs, by rw [readAs, hvs]; rfl, by simp only [Val.Fits]; exact hf⟩

theorem readAll_total {P : Platform} (hP : P.Valid) {e : Endian} {s : Mode} (hs : Supported P e s) :
    ∀ (ts : List Ty) (mem : Mem) (off : Nat), Ty.WFs ts → LooseAll ts → DecodeSafeAll P e s ts →
      off + Ty.serSizes ts ≤ mem.length → ∃ vs, readAll P e s ts mem off = .ok vs ∧ Val.FitsAll (Safe P s) ts vs
  | [], mem, off, _, _, _, _ => ⟨[], rfl, by simp [Val.FitsAll]⟩
  | t :: ts, mem, off, hw, hl, hd, h => by
    simp only [Ty.serSizes] at h
    simp only [Ty.WFs] at hw
    simp only [LooseAll] at hl
    simp only [DecodeSafeAll] at hd
    obtain ⟨v, hv, hf⟩ := readAs_total hP hs t mem off hw.1 hl.1 hd.1 (by omega)
    obtain ⟨vs, hvs, hfs⟩ := readAll_total hP hs ts mem (off + t.serSize) hw.2 hl.2 hd.2 (by omega)
    exact ⟨v :: vs, by rw [readAll, hv, except_bind_ok, hvs]; rfl, by simp only [Val.FitsAll]; exact ⟨hf, hfs⟩⟩
end

theorem except_bind_eq_ok {α β : Type} {x : M α} {f : α → M β} {b : β} (h : (x >>= f) = .ok b) :
    ∃ a, x = .ok a ∧ f a = .ok b := by
  cases x with
  | error x => cases h
  | ok a => exact ⟨a, rfl, h⟩

theorem readBool_eq_ok {P : Platform} {e : Endian} {mem : Mem} {off : Nat} {b : Bool}
    (h : readBool P e mem off = .ok b) : ∃ x, mem.rd off = .ok x ∧ b = decide (x ≠ 0#8) := by
  obtain ⟨x, hx, h⟩ := except_bind_eq_ok h
  refine ⟨x, hx, ?_⟩
  by_cases h0 : x = 0#8
  · subst h0; split at h <;> simpa using h.symm
  · split at h
    · split at h
      · injection h with h; rw [← h]; simp [h0]
      · cases h
    · injection h with h; rw [← h]

mutual
/-- Two platforms which both decode given bytes decode the same value. -/
theorem readAs_agree {P Q : Platform} (hP : P.Valid) (hQ : Q.Valid) {e : Endian} {s : Mode} (hsP : Supported P e s)
    (hsQ : Supported Q e s) : ∀ (t : Ty) (mem : Mem) (off : Nat) (v w : Val), t.WF → Loose t →
      off + t.serSize ≤ mem.length → readAs P e s t mem off = .ok v → readAs Q e s t mem off = .ok w → v = w
  | .bool, mem, off, v, w, _, _, _, h1, h2 => by
    rw [readAs] at h1 h2
    obtain ⟨a, ha, h1⟩ := except_bind_eq_ok h1
    obtain ⟨b, hb, h2⟩ := except_bind_eq_ok h2
    obtain ⟨x, hx, rfl⟩ := readBool_eq_ok ha
    obtain ⟨y, hy, rfl⟩ := readBool_eq_ok hb
    rw [hx] at hy
    injection hy with hy
    subst hy
    injection h1 with h1; injection h2 with h2
    rw [← h1, ← h2]
  | .uint n, mem, off, v, w, _, _, h, h1, h2 => by
    simp only [Ty.serSize] at h
    rw [readAs, readUint_ok hP e h] at h1
    rw [readAs, readUint_ok hQ e h] at h2
    injection h1 with h1; injection h2 with h2
    rw [← h1, ← h2]
  | .sint k, mem, off, v, w, hw, _, h, h1, h2 => by
    simp only [Ty.serSize] at h
    simp only [Ty.WF] at hw
    rw [readAs] at h1 h2
    obtain ⟨a, ha, h1⟩ := except_bind_eq_ok h1
    obtain ⟨b, hb, h2⟩ := except_bind_eq_ok h2
    have ea := (readSint_safe hP hsP hw h ha).1
    have eb := (readSint_safe hQ hsQ hw h hb).1
    injection h1 with h1; injection h2 with h2
    rw [← h1, ← h2, ea, eb]
  | .arr t n, mem, off, v, w, hw, hl, h, h1, h2 => by
    simp only [Ty.serSize] at h
    simp only [Ty.WF] at hw
    simp only [Loose] at hl
    rw [readAs] at h1 h2
    obtain ⟨a, ha, h1⟩ := except_bind_eq_ok h1
    obtain ⟨b, hb, h2⟩ := except_bind_eq_ok h2
    injection h1 with h1; injection h2 with h2
    rw [← h1, ← h2]
    congr 1
    have key : ∀ n off a b, off + n * t.sizeof ≤ mem.length → readLoop (readAs P e s t) t.sizeof mem n off = .ok a →
        readLoop (readAs Q e s t) t.sizeof mem n off = .ok b → a = b := by
      intro n
      induction n with
      | zero =>
        intro off a b _ ha hb
        rw [readLoop] at ha hb
        injection ha with ha; injection hb with hb
        rw [← ha, ← hb]
      | succ n ih =>
        intro off a b h ha hb
        rw [Nat.succ_mul] at h
        rw [readLoop] at ha hb
        obtain ⟨a1, ha1, ha⟩ := except_bind_eq_ok ha
        obtain ⟨b1, hb1, hb⟩ := except_bind_eq_ok hb
        obtain ⟨a2, ha2, ha⟩ := except_bind_eq_ok ha
        obtain ⟨b2, hb2, hb⟩ := except_bind_eq_ok hb
        injection ha with ha; injection hb with hb
        rw [← ha, ← hb, readAs_agree hP hQ hsP hsQ t mem off a1 b1 hw.1 hl.1 (by omega) ha1 hb1,
          ih (off + t.sizeof) a2 b2 (by omega) ha2 hb2]
    exact key n off a b h ha hb
  | .user _ fs, mem, off, v, w, hw, hl, h, h1, h2 => by
    simp only [Ty.serSize] at h
    simp only [Ty.WF] at hw
    simp only [Loose] at hl
    rw [readAs] at h1 h2
    obtain ⟨a, ha, h1⟩ := except_bind_eq_ok h1
    obtain ⟨b, hb, h2⟩ := except_bind_eq_ok h2
    injection h1 with h1; injection h2 with h2
    rw [← h1, ← h2, readAll_agree hP hQ hsP hsQ fs mem off a b hw.2 hl h ha hb]

theorem readAll_agree {P Q : Platform} (hP : P.Valid) (hQ : Q.Valid) {e : Endian} {s : Mode} (hsP : Supported P e s)
    (hsQ : Supported Q e s) : ∀ (ts : List Ty) (mem : Mem) (off : Nat) (v w : List Val), Ty.WFs ts → LooseAll ts →
      off + Ty.serSizes ts ≤ mem.length → readAll P e s ts mem off = .ok v → readAll Q e s ts mem off = .ok w → v = w
  | [], mem, off, v, w, _, _, _, h1, h2 => by
    rw [readAll] at h1 h2
    injection h1 with h1; injection h2 with h2
    rw [← h1, ← h2]
  | t :: ts, mem, off, v, w, hw, hl, h, ha, hb => by
    simp only [Ty.serSizes] at h
    simp only [Ty.WFs] at hw
    simp only [LooseAll] at hl
    rw [readAll] at ha hb
    obtain ⟨a1, ha1, ha⟩ := except_bind_eq_ok ha
    obtain ⟨b1, hb1, hb⟩ := except_bind_eq_ok hb
    obtain ⟨a2, ha2, ha⟩ := except_bind_eq_ok ha
    obtain ⟨b2, hb2, hb⟩ := except_bind_eq_ok hb
    injection ha with ha; injection hb with hb
    rw [← ha, ← hb, readAs_agree hP hQ hsP hsQ t mem off a1 b1 hw.1 hl.1 (by omega) ha1 hb1,
      readAll_agree hP hQ hsP hsQ ts mem _ a2 b2 hw.2 hl.2 (by omega) ha2 hb2]
end

end Upd
