import Verif.Lemmas.Cases
import Verif.Props.Types

/-! Helper lemmas: writing a representable value either succeeds or overflows, and which one. -/

namespace Upd
open Spec

theorem writeSint_cases {P : Platform} (hP : P.Valid) {e : Endian} {s : Mode} (hs : Supported P e s) {k : Nat} (hk8 : k ≤ 8)
    {z : Int} (hz : Representable s k z) {mem : Mem} {off : Nat} (h : off + k ≤ mem.length) (hn : ¬ Safe P s k z) :
    writeAs P e s (.sint k) (.int z) mem off = .error .signedOverflow := by
  have h1 : ¬ MinSafe P s k := fun hm => hn ⟨hz, Or.inl hm⟩
  have h2 : z = -(2 ^ (8 * k - 1) : Int) := Classical.byContradiction fun hne => hn ⟨hz, Or.inr hne⟩
  subst h2
  simp only [MinSafe, not_or] at h1
  exact C11_least_value_of_wide_type hP hs hk8 (by omega) h1.1 h1.2.1 h

mutual
theorem writeAs_cases {P : Platform} (hP : P.Valid) {e : Endian} {s : Mode} (hs : Supported P e s) :
    ∀ (t : Ty) (v : Val) (mem : Mem) (off : Nat), t.WF → Loose t → v.Fits (Representable s) t → off + t.serSize ≤ mem.length →
      ¬ v.Fits (Safe P s) t → writeAs P e s t v mem off = .error .signedOverflow
  | .bool, .bool _, _, _, _, _, _, _, hn => absurd (by simp [Val.Fits]) hn
  | .uint _, .int _, _, _, _, _, hv, _, hn => absurd (by simpa only [Val.Fits] using hv) hn
  | .sint k, .int z, mem, off, hw, _, hv, h, hn => by
    simp only [Ty.WF] at hw
    simp only [Val.Fits] at hv hn
    simp only [Ty.serSize] at h
    exact writeSint_cases hP hs hw.2 hv h hn
  | .arr t n, .arr vs, mem, off, hw, hl, hv, h, hn => by
    simp only [Ty.WF] at hw
    simp only [Loose] at hl
    simp only [Val.Fits] at hv hn
    simp only [Ty.serSize] at h
    have key : ∀ (vs : List Val) (mem : Mem) (off : Nat), (∀ v ∈ vs, v.Fits (Representable s) t) → off + vs.length * t.sizeof ≤ mem.length →
        (¬ ∀ v ∈ vs, v.Fits (Safe P s) t) → writeLoop (writeAs P e s t) t.sizeof vs mem off = .error .signedOverflow := by
      intro vs
      induction vs with
      | nil => intro mem off _ _ hn; exact absurd (by simp) hn
      | cons v vs ih =>
        intro mem off hv h hn
        rw [List.length_cons, Nat.succ_mul] at h
        rw [writeLoop]
        by_cases hs1 : v.Fits (Safe P s) t
        · obtain ⟨mem', hm⟩ : ∃ mem', writeAs P e s t v mem off = .ok mem' := ⟨_, writeAs_ok hP hs t v mem off hw.1 hl.1 hs1 (by omega)⟩
          rw [hm, except_bind_ok]
          apply ih _ _ (fun w hw => hv w (List.mem_cons_of_mem _ hw))
          · rw [(C05_write_frame hl.1 hm).1]
            omega
          · intro hall
            exact hn fun w hw => by
              rcases List.mem_cons.1 hw with rfl | hw
              · exact hs1
              · exact hall w hw
        · rw [writeAs_cases hP hs t v mem off hw.1 hl.1 (hv v (List.mem_cons_self ..)) (by omega) hs1]
          rfl
    rw [writeAs, if_pos hv.1]
    exact key vs mem off hv.2 (by rw [hv.1]; exact h) (fun hall => hn ⟨hv.1, hall⟩)
  | .user _ fs, .user vs, mem, off, hw, hl, hv, h, hn => by
    simp only [Ty.WF] at hw
    simp only [Loose] at hl
    simp only [Val.Fits] at hv hn
    simp only [Ty.serSize] at h
    rw [writeAs]
    exact writeAll_cases hP hs fs vs mem off hw.2 hl hv h hn

theorem writeAll_cases {P : Platform} (hP : P.Valid) {e : Endian} {s : Mode} (hs : Supported P e s) :
    ∀ (ts : List Ty) (vs : List Val) (mem : Mem) (off : Nat), Ty.WFs ts → LooseAll ts → Val.FitsAll (Representable s) ts vs →
      off + Ty.serSizes ts ≤ mem.length → ¬ Val.FitsAll (Safe P s) ts vs → writeAll P e s ts vs mem off = .error .signedOverflow
  | [], [], _, _, _, _, _, _, hn => absurd (by simp [Val.FitsAll]) hn
  | t :: ts, v :: vs, mem, off, hw, hl, hv, h, hn => by
    simp only [Ty.WFs] at hw
    simp only [LooseAll] at hl
    simp only [Val.FitsAll] at hv hn
    simp only [Ty.serSizes] at h
    rw [writeAll]
    by_cases hs1 : v.Fits (Safe P s) t
    · obtain ⟨mem', hm⟩ : ∃ mem', writeAs P e s t v mem off = .ok mem' := ⟨_, writeAs_ok hP hs t v mem off hw.1 hl.1 hs1 (by omega)⟩
      rw [hm, except_bind_ok]
      exact writeAll_cases hP hs ts vs mem' _ hw.2 hl.2 hv.2 (by rw [(C05_write_frame hl.1 hm).1]; omega) (fun hall => hn ⟨hs1, hall⟩)
    · rw [writeAs_cases hP hs t v mem off hw.1 hl.1 hv.1 (by omega) hs1]
      rfl
end

end Upd
