import Verif.Spec.PyObjects
import Verif.Lemmas.Effect

/-!
# Lemmas on the conversions of Python objects
-/

namespace Upd
open Spec Py

/-- Range of the integer types of `n` bytes. -/
def PyRange (signed : Bool) (n : Nat) (z : Int) : Prop :=
  if signed then -(2 ^ (8 * n - 1) : Int) ≤ z ∧ z < 2 ^ (8 * n - 1) else 0 ≤ z ∧ z < 2 ^ (8 * n)

instance (signed : Bool) (n : Nat) (z : Int) : Decidable (PyRange signed n z) := by unfold PyRange; infer_instance

theorem two_pow_half {n : Nat} (h : 1 ≤ n) : (2 ^ (8 * n) : Int) = 2 * 2 ^ (8 * n - 1) := by
  obtain ⟨m, hm⟩ : ∃ m, 8 * n = m + 1 := ⟨8 * n - 1, by omega⟩
  rw [hm, Nat.add_sub_cancel, Int.pow_succ, Int.mul_comm]

theorem two_pow_mono {a b : Nat} (h : a ≤ b) : (2 ^ a : Int) ≤ 2 ^ b := by
  have := Nat.pow_le_pow_right (n := 2) (by decide) h
  exact_mod_cast this

theorem castInt_range (signed : Bool) {n : Nat} (h : 1 ≤ n) (z : Int) : PyRange signed n (castInt signed n z) := by
  have hp := two_pow_half h
  have hpos : (0 : Int) < 2 ^ (8 * n - 1) := Int.pow_pos (by decide)
  unfold PyRange castInt
  cases signed
  · simp only [Bool.false_eq_true, if_false]
    exact ⟨Int.emod_nonneg _ (by omega), Int.emod_lt_of_pos _ (by omega)⟩
  · simp only [if_true]
    have hc : ((2 ^ (8 * n) : Nat) : Int) = 2 * 2 ^ (8 * n - 1) := by rw [← hp]; norm_cast
    have h1 := Int.le_bmod (x := z) (m := 2 ^ (8 * n)) (Nat.pow_pos (by decide))
    have h2 := Int.bmod_lt (x := z) (m := 2 ^ (8 * n)) (Nat.pow_pos (by decide))
    rw [hc] at h1 h2
    omega

theorem castInt_id {signed : Bool} {n : Nat} (h : 1 ≤ n) {z : Int} (hz : PyRange signed n z) : castInt signed n z = z := by
  have hp := two_pow_half h
  unfold PyRange at hz
  unfold castInt
  cases signed
  · simp only [Bool.false_eq_true, if_false] at hz ⊢
    exact Int.emod_eq_of_lt hz.1 hz.2
  · simp only [if_true] at hz ⊢
    have hc : ((2 ^ (8 * n) : Nat) : Int) = 2 * 2 ^ (8 * n - 1) := by rw [← hp]; norm_cast
    apply Int.bmod_eq_of_le <;> omega

theorem asLong_eq (signed : Bool) (b : Nat) (z : Int) : asLong signed b z = if PyRange signed b z then some z else none := by
  unfold asLong PyRange
  cases signed <;> rfl

theorem pyRange_mono {signed : Bool} {n b : Nat} (h : n ≤ b) {z : Int} (hz : PyRange signed n z) : PyRange signed b z := by
  unfold PyRange at hz ⊢
  cases signed
  · simp only [Bool.false_eq_true, if_false] at hz ⊢
    have := two_pow_mono (a := 8 * n) (b := 8 * b) (by omega)
    omega
  · simp only [if_true] at hz ⊢
    have := two_pow_mono (a := 8 * n - 1) (b := 8 * b - 1) (by omega)
    omega

theorem loadInt_eq {L : Nat} (signed : Bool) {n : Nat} (h1 : 1 ≤ n) (h8 : n ≤ 8) (o : Obj) :
    loadInt L signed n o = o.toLong.bind fun z => if PyRange signed n z then some z else none := by
  unfold loadInt
  cases o.toLong with
  | none => rfl
  | some z =>
    simp only [Option.bind_some, asLong_eq]
    generalize hb : (if n ≤ L then L else 8) = b
    have hnb : n ≤ b := by rw [← hb]; split <;> omega
    by_cases hz : PyRange signed n z
    · have h2 := pyRange_mono hnb hz
      rw [if_pos h2, if_pos hz]
      simp only [castInt_id h1 hz, castInt_id (Nat.le_trans h1 hnb) h2]
      simp
    · rw [if_neg hz]
      by_cases h2 : PyRange signed b z
      · rw [if_pos h2]
        simp only
        have hne : b ≠ n := by rintro rfl; exact hz h2
        have h3 := castInt_range signed h1 z
        rw [castInt_id (Nat.le_trans h1 hnb) (pyRange_mono hnb h3)]
        rw [if_pos ⟨hne, fun h => hz (h ▸ h3)⟩]
      · rw [if_neg h2]

theorem toLong_iff {o : Obj} {z : Int} : o.toLong = some z ↔ IsNumber o z := by
  constructor
  · intro h
    cases o with
    | int y => cases h; exact .int _
    | bool b => cases b <;> (cases h; constructor)
    | inst y t => cases h; exact .inst _ _
    | none => cases h
    | float b => cases h
    | list l => cases h
  · intro h
    cases h <;> rfl

theorem loadBool_iff {o : Obj} {b : Bool} : loadBool o = some b ↔ IsTruth o b := by
  constructor
  · intro h
    cases o with
    | int y =>
      simp only [loadBool, Option.some.injEq] at h
      by_cases hy : y = 0
      · subst hy; subst h; exact .zero
      · have : b = true := by rw [← h]; simpa using hy
        subst this
        exact .int hy
    | bool b => cases h; exact .bool _
    | inst y t => cases h; exact .inst _ _
    | none => cases h; exact .none
    | float b => cases b <;> (cases h; constructor)
    | list l => cases h
  · intro h
    cases h <;> simp_all [loadBool]

theorem int256 (n : Nat) : (256 ^ n : Int) = 2 ^ (8 * n) := by
  rw [Int.pow_mul]
  rfl

mutual
theorem load_denotes {L : Nat} : ∀ {t : Ty} {o : Obj} {v : Val}, Bindable t → Denotes t o v → load L t o = some v
  | _, _, _, _, .bool h => by simp [load, loadBool_iff.2 h]
  | _, _, _, hb, .uint h h0 h1 => by
    simp only [Bindable] at hb
    rw [int256] at h1
    simp [load, loadInt_eq false hb.1 hb.2, toLong_iff.2 h, PyRange, h0, h1]
  | _, _, _, hb, .sint h h0 => by
    simp only [Bindable] at hb
    simp [load, loadInt_eq true hb.1 hb.2, toLong_iff.2 h, PyRange, h0.1, h0.2]
  | .arr t n, .list l, .arr vs, hb, .arr h => by
    simp only [Bindable] at hb
    obtain ⟨h1, h2⟩ := load_replicate (L := L) n hb h
    simp [load, h1, h2]

theorem load_replicate {L : Nat} : ∀ (n : Nat) {t : Ty} {l : List Obj} {vs : List Val}, Bindable t → DenotesAll (List.replicate n t) l vs →
    l.length = n ∧ l.mapM (load L t) = some vs
  | 0, _, _, _, _, h => by
    rw [List.replicate_zero] at h
    cases h
    exact ⟨rfl, rfl⟩
  | n + 1, t, l, vs, hb, h => by
    rw [List.replicate_succ] at h
    cases h with
    | cons h1 h2 =>
      obtain ⟨h3, h4⟩ := load_replicate (L := L) n hb h2
      refine ⟨by simp [h3], ?_⟩
      simp [List.mapM_cons, load_denotes hb h1, h4]
end

theorem loadInt_some {L : Nat} {signed : Bool} {n : Nat} (h1 : 1 ≤ n) (h8 : n ≤ 8) {o : Obj} {z : Int} (h : loadInt L signed n o = some z) :
    IsNumber o z ∧ PyRange signed n z := by
  rw [loadInt_eq signed h1 h8] at h
  cases hz : o.toLong with
  | none => rw [hz] at h; cases h
  | some y =>
    rw [hz, Option.bind_some] at h
    by_cases hr : PyRange signed n y
    · rw [if_pos hr] at h
      cases h
      exact ⟨toLong_iff.1 hz, hr⟩
    · rw [if_neg hr] at h
      cases h

theorem denotesAll_of_mapM {t : Ty} {f : Obj → Option Val} (hf : ∀ o v, f o = some v → Denotes t o v) : ∀ {l : List Obj} {vs : List Val},
    l.mapM f = some vs → DenotesAll (List.replicate l.length t) l vs
  | [], vs, h => by
    cases h
    exact .nil
  | o :: l, vs, h => by
    rw [List.mapM_cons] at h
    cases h1 : f o with
    | none => rw [h1] at h; cases h
    | some v =>
      cases h2 : l.mapM f with
      | none => rw [h1, h2] at h; cases h
      | some vs' =>
        rw [h1, h2] at h
        cases h
        exact .cons (hf _ _ h1) (denotesAll_of_mapM hf h2)

theorem denotes_of_load {L : Nat} : ∀ (t : Ty), Bindable t → ∀ {o : Obj} {v : Val}, load L t o = some v → Denotes t o v
  | .bool, _, o, v, h => by
    simp only [load, Option.map_eq_some_iff] at h
    obtain ⟨b, h, rfl⟩ := h
    exact .bool (loadBool_iff.1 h)
  | .uint n, hb, o, v, h => by
    simp only [load, Option.map_eq_some_iff] at h
    simp only [Bindable] at hb
    obtain ⟨z, h, rfl⟩ := h
    obtain ⟨h1, h2⟩ := loadInt_some hb.1 hb.2 h
    simp only [PyRange, Bool.false_eq_true, if_false] at h2
    exact .uint h1 h2.1 (by rw [int256]; exact h2.2)
  | .sint k, hb, o, v, h => by
    simp only [load, Option.map_eq_some_iff] at h
    simp only [Bindable] at hb
    obtain ⟨z, h, rfl⟩ := h
    obtain ⟨h1, h2⟩ := loadInt_some hb.1 hb.2 h
    simp only [PyRange, if_true] at h2
    exact .sint h1 h2
  | .arr t n, hb, o, v, h => by
    simp only [Bindable] at hb
    cases o with
    | list l =>
      simp only [load] at h
      by_cases hl : l.length = n
      · rw [if_pos hl, Option.map_eq_some_iff] at h
        obtain ⟨vs, h, rfl⟩ := h
        have := denotesAll_of_mapM (fun o v => denotes_of_load t hb (o := o) (v := v)) h
        rw [hl] at this
        exact .arr this
      · rw [if_neg hl] at h
        cases h
    | _ => cases h
  | .user _ _, hb, _, _, _ => hb.elim

theorem load_iff {L : Nat} {t : Ty} (hb : Bindable t) {o : Obj} {v : Val} : load L t o = some v ↔ Denotes t o v :=
  ⟨denotes_of_load t hb, load_denotes hb⟩

theorem loads_iff {L : Nat} : ∀ {ts : List Ty}, (∀ t ∈ ts, Bindable t) → ∀ {os : List Obj} {vs : List Val},
    loads L ts os = some vs ↔ DenotesAll ts os vs
  | [], _, os, vs => by
    constructor
    · intro h
      cases os with
      | nil => cases h; exact .nil
      | cons o os => cases h
    · intro h
      cases h
      rfl
  | t :: ts, hb, os, vs => by
    have h0 := hb t (by simp)
    have ih := fun {os vs} => loads_iff (L := L) (ts := ts) (fun t ht => hb t (by simp [ht])) (os := os) (vs := vs)
    constructor
    · intro h
      cases os with
      | nil => cases h
      | cons o os =>
        simp only [loads, Option.bind_eq_bind, Option.bind_eq_some_iff] at h
        obtain ⟨v, h1, vs', h2, h3⟩ := h
        cases h3
        exact .cons ((load_iff h0).1 h1) (ih.1 h2)
    · intro h
      cases h with
      | cons h1 h2 => simp [loads, (load_iff h0).2 h1, ih.2 h2]

mutual
theorem denotes_fits : ∀ {t : Ty} {o : Obj} {v : Val}, Denotes t o v → v.Fits InRange t
  | _, _, _, .bool _ => by simp [Val.Fits]
  | _, _, _, .uint _ h0 h1 => by simp only [Val.Fits]; exact ⟨h0, h1⟩
  | _, _, _, .sint _ h => by simp only [Val.Fits]; exact h
  | .arr t n, _, .arr vs, .arr h => by
    simp only [Val.Fits]
    exact denotes_fits_replicate n h

theorem denotes_fits_replicate : ∀ (n : Nat) {t : Ty} {os : List Obj} {vs : List Val}, DenotesAll (List.replicate n t) os vs →
    vs.length = n ∧ ∀ v ∈ vs, v.Fits InRange t
  | 0, _, _, _, h => by
    rw [List.replicate_zero] at h
    cases h
    exact ⟨rfl, by simp⟩
  | n + 1, t, _, _, h => by
    rw [List.replicate_succ] at h
    cases h with
    | cons h1 h2 =>
      obtain ⟨h3, h4⟩ := denotes_fits_replicate n h2
      refine ⟨by simp [h3], ?_⟩
      intro v hv
      rcases List.mem_cons.1 hv with rfl | hv
      · exact denotes_fits h1
      · exact h4 v hv
end

mutual
theorem ofVal_iff : ∀ {v : Val} {o : Obj}, Obj.ofVal v = some o ↔ Shows v o
  | .bool b, o => by
    constructor
    · intro h; cases h; exact .bool _
    · intro h; cases h; rfl
  | .int z, o => by
    constructor
    · intro h; cases h; exact .int _
    · intro h; cases h; rfl
  | .arr vs, o => by
    constructor
    · intro h
      simp only [Obj.ofVal, Option.map_eq_some_iff] at h
      obtain ⟨os, h, rfl⟩ := h
      exact .arr (ofVals_iff.1 h)
    · intro h
      cases h with
      | arr h => simp [Obj.ofVal, ofVals_iff.2 h]
  | .user vs, o => by
    constructor
    · intro h; cases h
    · intro h; cases h

theorem ofVals_iff : ∀ {vs : List Val} {os : List Obj}, Obj.ofVals vs = some os ↔ ShowsAll vs os
  | [], os => by
    constructor
    · intro h; cases h; exact .nil
    · intro h; cases h; rfl
  | v :: vs, os => by
    constructor
    · intro h
      simp only [Obj.ofVals, Option.bind_eq_bind, Option.bind_eq_some_iff] at h
      obtain ⟨o, h1, os', h2, h3⟩ := h
      cases h3
      exact .cons (ofVal_iff.1 h1) (ofVals_iff.1 h2)
    · intro h
      cases h with
      | cons h1 h2 => simp [Obj.ofVals, ofVal_iff.2 h1, ofVals_iff.2 h2]
end

theorem fits_shows {leaf : Nat → Int → Prop} : ∀ {t : Ty}, Bindable t → ∀ {v : Val}, v.Fits leaf t → ∃ o, Shows v o
  | .bool, _, .bool b, _ => ⟨_, .bool b⟩
  | .uint _, _, .int z, _ => ⟨_, .int z⟩
  | .sint _, _, .int z, _ => ⟨_, .int z⟩
  | .arr t n, hb, .arr vs, h => by
    simp only [Bindable] at hb
    simp only [Val.Fits] at h
    have h2 : ∃ os, ShowsAll vs os := by
      have h3 := h.2
      clear h
      induction vs with
      | nil => exact ⟨_, .nil⟩
      | cons v vs ih =>
        obtain ⟨o, h4⟩ := fits_shows hb (h3 v (by simp))
        obtain ⟨os, h5⟩ := ih (fun v hv => h3 v (by simp [hv]))
        exact ⟨_, .cons h4 h5⟩
    obtain ⟨os, h2⟩ := h2
    exact ⟨_, .arr h2⟩
  | .user _ _, hb, _, _ => hb.elim

theorem fitsAll_shows {leaf : Nat → Int → Prop} : ∀ {ts : List Ty}, (∀ t ∈ ts, Bindable t) → ∀ {vs : List Val}, Val.FitsAll leaf ts vs →
    ∃ os, ShowsAll vs os
  | [], _, [], _ => ⟨_, .nil⟩
  | t :: ts, hb, v :: vs, h => by
    simp only [Val.FitsAll] at h
    obtain ⟨o, h1⟩ := fits_shows (hb t (by simp)) h.1
    obtain ⟨os, h2⟩ := fitsAll_shows (fun t ht => hb t (by simp [ht])) h.2
    exact ⟨_, .cons h1 h2⟩

/-- The object is a byte. -/
theorem loadByte_iff {L : Nat} {o : Obj} {b : Byte} : loadByte L o = some b ↔ IsNumber o b.toNat := by
  unfold loadByte
  rw [Option.map_eq_some_iff]
  constructor
  · rintro ⟨z, h, rfl⟩
    obtain ⟨h1, h2⟩ := loadInt_some (by decide) (by decide) h
    simp only [PyRange, Bool.false_eq_true, if_false] at h2
    have : ((BitVec.ofInt 8 z).toNat : Int) = z := by
      rw [BitVec.toNat_ofInt]
      omega
    rw [this]
    exact h1
  · intro h
    refine ⟨b.toNat, ?_, ?_⟩
    · rw [loadInt_eq false (by decide) (by decide), toLong_iff.2 h, Option.bind_some, if_pos]
      simp only [PyRange, Bool.false_eq_true, if_false]
      have := b.isLt
      omega
    · apply BitVec.eq_of_toNat_eq
      have := b.isLt
      rw [BitVec.toNat_ofInt]
      omega

theorem bindable_builtin : ∀ {t : Ty}, Bindable t → Builtin t
  | .bool, _ => by simp [Builtin]
  | .uint _, _ => by simp [Builtin]
  | .sint _, _ => by simp [Builtin]
  | .arr t n, h => by
    simp only [Bindable] at h
    simp only [Builtin]
    exact bindable_builtin h
  | .user _ _, h => h.elim

theorem denotesAll_of_shows {t : Ty} (ht : ∀ v, v.Fits InRange t → ∀ o, Shows v o → Denotes t o v) : ∀ {vs : List Val} {os : List Obj},
    (∀ v ∈ vs, v.Fits InRange t) → ShowsAll vs os → DenotesAll (List.replicate vs.length t) os vs
  | [], _, _, h => by
    cases h
    exact .nil
  | v :: vs, _, h2, h => by
    cases h with
    | cons h3 h4 => exact .cons (ht _ (h2 v (by simp)) _ h3) (denotesAll_of_shows ht (fun v hv => h2 v (by simp [hv])) h4)

theorem denotes_of_shows : ∀ (t : Ty) {v : Val}, v.Fits InRange t → ∀ {o : Obj}, Shows v o → Denotes t o v
  | .bool, v, hv, o, h => by
    cases v <;> simp only [Val.Fits] at hv
    cases h
    exact .bool (.bool _)
  | .uint n, v, hv, o, h => by
    cases v <;> simp only [Val.Fits] at hv
    cases h
    exact .uint (.int _) hv.1 hv.2
  | .sint k, v, hv, o, h => by
    cases v <;> simp only [Val.Fits] at hv
    cases h
    exact .sint (.int _) hv
  | .arr t n, v, hv, o, h => by
    cases v <;> simp only [Val.Fits] at hv
    obtain ⟨rfl, h2⟩ := hv
    cases h with
    | arr h => exact .arr (denotesAll_of_shows (fun v hv o => denotes_of_shows t hv) h2 h)
  | .user _ _, v, hv, o, h => by
    cases v <;> simp only [Val.Fits] at hv
    cases h

theorem denotesAll_of_showsAll : ∀ {ts : List Ty} {vs : List Val} {os : List Obj}, Val.FitsAll InRange ts vs → ShowsAll vs os → DenotesAll ts os vs
  | [], [], _, _, h => by
    cases h
    exact .nil
  | t :: ts, v :: vs, _, hf, h => by
    simp only [Val.FitsAll] at hf
    cases h with
    | cons h1 h2 => exact .cons (denotes_of_shows t hf.1 h1) (denotesAll_of_showsAll hf.2 h2)

/-! ## Bytes -/

theorem ofBytes_yields {L : Nat} : ∀ (bs : List Byte) (rest : List Obj), Yields (objSrc L) (ofBytes bs ++ rest) bs rest
  | [], rest => .nil _
  | b :: bs, rest => by
    have h1 : loadByte L (.int b.toNat) = some b := loadByte_iff.2 (.int _)
    refine .cons (w1 := ofBytes bs ++ rest) ?_ (ofBytes_yields bs rest)
    show orRaise (loadByte L (.int b.toNat)) (ofBytes bs ++ rest) = _
    rw [h1]
    rfl

theorem objSrc_yields {L : Nat} {os : List Obj} {bs : List Byte} (h : AreBytes os bs) (rest : List Obj) :
    Yields (objSrc L) (os ++ rest) bs rest := by
  induction h with
  | nil => exact .nil _
  | @cons o b os bs h0 _ ih =>
    refine .cons (w1 := os ++ rest) ?_ ih
    show orRaise (loadByte L o) (os ++ rest) = _
    rw [loadByte_iff.2 h0]
    rfl

theorem getter_yields {τ : Type} {L : Nat} {fn : Eff τ Obj} {w w' : τ} {os : List Obj} (h : Returns fn w os w') {bs : List Byte} (hb : AreBytes os bs) :
    Yields (getter L fn) w bs w' := by
  induction h generalizing bs with
  | nil w => cases hb; exact .nil _
  | cons h1 _ ih =>
    cases hb with
    | cons h0 h2 =>
      refine .cons ?_ (ih h2)
      unfold getter
      rw [Eff.bind_ret h1, loadByte_iff.2 h0]
      rfl

theorem loadByte_none {L : Nat} {o : Obj} (h : NoByte o) : loadByte L o = none := by
  cases hb : loadByte L o with
  | none => rfl
  | some b => exact absurd (loadByte_iff.1 hb) (h b)

theorem getter_stop {τ : Type} {L : Nat} {fn : Eff τ Obj} {w w' : τ} {o : Obj} (h : fn w = .ret o w') (ho : NoByte o) :
    getter L fn w = .threw w' := by
  unfold getter
  rw [Eff.bind_ret h, loadByte_none ho]
  rfl

theorem getN_objs {L : Nat} : ∀ (n : Nat) (l : List Byte) {bs l' : List Byte}, getN pySrc n l = .ret bs l' →
    getN (objSrc L) n (ofBytes l) = .ret bs (ofBytes l')
  | 0, l, bs, l', h => by cases h; rfl
  | n + 1, [], bs, l', h => by cases h
  | n + 1, b :: l, bs, l', h => by
    have h1 : objSrc L (ofBytes (b :: l)) = .ret b (ofBytes l) := by
      show orRaise (loadByte L (.int b.toNat)) (ofBytes l) = _
      rw [loadByte_iff.2 (.int _)]
      rfl
    unfold getN at h ⊢
    rw [Eff.bind_ret h1]
    have h2 : pySrc (b :: l) = .ret b l := rfl
    rw [Eff.bind_ret h2] at h
    cases h3 : getN pySrc n l with
    | fault e => rw [Eff.bind_fault h3] at h; cases h
    | threw w => rw [Eff.bind_threw h3] at h; cases h
    | ret bs' l'' =>
      rw [Eff.bind_ret h3] at h
      rw [Eff.bind_ret (getN_objs n l h3)]
      cases h
      rfl

/-- An object which is no byte stops the source. -/
theorem getN_objs_stop {L : Nat} : ∀ (n : Nat) (os : List Obj), os.length < n ∨ (∃ (i : Nat) (hi : i < os.length), i < n ∧ NoByte os[i]) →
    ∃ os', getN (objSrc L) n os = .threw os'
  | 0, os, h => by
    rcases h with h | ⟨i, _, h, _⟩ <;> omega
  | n + 1, [], h => ⟨[], rfl⟩
  | n + 1, o :: os, h => by
    unfold getN
    cases hb : loadByte L o with
    | none =>
      have h1 : objSrc L (o :: os) = .threw os := by
        show orRaise (loadByte L o) os = _
        rw [hb]
        rfl
      exact ⟨os, Eff.bind_threw h1⟩
    | some b =>
      have h1 : objSrc L (o :: os) = .ret b os := by
        show orRaise (loadByte L o) os = _
        rw [hb]
        rfl
      rw [Eff.bind_ret h1]
      have h2 : os.length < n ∨ (∃ (i : Nat) (hi : i < os.length), i < n ∧ NoByte os[i]) := by
        rcases h with h | ⟨i, hi, hn, h⟩
        · exact .inl (by simpa using h)
        · cases i with
          | zero => exact absurd (loadByte_iff.1 hb) (h b)
          | succ i => exact .inr ⟨i, by simpa using hi, by omega, h⟩
      obtain ⟨os', h3⟩ := getN_objs_stop n os h2
      exact ⟨os', Eff.bind_threw h3⟩

end Upd
