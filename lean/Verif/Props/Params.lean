import Verif.Spec.Params

/-!
# Types of parameters and results (C84)
-/

namespace Upd
open Upd.Cpp Upd.Spec

theorem found_iff {t : VTy} (h : Encodable t) : t.Found 2 ↔ NotUser t := by
  cases h <;> simp [VTy.Found, VTy.overload, NotUser]

theorem _root_.Upd.Spec.Decodable.encodable {t : VTy} (h : Decodable t) : Encodable t := by
  induction h with
  | arith i => exact .arith i
  | user i d _ ih => exact .user i d ih
  | carr n _ hu _ ih => exact .carr n ih hu
  | sarr n _ hu _ ih => exact .sarr n ih hu

mutual
theorem writes_iff : ∀ t : VTy, (t.Declared ∧ t.Writes) ↔ Encodable t
  | .arith i => by simp [VTy.Declared, VTy.Writes, Encodable.arith]
  | .other i => by
    simp only [VTy.Declared, false_and, false_iff]
    intro h; cases h
  | .carr t n => by
    have := writes_encodable t
    simp only [VTy.Declared, VTy.Writes, true_and]
    exact ⟨fun h => .carr n (this.mp h.1) ((found_iff (this.mp h.1)).mp h.2), fun h => by cases h with | carr _ h hu => exact ⟨this.mpr h, (found_iff h).mpr hu⟩⟩
  | .sarr t n => by
    have := writes_encodable t
    simp only [VTy.Declared, VTy.Writes, true_and]
    exact ⟨fun h => .sarr n (this.mp h.1) ((found_iff (this.mp h.1)).mp h.2), fun h => by cases h with | sarr _ h hu => exact ⟨this.mpr h, (found_iff h).mpr hu⟩⟩
  | .user i d fs => by
    have := writesAll_iff fs
    simp only [VTy.Declared, VTy.Writes, true_and]
    exact ⟨fun h => .user i d (this.mp h), fun h => by cases h with | user _ _ h => exact this.mpr h⟩

theorem writes_encodable : ∀ t : VTy, t.Writes ↔ Encodable t
  | .arith i => by simp [VTy.Writes, Encodable.arith]
  | .other i => by
    simp only [VTy.Writes, false_iff]
    intro h; cases h
  | .carr t n => by
    have := writes_encodable t
    simp only [VTy.Writes]
    exact ⟨fun h => .carr n (this.mp h.1) ((found_iff (this.mp h.1)).mp h.2), fun h => by cases h with | carr _ h hu => exact ⟨this.mpr h, (found_iff h).mpr hu⟩⟩
  | .sarr t n => by
    have := writes_encodable t
    simp only [VTy.Writes]
    exact ⟨fun h => .sarr n (this.mp h.1) ((found_iff (this.mp h.1)).mp h.2), fun h => by cases h with | sarr _ h hu => exact ⟨this.mpr h, (found_iff h).mpr hu⟩⟩
  | .user i d fs => by
    have := writesAll_iff fs
    simp only [VTy.Writes]
    exact ⟨fun h => .user i d (this.mp h), fun h => by cases h with | user _ _ h => exact this.mpr h⟩

theorem writesAll_iff : ∀ ts : List VTy, VTy.WritesAll ts ↔ ∀ t ∈ ts, Encodable t
  | [] => by simp [VTy.WritesAll]
  | t :: ts => by
    simp only [VTy.WritesAll, List.forall_mem_cons]
    exact and_congr (writes_iff t) (writesAll_iff ts)
end

/-- `normalize` turns what `read_as` returns back into the type of the element, whatever it is. -/
theorem normalizes_readTy (t : VTy) : Normalizes t t.readTy t := by
  cases t with
  | carr t n => exact .array rfl
  | arith i => exact .same rfl
  | user i d fs => exact .same rfl
  | sarr t n => exact .same rfl
  | other i => exact .same rfl

theorem normalizes_unique {t r : VTy} (h : Normalizes t t.readTy r) : r = t := by
  generalize hv : t.readTy = v at h
  cases h with
  | array h => exact h.symm
  | same h =>
    subst hv
    cases t <;> first | rfl | (simp [VTy.readTy] at h)

theorem isCArr_iff (t : VTy) : ¬ t.IsCArr ↔ ∀ u m, t ≠ .carr u m := by
  cases t <;> simp [VTy.IsCArr]

mutual
theorem reads_iff : ∀ t : VTy, t.Reads ↔ Decodable t
  | .arith i => by simp [VTy.Reads, Decodable.arith]
  | .other i => by
    simp only [VTy.Reads, false_iff]
    intro h; cases h
  | .carr t n => by
    have := reads_iff t
    simp only [VTy.Reads, isCArr_iff]
    exact ⟨fun h => .carr n (this.mp h.1) ((found_iff (this.mp h.1).encodable).mp h.2.1) h.2.2,
      fun h => by cases h with | carr _ h hu hn => exact ⟨this.mpr h, (found_iff h.encodable).mpr hu, hn⟩⟩
  | .sarr t n => by
    have := reads_iff t
    simp only [VTy.Reads, isCArr_iff]
    exact ⟨fun h => .sarr n (this.mp h.1) ((found_iff (this.mp h.1).encodable).mp h.2.1) h.2.2,
      fun h => by cases h with | sarr _ h hu hn => exact ⟨this.mpr h, (found_iff h.encodable).mpr hu, hn⟩⟩
  | .user i d fs => by
    have := readsAll_iff fs
    simp only [VTy.Reads]
    exact ⟨fun h => .user i d (this.mp h), fun h => by cases h with | user _ _ h => exact this.mpr h⟩

theorem readsAll_iff : ∀ ts : List VTy, VTy.ReadsAll ts ↔ ∀ t ∈ ts, Decodable t
  | [] => by simp [VTy.ReadsAll]
  | t :: ts => by
    simp only [VTy.ReadsAll, List.forall_mem_cons, readsAll_iff ts, reads_iff t]
    have : Decodable t → t.Declared := by intro h; cases h <;> trivial
    exact ⟨fun ⟨⟨_, h, _⟩, h2⟩ => ⟨h, h2⟩, fun ⟨h, h2⟩ => ⟨⟨this h, h, normalizes_readTy t⟩, h2⟩⟩
end

theorem valueInit_iff : ∀ t : VTy, Encodable t → (t.ValueInit ↔ HasDefault t)
  | .arith i, _ => by simp [VTy.ValueInit, HasDefault.arith]
  | .other i, h => by cases h
  | .carr t n, h => by
    have := valueInit_iff t (by cases h; assumption)
    simp only [VTy.ValueInit]
    exact ⟨fun h => .carr n (this.mp h), fun h => by cases h with | carr _ h => exact this.mpr h⟩
  | .sarr t n, h => by
    have := valueInit_iff t (by cases h; assumption)
    simp only [VTy.ValueInit]
    exact ⟨fun h => .sarr n (this.mp h), fun h => by cases h with | sarr _ h => exact this.mpr h⟩
  | .user i d fs, h => by
    simp only [VTy.ValueInit]
    exact ⟨fun h => by subst h; exact .user i fs, fun h => by cases h; rfl⟩

theorem tupleOk_plain (ts : List QTy) : TupleOk (ts.map QTy.plain) ↔ ∀ t ∈ ts, t.base.Declared := by
  simp [TupleOk, QTy.plain]

theorem constructs_plain (ts : List QTy) : Constructs (ts.map QTy.plain) ↔ ∀ t ∈ ts, Encodable t.base := by
  simp only [Constructs, tupleOk_plain]
  simp only [List.forall_mem_map]
  constructor
  · intro ⟨h1, h2⟩ t ht
    exact (writes_iff _).mp ⟨h1 t ht, h2 t ht⟩
  · intro h
    exact ⟨fun t ht => ((writes_iff _).mpr (h t ht)).1, fun t ht => ((writes_iff _).mpr (h t ht)).2⟩

theorem defaultConstructs_plain (ts : List QTy) :
    DefaultConstructs (ts.map QTy.plain) ↔ ∀ t ∈ ts, Encodable t.base ∧ HasDefault t.base := by
  simp only [DefaultConstructs, constructs_plain, List.forall_mem_map]
  constructor
  · intro ⟨h1, h2⟩ t ht
    exact ⟨h1 t ht, (valueInit_iff _ (h1 t ht)).mp (h2 t ht)⟩
  · intro h
    exact ⟨fun t ht => (h t ht).1, fun t ht => (valueInit_iff _ (h t ht).1).mpr (h t ht).2⟩

theorem invokes_iff (ps : List QTy) :
    Invokes ps ↔ ∀ p ∈ ps, Decodable p.base ∧ ¬ QTy.MutableRef p := by
  have hd : ∀ t : VTy, Decodable t → t.Declared := by intro t h; cases h <;> trivial
  simp only [Invokes, tupleOk_plain]
  constructor
  · intro ⟨_, h⟩ p hp
    obtain ⟨h1, r, h2, h3⟩ := h p hp
    refine ⟨(reads_iff _).mp h1, fun hm => ?_⟩
    have := h3.2 hm.1
    rw [hm.2] at this
    cases this
  · intro h
    refine ⟨fun p hp => hd _ (h p hp).1, fun p hp => ⟨(reads_iff _).mpr (h p hp).1, p.base, normalizes_readTy _, rfl, fun hl => ?_⟩⟩
    cases hc : p.isConst with
    | true => rfl
    | false => exact absurd ⟨hl, hc⟩ (h p hp).2

theorem receives_iff (f : FnTy) :
    Receives f ↔ ∀ p ∈ f.params, Decodable p.base ∧ HasDefault p.base ∧ ¬ QTy.MutableRef p := by
  simp only [Receives, defaultConstructs_plain, invokes_iff]
  constructor
  · intro ⟨h1, h2⟩ p hp
    exact ⟨(h2 p hp).1, (h1 p hp).2, (h2 p hp).2⟩
  · intro h
    exact ⟨fun p hp => ⟨(h p hp).1.encodable, (h p hp).2.1⟩, fun p hp => ⟨(h p hp).1, (h p hp).2.2⟩⟩

theorem sends_iff (r : QTy) : Sends r ↔ Encodable r.base := by
  have := constructs_plain [r]
  simpa [Sends] using this

/-! ## C84 -/

/-- C84. A tuple can be built from values if and only if its elements are made of arithmetic types, extended classes and arrays of other types than extended classes; its elements can be read, and it can be invoked, if and only if
moreover no element has arrays of arrays `T[N]` in it; it can be default-constructed if and only if the extended classes can. -/
theorem C84_tuples (ts : List VTy) :
    (Constructs (ts.map fun t => { base := t }) ↔ ∀ t ∈ ts, Encodable t) ∧
    ((∀ t ∈ ts, Gets { base := t }) ↔ ∀ t ∈ ts, Decodable t) ∧
    (Invokes (ts.map fun t => { base := t }) ↔ ∀ t ∈ ts, Decodable t) ∧
    (DefaultConstructs (ts.map fun t => { base := t }) ↔ ∀ t ∈ ts, Encodable t ∧ HasDefault t) := by
  have e : (ts.map fun t => ({ base := t } : QTy)) = (ts.map fun t => ({ base := t } : QTy)).map QTy.plain := by
    simp [QTy.plain]
  have hd : ∀ t : VTy, Decodable t → t.Declared := by intro t h; cases h <;> trivial
  refine ⟨?_, ?_, ?_, ?_⟩
  · rw [e, constructs_plain]; simp
  · refine forall_congr' fun t => forall_congr' fun _ => ?_
    simp only [Gets, reads_iff, TupleOk, List.mem_singleton, forall_eq, true_and]
    exact ⟨fun h => h.2, fun h => ⟨hd t h, h⟩⟩
  · rw [invokes_iff]; simp [QTy.MutableRef]
  · rw [e, defaultConstructs_plain]; simp

/-- C84. The functions which a dispatcher can serve. Whatever the features, the parameters are of types which can be read and default-constructed, taken by value or by any reference but `T &`, and the result is of a
type which can be written; with `ANY`, it is neither a reference nor const. -/
theorem C84_served (feat : Features) (f : FnTy) :
    ServedBy feat f ↔
      (∀ p ∈ f.params, Decodable p.base ∧ HasDefault p.base ∧ ¬ QTy.MutableRef p) ∧
      ∀ r, f.ret = some r → Encodable r.base ∧ (feat = .any → r.isConst = false ∧ r.ref = .unqualified) := by
  cases feat with
  | weakReference => simp [ServedBy, NoStorageOk, receives_iff, sends_iff]
  | any =>
    simp only [ServedBy, ActionOk, receives_iff, sends_iff]
    refine and_congr_right fun _ => forall_congr' fun r => forall_congr' fun _ => ?_
    simp only [TupleOk, List.mem_singleton, forall_eq, forall_const]
    exact ⟨fun ⟨⟨h1, h2, _⟩, h3⟩ => ⟨h3, h1, h2⟩, fun ⟨h3, h1, h2⟩ => ⟨⟨h1, h2, ((writes_iff _).mpr h3).1⟩, h3⟩⟩

/-- C84. What keys accept: the arguments are of types which can be written; a parameter by value or by const reference takes any argument, a parameter which is a reference to a non-const object, be it `T &` or
`T &&`, takes non-const lvalues only; a function whose result is a reference to an array `T[N]` has no key. The result can be read if its type can be read and default-constructed. -/
theorem C84_keys (f : FnTy) :
    (∀ args, KeyCalls f args ↔
      (∀ r, f.ret = some r → ∀ u n, r.base ≠ .carr u n) ∧ (∀ p ∈ f.params, Encodable p.base) ∧ args.length = f.params.length ∧
      ∀ i (hp : i < f.params.length) (ha : i < args.length),
        f.params[i].ref ≠ .unqualified → f.params[i].isConst = false → args[i].cat = .lvalue ∧ args[i].isConst = false) ∧
    (KeyReads f ↔ ∀ r, f.ret = some r → Decodable r.base ∧ HasDefault r.base ∧ ∀ u n, r.base ≠ .carr u n) := by
  have hd : ∀ t : VTy, Decodable t → t.Declared := by intro t h; cases h <;> trivial
  have hb : ∀ (p : QTy) (a : ArgExpr), p.KeyBinds a ↔
      (p.ref ≠ .unqualified → p.isConst = false → a.cat = .lvalue ∧ a.isConst = false) := by
    intro p a
    obtain ⟨b, c, r⟩ := p
    cases r <;> cases c <;> simp [QTy.KeyBinds]
  constructor
  · intro args
    simp only [KeyCalls, KeyOk, isCArr_iff, constructs_plain]
    refine and_congr_right fun _ => and_congr_right fun _ => ?_
    have key : ∀ (ps : List QTy) (as : List ArgExpr), KeyBindsAll ps as ↔ as.length = ps.length ∧
        ∀ i (hp : i < ps.length) (ha : i < as.length),
          ps[i].ref ≠ .unqualified → ps[i].isConst = false → as[i].cat = .lvalue ∧ as[i].isConst = false := by
      intro ps
      induction ps with
      | nil =>
        intro as
        cases as with
        | nil => simp [KeyBindsAll]
        | cons a as => simp [KeyBindsAll]
      | cons p ps ih =>
        intro as
        cases as with
        | nil => simp [KeyBindsAll]
        | cons a as =>
          rw [KeyBindsAll, hb, ih]
          constructor
          · rintro ⟨h1, h2, h3⟩
            refine ⟨by simp [h2], fun i hp ha => ?_⟩
            cases i with
            | zero => exact h1
            | succ i => exact h3 i (by simpa using hp) (by simpa using ha)
          · rintro ⟨h2, h3⟩
            exact ⟨h3 0 (by simp) (by simp), by simpa using h2, fun i hp ha => h3 (i + 1) (by simpa using hp) (by simpa using ha)⟩
    exact key _ _
  · simp only [KeyReads, KeyOk, isCArr_iff]
    constructor
    · intro ⟨h1, h2⟩ r hr
      obtain ⟨h3, h4⟩ := h2 r hr
      have := (defaultConstructs_plain [r]).mp (by simpa using h3)
      exact ⟨(reads_iff _).mp h4.2, (this r (by simp)).2, h1 r hr⟩
    · intro h
      refine ⟨fun r hr => (h r hr).2.2, fun r hr => ?_⟩
      obtain ⟨h1, h2, _⟩ := h r hr
      refine ⟨by simpa using (defaultConstructs_plain [r]).mpr (by simpa using ⟨h1.encodable, h2⟩), ?_, (reads_iff _).mpr h1⟩
      simp only [TupleOk, List.mem_singleton, forall_eq, QTy.plain, true_and]
      exact hd _ h1

/-- C84, full statement: a function whose parameters and result are of the types which the library announces as serializable, taken and returned by value or by reference, can be served by any dispatcher and called through its key
with arguments of the types of its parameters. -/
def C84_Statement : Prop :=
  ∀ f : FnTy, f.WF → (∀ p ∈ f.params, Announced p.base) → (∀ r, f.ret = some r → Announced r.base) →
    (∀ feat, ServedBy feat f) ∧ (∀ args : List ArgExpr, args.length = f.params.length → KeyCalls f args) ∧ KeyReads f

/-- C84 is false: `const int &f()` cannot be served by a dispatcher which stores its actions. -/
theorem C84_full_statement_is_false : ¬ C84_Statement := by
  intro h
  have := (h ⟨some { base := .arith 0, isConst := true, ref := .lvalue }, []⟩ (by simp [FnTy.WF, VTy.IsCArr]) (by simp)
    (by simp [Announced.arith])).1 .any
  have := ((C84_served _ _).mp this).2 _ rfl
  simp at this

/-- C84, what holds: the parameters are taken by value or by const reference, the result is returned by value, their classes have default constructors, and they have no arrays of arrays `T[N]`. Missing: everything else, see
`C84_served` and `C84_keys`, which are exact. -/
theorem C84_by_value_partial (f : FnTy) (hp : ∀ p ∈ f.params, Decodable p.base ∧ HasDefault p.base ∧ (p.ref = .unqualified ∨ p.isConst = true))
    (hr : ∀ r, f.ret = some r → Decodable r.base ∧ HasDefault r.base ∧ r.isConst = false ∧ r.ref = .unqualified) (hw : f.WF) :
    (∀ feat, ServedBy feat f) ∧ (∀ args : List ArgExpr, args.length = f.params.length → KeyCalls f args) ∧ KeyReads f := by
  have hnc : ∀ r, f.ret = some r → ∀ u n, r.base ≠ .carr u n := by
    intro r h u n e
    exact hw.2 r h (by rw [e]; trivial) (hr r h).2.2.2
  refine ⟨fun feat => (C84_served feat f).mpr ⟨fun p h => ⟨(hp p h).1, (hp p h).2.1, fun hm => ?_⟩,
      fun r h => ⟨(hr r h).1.encodable, fun _ => (hr r h).2.2⟩⟩,
    fun args hl => ((C84_keys f).1 args).mpr ⟨hnc, fun p h => (hp p h).1.encodable, hl, fun i h1 h2 h3 h4 => ?_⟩,
    (C84_keys f).2.mpr fun r h => ⟨(hr r h).1, (hr r h).2.1, hnc r h⟩⟩
  · rcases (hp p h).2.2 with h' | h'
    · rw [hm.1] at h'; cases h'
    · rw [hm.2] at h'; cases h'
  · rcases (hp _ (List.getElem_mem h1)).2.2 with h' | h'
    · exact absurd h' h3
    · rw [h4] at h'; cases h'

/-- C84. A function with a parameter `T &` has a key which can be called, but no dispatcher can serve it; one with a parameter `T &&` can be served, but its key refuses rvalues; one which takes an array of arrays
`T[N]` has a key which can be called, but no dispatcher can serve it; one which returns a reference can only be served by a dispatcher which does not store its actions, except that it has no key if it is a reference to an array. -/
theorem C84_refused (t : VTy) (h : Decodable t) (hd : HasDefault t) :
    (KeyCalls ⟨none, [{ base := t, ref := .lvalue }]⟩ [⟨false, .lvalue⟩] ∧
      ∀ feat, ¬ ServedBy feat ⟨none, [{ base := t, ref := .lvalue }]⟩) ∧
    ((∀ feat, ServedBy feat ⟨none, [{ base := t, ref := .rvalue }]⟩) ∧
      ∀ c, ¬ KeyCalls ⟨none, [{ base := t, ref := .rvalue }]⟩ [⟨c, .rvalue⟩]) ∧
    (NotUser t → ∀ m n a, KeyCalls ⟨none, [{ base := .carr (.carr t m) n, isConst := true, ref := .lvalue }]⟩ [a] ∧
      ∀ feat, ¬ ServedBy feat ⟨none, [{ base := .carr (.carr t m) n, isConst := true, ref := .lvalue }]⟩) ∧
    (∀ c, ServedBy .weakReference ⟨some { base := t, isConst := c, ref := .lvalue }, []⟩ ∧
      ¬ ServedBy .any ⟨some { base := t, isConst := c, ref := .lvalue }, []⟩ ∧
      (KeyCalls ⟨some { base := t, isConst := c, ref := .lvalue }, []⟩ [] ↔ ∀ u n, t ≠ .carr u n)) := by
  simp only [C84_served, (C84_keys _).1]
  refine ⟨⟨⟨by simp, by simpa using h.encodable, rfl, fun i h1 h2 _ _ => ?_⟩, ?_⟩, ⟨fun feat => ⟨?_, by simp⟩, fun c hk => ?_⟩, fun hu m n a => ⟨⟨by simp, ?_, rfl, fun i h1 h2 _ h4 => ?_⟩, fun feat hs => ?_⟩,
    fun c => ⟨⟨by simp, by simpa using h.encodable⟩, fun hs => ?_, ?_⟩⟩
  · have : i = 0 := by simp at h1; omega
    subst this
    exact ⟨rfl, rfl⟩
  · intro feat hs
    exact (hs.1 _ (List.mem_singleton.mpr rfl)).2.2 ⟨rfl, rfl⟩
  · intro p hp
    simp at hp
    subst hp
    exact ⟨h, hd, fun hm => by cases hm.1⟩
  · have := hk.2.2.2 0 (by simp) (by simp) (by simp) rfl
    simp at this
  · simpa using Encodable.carr n (Encodable.carr m h.encodable hu) (by simp [NotUser])
  · have : i = 0 := by simp at h1; omega
    subst this
    cases h4
  · have := (hs.1 _ (List.mem_singleton.mpr rfl)).1
    cases this with
    | carr _ _ _ hn => exact hn _ _ rfl
  · have := (hs.2 _ rfl).2 trivial
    simp at this
  · simp

/-- C84. The requirement that elements are serializable accepts every array, whatever its elements: an array of extended classes, or of a type which is not serializable at all, is accepted by the class `tuple`, but
nothing can be stored in it nor read from it. -/
theorem C84_arrays_not_checked (t : VTy) (n : Nat) (h : ¬ Encodable t ∨ ∃ i d fs, t = .user i d fs) :
    TupleOk [{ base := .carr t n }] ∧ TupleOk [{ base := .sarr t n }] ∧
    ¬ Constructs [{ base := .carr t n }] ∧ ¬ Constructs [{ base := .sarr t n }] ∧
    ¬ Gets { base := .carr t n } ∧ ¬ Gets { base := .sarr t n } := by
  have hc : ∀ u, Encodable u → (u = .carr t n ∨ u = .sarr t n) → False := by
    intro u hu e
    have : Encodable t ∧ NotUser t := by
      rcases e with rfl | rfl <;> cases hu <;> exact ⟨by assumption, by assumption⟩
    rcases h with h | ⟨i, d, fs, h⟩
    · exact h this.1
    · exact this.2 _ _ _ h
  have h1 := C84_tuples [.carr t n]
  have h2 := C84_tuples [.sarr t n]
  refine ⟨by simp [TupleOk, VTy.Declared], by simp [TupleOk, VTy.Declared], ?_, ?_, ?_, ?_⟩
  · exact fun hx => hc _ (h1.1.mp hx _ (List.mem_singleton.mpr rfl)) (Or.inl rfl)
  · exact fun hx => hc _ (h2.1.mp hx _ (List.mem_singleton.mpr rfl)) (Or.inr rfl)
  · exact fun hx => hc _ ((reads_iff _).mp hx.2).encodable (Or.inl rfl)
  · exact fun hx => hc _ ((reads_iff _).mp hx.2).encodable (Or.inr rfl)

/-! ### Examples -/

/-- `const char *[2]`. -/
example : TupleOk [{ base := .carr (.other 0) 2 }] ∧ ¬ Constructs [{ base := .carr (.other 0) 2 }] :=
  have h := C84_arrays_not_checked (.other 0) 2 (Or.inl (fun h => by cases h))
  ⟨h.1, h.2.2.1⟩

/-- `void f(uint16_t &&)` and the like. -/
example := C84_refused (.arith 1) (.arith 1) (.arith 1)


/-- `uint16_t f(const uint8_t (&)[4], point, std::array<uint8_t, 2>)`. -/
example : (∀ feat, ServedBy feat ⟨some { base := .arith 1 }, [{ base := .carr (.arith 0) 4, isConst := true, ref := .lvalue },
      { base := .user 0 true [.arith 1, .sarr (.arith 0) 2] }, { base := .sarr (.arith 0) 2 }]⟩) ∧
    (∀ args : List ArgExpr, args.length = 3 → KeyCalls ⟨some { base := .arith 1 }, [{ base := .carr (.arith 0) 4, isConst := true, ref := .lvalue },
      { base := .user 0 true [.arith 1, .sarr (.arith 0) 2] }, { base := .sarr (.arith 0) 2 }]⟩ args) ∧
    KeyReads ⟨some { base := .arith 1 }, [{ base := .carr (.arith 0) 4, isConst := true, ref := .lvalue },
      { base := .user 0 true [.arith 1, .sarr (.arith 0) 2] }, { base := .sarr (.arith 0) 2 }]⟩ := by
  have hs : Decodable (.sarr (.arith 0) 2) := .sarr 2 (.arith 0) (by simp [NotUser]) (by simp)
  refine C84_by_value_partial _ ?_ ?_ ?_
  · intro p hp
    simp only [List.mem_cons, List.not_mem_nil, or_false] at hp
    rcases hp with rfl | rfl | rfl
    · exact ⟨.carr 4 (.arith 0) (by simp [NotUser]) (by simp), .carr 4 (.arith 0), Or.inr rfl⟩
    · refine ⟨.user 0 true fun f hf => ?_, .user 0 _, Or.inl rfl⟩
      simp only [List.mem_cons, List.not_mem_nil, or_false] at hf
      rcases hf with rfl | rfl
      · exact .arith 1
      · exact hs
    · exact ⟨hs, .sarr 2 (.arith 0), Or.inl rfl⟩
  · intro r hr
    injection hr with hr
    subst hr
    exact ⟨.arith 1, .arith 1, rfl, rfl⟩
  · simp [FnTy.WF, VTy.IsCArr]

/-- A tuple of a matrix `uint8_t[2][3]` can be built but not read; one of `std::array<std::array<uint8_t, 3>, 2>` can be read. -/
example : Constructs [{ base := .carr (.carr (.arith 0) 3) 2 }] ∧ ¬ Gets { base := .carr (.carr (.arith 0) 3) 2 } ∧
    Gets { base := .sarr (.sarr (.arith 0) 3) 2 } := by
  have h := C84_tuples [.carr (.carr (.arith 0) 3) 2]
  have h' := C84_tuples [.sarr (.sarr (.arith 0) 3) 2]
  refine ⟨h.1.mpr ?_, fun hg => ?_, h'.2.1.mpr ?_ _ (List.mem_singleton.mpr rfl)⟩
  · intro t ht
    rw [List.mem_singleton.mp ht]
    exact .carr 2 (.carr 3 (.arith 0) (by simp [NotUser])) (by simp [NotUser])
  · have := h.2.1.mp (fun t ht => by rw [List.mem_singleton.mp ht]; exact hg) _ (List.mem_singleton.mpr rfl)
    cases this with
    | carr _ _ _ hn => exact hn _ _ rfl
  · intro t ht
    rw [List.mem_singleton.mp ht]
    exact .sarr 2 (.sarr 3 (.arith 0) (by simp [NotUser]) (by simp)) (by simp [NotUser]) (by simp)

/-- `void f(uint8_t &)`: a dispatcher does not serve it; keys call it with a modifiable variable only. -/
example : (∀ feat, ¬ ServedBy feat ⟨none, [{ base := .arith 0, ref := .lvalue }]⟩) ∧
    ∀ args, KeyCalls ⟨none, [{ base := .arith 0, ref := .lvalue }]⟩ args → ∃ a, args = [a] ∧ a.cat = .lvalue ∧ a.isConst = false := by
  refine ⟨fun feat h => ((C84_served feat _).1 h).1 _ (List.mem_singleton.2 rfl) |>.2.2 ?_, fun args h => ?_⟩
  · simp [QTy.MutableRef]
  · have h' := ((C84_keys ⟨none, [{ base := .arith 0, ref := .lvalue }]⟩).1 args).1 h
    match args, h'.2.2 with
    | [a], ⟨_, h2⟩ => exact ⟨a, rfl, h2 0 (by simp) (by simp) (by simp) rfl⟩

end Upd
