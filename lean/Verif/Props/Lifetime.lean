import Verif.Lemmas.Lifetime
import Verif.Props.Demo

/-!
# Dynamic memory and lifetimes of the actions (C102)
-/

namespace Upd
open Spec

variable {σ : Type} {P : Platform}

/-- The callback object which the action `i` of the object `o` holds, if any. -/
def heldBy (st : LifeState σ) (o i : Nat) : Option (Stored σ) :=
  match st.1.1[o]? with
  | some (some (.any ps)) =>
    match ps[i]? with
    | some (some p) => st.1.2.cells[p]?.join
    | _ => none
  | some (some (.weak cs)) => cs[i]?
  | _ => none

/-- Same thing, on values. -/
def heldVal (vt : ValState σ) (o i : Nat) : Option (Stored σ) :=
  match vt.1.1[o]? with
  | some (some (.any vs)) => vs[i]?.join
  | some (some (.weak cs)) => cs[i]?
  | _ => none

theorem held_links {st : LifeState σ} {vt : ValState σ} (h : Links st.1 vt.1) (o i : Nat) : heldBy st o i = heldVal vt o i := by
  obtain ⟨D, h1, h2, h3, h4⟩ := h
  unfold heldBy heldVal
  rw [h1, h2]
  rcases hD : D[o]? with _ | _ | ds | cs <;> simp only [ptrs_get hD, vals_get hD, Option.map_none, Option.map_some, DObj.ptrs, DObj.vals, List.getElem?_map]
  rcases hi : ds[i]? with _ | _ | x
  · rfl
  · rfl
  · simp only [Option.map_some, Option.join_some]
    rw [h4.live x (mem_owned hD hi)]
    rfl

theorem count_owned (D : List (Option (DObj σ))) : ((D.map (·.map DObj.vals)).map Vals.count).sum = (owned D).length := by
  induction D with
  | nil => rfl
  | cons x D ih =>
    simp only [List.map_cons, List.sum_cons, owned, List.flatMap_cons, List.length_append] at ih ⊢
    rw [ih]
    congr 1
    match x with
    | none => rfl
    | some (.weak cs) => rfl
    | some (.any ds) =>
      simp only [Option.map_some, DObj.vals, Vals.count, DObj.owned]
      induction ds with
      | nil => rfl
      | cons d ds ih2 => cases d <;> simp_all

theorem stepVals_threw {op : ActOp σ} {vt vt' : ValState σ} (h : stepVals P op vt = .threw vt') : vt'.1.1 = vt.1.1 := by
  have hw : ∀ {r objs'}, within vt.1.1 r objs' = .threw vt' → vt'.1.1 = vt.1.1 := by
    intro r objs' h
    unfold within at h
    split at h <;> cases h
    rfl
  have hi : ∀ {r}, invoked vt r = .threw vt' → vt'.1.1 = vt.1.1 := by
    intro r h
    unfold invoked at h
    split at h <;> cases h
    rfl
  unfold stepVals at h
  split at h
  · exact hw h
  all_goals (repeat' split at h) <;> first | cases h; rfl | exact hi h | cases h

/-- The states of a program at its beginning: no object; any outcome of the allocations to come. -/
theorem start_holds (m : List Bool) : HoldsAll (⟨[], m⟩ : Heap σ) (owned []) := ⟨by simp [owned], by simp [owned], rfl⟩

/-- C102. Programs make, move, replace, call and destroy actions and dispatchers, and catch the exceptions, among which those of the allocations. A program does what it would do if actions were
values: no object is used after its deletion, nor deleted twice; each callback object is constructed once, and destroyed when it is replaced, or when its action is destroyed. -/
theorem C102_values (P : Platform) (prog : List (ActOp σ)) (m : List Bool) (w : σ) :
    SameOutcome (ActOp.runAll P prog (([], ⟨[], m⟩), w)) (runVals P prog (([], m), w)) := by
  have h := runAll_linked P prog (start_holds m) w
  simp only [List.map_nil] at h
  cases ha : ActOp.runAll P prog (([], ⟨[], m⟩), w) <;> cases hb : runVals P prog (([], m), w) <;> rw [ha, hb] at h <;>
    first | exact h.elim | exact ⟨h.1, h.2.1⟩ | exact h.1 | exact h

/-- C102, the heap. At any time, there are as many objects on the heap as actions which hold a callback. -/
theorem C102_live {prog : List (ActOp σ)} {m : List Bool} {w w' : σ} {os : List Bool} {objs : List (Option (Actions σ))} {h : Heap σ}
    (hr : ActOp.runAll P prog (([], ⟨[], m⟩), w) = .ret os ((objs, h), w')) :
    ∃ vobjs m', runVals P prog (([], m), w) = .ret os ((vobjs, m'), w') ∧ h.cells.countP (·.isSome) = (vobjs.map Vals.count).sum := by
  have hl := runAll_linked P prog (start_holds m) w
  simp only [List.map_nil] at hl
  rw [hr] at hl
  cases hb : runVals P prog (([], m), w) with
  | ret os' vt =>
    rw [hb] at hl
    obtain ⟨h1, h2, D, h3, h4, h5, h6⟩ := hl
    refine ⟨vt.1.1, vt.1.2, ?_, ?_⟩
    · rw [h1, show w' = vt.2 from h2]
    · rw [h4, count_owned]
      exact h6.all
  | threw vt => rw [hb] at hl; exact hl.elim
  | fault f => rw [hb] at hl; exact hl.elim

/-- C102, no leak. Once all the objects of the program are destroyed, or hold nothing, all the objects which have been made on the heap have been deleted. -/
theorem C102_no_leak {prog : List (ActOp σ)} {m : List Bool} {w w' : σ} {os : List Bool} {objs : List (Option (Actions σ))} {h : Heap σ}
    (hr : ActOp.runAll P prog (([], ⟨[], m⟩), w) = .ret os ((objs, h), w')) (he : ∀ ps, some (Actions.any ps) ∈ objs → ∀ p ∈ ps, p = none) :
    ∀ c ∈ h.cells, c = none := by
  have hl := runAll_linked P prog (start_holds m) w
  simp only [List.map_nil] at hl
  rw [hr] at hl
  cases hb : runVals P prog (([], m), w) with
  | ret os' vt =>
    rw [hb] at hl
    obtain ⟨h1, h2, D, h3, h4, h5, h6⟩ := hl
    have hz : owned D = [] := by
      refine List.eq_nil_iff_forall_not_mem.mpr fun x hx => ?_
      obtain ⟨y, hy, hx⟩ := List.mem_flatMap.mp hx
      match y, hy, hx with
      | some (.any ds), hy, hx =>
        have hy' : some (Actions.any (ds.map (·.map Prod.fst))) ∈ objs := by
          rw [show objs = _ from h3]
          exact List.mem_map.mpr ⟨_, hy, rfl⟩
        obtain ⟨d, hd, hdx⟩ := List.mem_filterMap.mp hx
        have := he _ hy' _ (List.mem_map.mpr ⟨d, hd, rfl⟩)
        simp only [id] at hdx
        subst hdx
        cases this
    have h7 := h6.all
    rw [hz] at h7
    intro c hc
    have := (List.countP_eq_zero.mp h7) c hc
    cases c with
    | none => rfl
    | some c => simp at this
  | threw vt => rw [hb] at hl; exact hl.elim
  | fault f => rw [hb] at hl; exact hl.elim

/-- C102, exceptions. If a step throws, for lack of memory or because a constructor, a callback or a byte stream throws, the actions hold the same callbacks as before, and nothing more is left on the heap. -/
theorem C102_exception {prog : List (ActOp σ)} {m : List Bool} {w : σ} {os : List Bool} {st st' : LifeState σ} {op : ActOp σ}
    (hr : ActOp.runAll P prog (([], ⟨[], m⟩), w) = .ret os st) (ho : op.run P st = .threw st') :
    (∀ o i, heldBy st' o i = heldBy st o i) ∧ st'.1.2.cells.countP (·.isSome) = st.1.2.cells.countP (·.isSome) := by
  have hl := runAll_linked P prog (start_holds m) w
  simp only [List.map_nil] at hl
  rw [hr] at hl
  cases hb : runVals P prog (([], m), w) with
  | ret os' vt =>
    rw [hb] at hl
    obtain ⟨h1, h2, D, h3, h4, h5, h6⟩ := hl
    have h7 := step_linked P op h6 st.2
    have e : ((D.map (·.map DObj.ptrs), st.1.2), st.2) = st := by rw [← h3]
    rw [e, ho] at h7
    cases hc : stepVals P op ((D.map (·.map DObj.vals), st.1.2.memory), st.2) with
    | ret r vt' => rw [hc] at h7; exact h7.elim
    | threw vt' =>
      rw [hc] at h7
      obtain ⟨h8, D', h9, h10, h11, h12⟩ := h7
      have h13 := stepVals_threw hc
      refine ⟨fun o i => ?_, ?_⟩
      · rw [held_links (vt := vt') ⟨D', h9, h10, h11, h12⟩ o i, held_links (vt := vt) ⟨D, h3, h4, h5, h6⟩ o i]
        unfold heldVal
        rw [h13, h4]
      · have h14 : (owned D').length = (owned D).length := by rw [← count_owned, ← count_owned, ← h10, h13]
        have h15 := h12.all
        have h16 := h6.all
        unfold Heap.live at h15 h16
        rw [h15, h16, h14]
    | fault f => rw [hc] at h7; exact h7.elim
  | threw vt => rw [hb] at hl; exact hl.elim
  | fault f => rw [hb] at hl; exact hl.elim

/-- Steps of a program which only uses `weak_reference`. -/
def Static : ActOp σ → Prop
  | .make f _ => f = .weakReference
  | .empty => False
  | _ => True

def NoAny (objs : List (Option (Actions σ))) : Prop := ∀ ps, some (Actions.any ps) ∉ objs

theorem NoAny.snoc {objs : List (Option (Actions σ))} (h : NoAny objs) (cs : List (Stored σ)) : NoAny (objs ++ [some (.weak cs)]) := by
  intro ps hm
  rcases List.mem_append.mp hm with hm | hm
  · exact h ps hm
  · simp at hm

theorem NoAny.set {objs : List (Option (Actions σ))} (h : NoAny objs) (o : Nat) {x : Option (Actions σ)} (hx : ∀ ps, x ≠ some (.any ps)) : NoAny (objs.set o x) := by
  intro ps hm
  rcases List.mem_or_eq_of_mem_set hm with hm | hm
  · exact h ps hm
  · exact hx ps hm.symm

/-- The outcome does not involve the heap. -/
def OffHeap {γ : Type} (r : Heap σ → Res (LifeState σ) γ) : Prop :=
  (∃ a objs w, NoAny objs ∧ ∀ h, r h = .ret a ((objs, h), w)) ∨ (∃ objs w, NoAny objs ∧ ∀ h, r h = .threw ((objs, h), w)) ∨ ∃ f, ∀ h, r h = .fault f

theorem step_static {op : ActOp σ} (ho : Static op) {objs : List (Option (Actions σ))} (hn : NoAny objs) (w : σ) : OffHeap fun h => op.run P ((objs, h), w) := by
  have hany : ∀ {o : Nat} {ps : List (Option Nat)}, objs[o]? ≠ some (some (Actions.any ps)) := fun h => hn _ (List.mem_of_getElem? h)
  cases op with
  | make f cs => cases ho; exact Or.inl ⟨_, _, _, hn.snoc cs, fun h => rfl⟩
  | empty => exact ho.elim
  | moveFrom o =>
    rcases hD : objs[o]? with _ | _ | ps | cs
    · exact Or.inr (Or.inr ⟨_, fun h => by simp only [ActOp.run, hD]; rfl⟩)
    · exact Or.inr (Or.inr ⟨_, fun h => by simp only [ActOp.run, hD]; rfl⟩)
    · exact (hany hD).elim
    · exact Or.inl ⟨_, _, _, hn.snoc cs, fun h => by simp only [ActOp.run, hD]; rfl⟩
  | moveAssign o o' =>
    rcases hD : objs[o]? with _ | _ | ps | cs
    · exact Or.inr (Or.inr ⟨_, fun h => by simp only [ActOp.run, hD]; rfl⟩)
    · exact Or.inr (Or.inr ⟨_, fun h => by simp only [ActOp.run, hD]; rfl⟩)
    · exact (hany hD).elim
    · rcases hD' : objs[o']? with _ | _ | ps | cs'
      · exact Or.inr (Or.inr ⟨_, fun h => by simp only [ActOp.run, hD, hD']; rfl⟩)
      · exact Or.inr (Or.inr ⟨_, fun h => by simp only [ActOp.run, hD, hD']; rfl⟩)
      · exact (hany hD').elim
      · by_cases hl : cs.length ≠ cs'.length
        · exact Or.inr (Or.inr ⟨_, fun h => by simp only [ActOp.run, hD, hD', if_pos hl]; rfl⟩)
        · exact Or.inl ⟨_, _, _, hn.set o (x := some (.weak cs')) (by simp), fun h => by simp only [ActOp.run, hD, hD', if_neg hl]; rfl⟩
  | replace o i c =>
    rcases hD : objs[o]? with _ | _ | ps | cs
    · exact Or.inr (Or.inr ⟨_, fun h => by simp only [ActOp.run, hD]; rfl⟩)
    · exact Or.inr (Or.inr ⟨_, fun h => by simp only [ActOp.run, hD]; rfl⟩)
    · exact (hany hD).elim
    · by_cases hi : i < cs.length
      · exact Or.inl ⟨_, _, _, hn.set o (x := some (.weak (cs.set i c))) (by simp), fun h => by simp only [ActOp.run, hD, if_pos hi]; rfl⟩
      · exact Or.inr (Or.inr ⟨_, fun h => by simp only [ActOp.run, hD, if_neg hi]; rfl⟩)
  | destroy o =>
    rcases hD : objs[o]? with _ | _ | ps | cs
    · exact Or.inr (Or.inr ⟨_, fun h => by simp only [ActOp.run, hD]; rfl⟩)
    · exact Or.inr (Or.inr ⟨_, fun h => by simp only [ActOp.run, hD]; rfl⟩)
    · exact (hany hD).elim
    · exact Or.inl ⟨_, _, _, hn.set o (x := none) (by simp), fun h => by simp only [ActOp.run, hD]; rfl⟩
  | call o i src dest =>
    rcases hD : objs[o]? with _ | _ | ps | cs
    · exact Or.inr (Or.inr ⟨_, fun h => by simp only [ActOp.run, hD]; rfl⟩)
    · exact Or.inr (Or.inr ⟨_, fun h => by simp only [ActOp.run, hD]; rfl⟩)
    · exact (hany hD).elim
    · cases hi : cs[i]? with
      | none => exact Or.inr (Or.inr ⟨_, fun h => by simp only [ActOp.run, hD, hi]; rfl⟩)
      | some c =>
        cases hc : (Action.weak c.e c.s c.cb).invoke P (Lens.whole σ) src dest w with
        | ret r w' => exact Or.inl ⟨_, _, _, hn, fun h => by simp only [ActOp.run, hD, hi, hc]; rfl⟩
        | threw w' => exact Or.inr (Or.inl ⟨_, _, hn, fun h => by simp only [ActOp.run, hD, hi, hc]; rfl⟩)
        | fault f => exact Or.inr (Or.inr ⟨_, fun h => by simp only [ActOp.run, hD, hi, hc]; rfl⟩)

theorem runAll_cons (op : ActOp σ) (ops : List (ActOp σ)) (st : LifeState σ) :
    ActOp.runAll P (op :: ops) st =
      match op.run P st with
      | .ret _ st => (ActOp.runAll P ops >>= fun l => pure (false :: l)) st
      | .threw st => (ActOp.runAll P ops >>= fun l => pure (true :: l)) st
      | .fault f => .fault f := rfl

theorem runAll_static : ∀ {prog : List (ActOp σ)} (_ : ∀ op ∈ prog, Static op) {objs : List (Option (Actions σ))} (_ : NoAny objs) (w : σ),
    (∃ os objs' w', ∀ h, ActOp.runAll P prog ((objs, h), w) = .ret os ((objs', h), w')) ∨ ∃ f, ∀ h, ActOp.runAll P prog ((objs, h), w) = .fault f
  | [], _, objs, hn, w => Or.inl ⟨_, _, _, fun h => rfl⟩
  | op :: ops, ho, objs, hn, w => by
    have next : ∀ (b : Bool) {objs' : List (Option (Actions σ))} (_ : NoAny objs') (w' : σ),
        (∀ h, ActOp.runAll P (op :: ops) ((objs, h), w) = (ActOp.runAll P ops >>= fun l => pure (b :: l)) ((objs', h), w')) →
        (∃ os objs' w', ∀ h, ActOp.runAll P (op :: ops) ((objs, h), w) = .ret os ((objs', h), w')) ∨ ∃ f, ∀ h, ActOp.runAll P (op :: ops) ((objs, h), w) = .fault f := by
      intro b objs' hn' w' he
      rcases runAll_static (fun op' h => ho op' (List.mem_cons_of_mem _ h)) hn' w' with ⟨a, objs2, w2, h2⟩ | ⟨f, h2⟩
      · refine Or.inl ⟨b :: a, objs2, w2, fun h => ?_⟩
        rw [he h]
        show Eff.bind _ _ _ = _
        unfold Eff.bind
        rw [h2 h]
        rfl
      · refine Or.inr ⟨f, fun h => ?_⟩
        rw [he h]
        show Eff.bind _ _ _ = _
        unfold Eff.bind
        rw [h2 h]
    rcases step_static (P := P) (ho op (List.mem_cons_self ..)) hn w with ⟨a, objs', w', h1, h2⟩ | ⟨objs', w', h1, h2⟩ | ⟨f, h2⟩
    · refine next false h1 w' fun h => ?_
      have h3 : op.run P ((objs, h), w) = _ := h2 h
      rw [runAll_cons, h3]
    · refine next true h1 w' fun h => ?_
      have h3 : op.run P ((objs, h), w) = _ := h2 h
      rw [runAll_cons, h3]
    · refine Or.inr ⟨f, fun h => ?_⟩
      have h3 : op.run P ((objs, h), w) = _ := h2 h
      rw [runAll_cons, h3]

/-- C102, `weak_reference`: the programs which only use this policy do not use the heap: it stays as it is, and their outcome does not depend on it, in particular if there is no memory at all. -/
theorem C102_static {prog : List (ActOp σ)} (hp : ∀ op ∈ prog, Static op) (w : σ) :
    (∃ os objs w', ∀ h, ActOp.runAll P prog (([], h), w) = .ret os ((objs, h), w')) ∨ ∃ f, ∀ h, ActOp.runAll P prog (([], h), w) = .fault f :=
  runAll_static hp (fun _ h => by cases h) w

/-! ## Example: callback objects which log their construction, their calls and their destruction -/

def tracked (k : Int) : Stored (List Int) :=
  ⟨.little, .twosComplement, ⟨⟨[], none⟩, fun _ w => .ret none (w ++ [100 + k])⟩, fun w => .ret () (w ++ [k]), fun w => w ++ [-k]⟩

/-- A dispatcher with two functions; the second one is replaced, in vain, then replaced; the dispatcher is moved, called, and destroyed. -/
def lifeProg : List (ActOp (List Int)) :=
  [.make .any [tracked 1, tracked 2], .replace 0 1 (tracked 3), .replace 0 1 (tracked 3), .moveFrom 0, .call 1 1 (fun w => .ret 0#8 w) (fun _ w => .ret () w),
    .call 0 1 (fun w => .ret 0#8 w) (fun _ w => .ret () w), .destroy 1, .destroy 0]

/-- The third allocation fails. -/
def lifeMemory : List Bool := [true, true, false]

/-- Which steps throw, the log, and the number of objects left on the heap. -/
def lifeTrace : Res (LifeState (List Int)) (List Bool) → Option (List Bool × List Int × Nat)
  | .ret os st => some (os, st.2, st.1.2.cells.countP (·.isSome))
  | _ => none

/-- 3 is constructed and 2 destroyed by the second replacement; 3 is called once, since the object 0 has been moved from; 3 and 1 are destroyed in reverse order. -/
example : lifeTrace (ActOp.runAll pc lifeProg (([], ⟨[], lifeMemory⟩), [])) = some ([false, true, false, false, false, false, false, false], [1, 2, 3, -2, 103, -3, -1], 0) := by
  decide +kernel

example (m : List Bool) (w : List Int) : SameOutcome (ActOp.runAll pc lifeProg (([], ⟨[], m⟩), w)) (runVals pc lifeProg (([], m), w)) := C102_values pc lifeProg m w

/-- The second allocation fails: the first object is destroyed. -/
example : ∃ h, ActOp.runAll pc [.make .any [tracked 1, tracked 2], .make .any [tracked 3], .destroy 0] (([], ⟨[], [true, false]⟩), []) =
    .ret [true, false, false] (([none], h), [1, -1, 3, -3]) ∧ ∀ c ∈ h.cells, c = none := by
  refine ⟨_, rfl, ?_⟩
  exact C102_no_leak (P := pc) (prog := [.make .any [tracked 1, tracked 2], .make .any [tracked 3], .destroy 0]) (m := [true, false]) (w := []) (objs := [none]) rfl (by simp)

/-- Two objects on the heap after the first step; then the failing step leaves the second function in place. -/
example : ∃ st st', ActOp.runAll pc [.make .any [tracked 1, tracked 2]] (([], ⟨[], lifeMemory⟩), []) = .ret [false] st ∧ st.1.2.cells.countP (·.isSome) = 2 ∧
    ActOp.run pc (.replace 0 1 (tracked 3)) st = .threw st' ∧ heldBy st' 0 1 = some (tracked 2) := by
  refine ⟨_, _, rfl, rfl, rfl, ?_⟩
  exact (C102_exception (P := pc) (prog := [.make .any [tracked 1, tracked 2]]) (m := lifeMemory) (w := []) (op := .replace 0 1 (tracked 3)) rfl rfl).1 0 1

example : ∃ vobjs m', runVals pc [.make .any [tracked 1, tracked 2], .empty] (([], []), []) = .ret [false, false] ((vobjs, m'), [1, 2]) ∧ (vobjs.map Vals.count).sum = 2 := by
  obtain ⟨v, m', h1, h2⟩ := C102_live (P := pc) (prog := [.make .any [tracked 1, tracked 2], .empty]) (m := []) (w := []) rfl
  exact ⟨v, m', h1, h2.symm⟩

/-- Without memory. -/
example : ∀ h : Heap (List Int), ∃ st, ActOp.runAll pc [.make .weakReference [tracked 1, tracked 2], .replace 0 0 (tracked 3), .moveFrom 0, .destroy 0, .destroy 1] (([], h), []) =
    .ret [false, false, false, false, false] st ∧ st.1.2 = h := by
  intro h
  rcases C102_static (P := pc) (prog := [.make .weakReference [tracked 1, tracked 2], .replace 0 0 (tracked 3), .moveFrom 0, .destroy 0, .destroy 1]) (by simp [Static]) [] with
    ⟨os, objs, w', hr⟩ | ⟨f, hr⟩
  · refine ⟨_, rfl, ?_⟩
    have := hr h
    injection this with _ h2
    exact congrArg (·.1.2) h2
  · cases hr h

end Upd
