import Verif.Spec.Lifetime
import Verif.Spec.History

/-!
# Pointers and values
-/

namespace Upd
open Spec

variable {σ : Type}

/-- Number of objects on the heap. -/
def Heap.live (h : Heap σ) : Nat := h.cells.countP (·.isSome)

/-- The objects on the heap are those of the list, each one once. -/
structure HoldsAll (h : Heap σ) (L : List (Nat × Stored σ)) : Prop where
  nodup : (L.map Prod.fst).Nodup
  live : ∀ x ∈ L, h.cells[x.1]? = some (some x.2)
  all : h.live = L.length

theorem HoldsAll.perm {h : Heap σ} {L L' : List (Nat × Stored σ)} (hh : HoldsAll h L) (hp : L.Perm L') : HoldsAll h L' :=
  ⟨(hp.map _).nodup_iff.mp hh.nodup, fun x hx => hh.live x (hp.mem_iff.mpr hx), hh.all.trans hp.length_eq⟩

theorem new_ok {h : Heap σ} {L : List (Nat × Stored σ)} (hh : HoldsAll h L) (c : Stored σ) (m : List Bool) :
    HoldsAll ⟨h.cells ++ [some c], m⟩ ((h.cells.length, c) :: L) := by
  have hlt : ∀ x ∈ L, x.1 < h.cells.length := fun x hx => (List.getElem?_eq_some_iff.mp (hh.live x hx)).1
  refine ⟨?_, ?_, ?_⟩
  · rw [List.map_cons, List.nodup_cons]
    refine ⟨?_, hh.nodup⟩
    intro hm
    obtain ⟨x, hx, he⟩ := List.mem_map.mp hm
    have := hlt x hx
    omega
  · intro x hx
    rcases List.mem_cons.mp hx with rfl | hx
    · simp
    · simp only
      rw [List.getElem?_append_left (hlt x hx)]
      exact hh.live x hx
  · have := hh.all
    simp only [Heap.live] at this
    simp [Heap.live, List.countP_append, this]

theorem HoldsAll.memory {h : Heap σ} {L : List (Nat × Stored σ)} (hh : HoldsAll h L) (m : List Bool) : HoldsAll ⟨h.cells, m⟩ L := ⟨hh.nodup, hh.live, hh.all⟩

theorem delete_ok {h : Heap σ} {L : List (Nat × Stored σ)} {p : Nat} {c : Stored σ} (hh : HoldsAll h ((p, c) :: L)) (w : σ) :
    ∃ h', Heap.delete p (h, w) = .ret () (h', c.fini w) ∧ h'.memory = h.memory ∧ HoldsAll h' L := by
  have hp : h.cells[p]? = some (some c) := hh.live (p, c) (List.mem_cons_self ..)
  refine ⟨⟨h.cells.set p none, h.memory⟩, ?_, rfl, ?_, ?_, ?_⟩
  · simp only [Heap.delete, hp]
  · have := hh.nodup
    rw [List.map_cons, List.nodup_cons] at this
    exact this.2
  · intro x hx
    have hne : p ≠ x.1 := by
      have := hh.nodup
      rw [List.map_cons, List.nodup_cons] at this
      intro he
      exact this.1 (List.mem_map.mpr ⟨x, hx, he.symm⟩)
    simp only
    rw [List.getElem?_set_ne hne]
    exact hh.live x (List.mem_cons_of_mem _ hx)
  · obtain ⟨hlt, hg⟩ := List.getElem?_eq_some_iff.mp hp
    have h1 := hh.all
    simp only [Heap.live, List.length_cons] at h1
    simp only [Heap.live]
    rw [List.countP_set hlt, hg]
    simp
    omega

/-- Heap operation against operation on values. -/
def Match {α β : Type} (R : α → Heap σ → β → Prop) (S : Heap σ → Prop) : Res (Heap σ × σ) α → Res (List Bool × σ) β → Prop
  | .ret a (h, w), .ret b (m, w') => h.memory = m ∧ w = w' ∧ R a h b
  | .threw (h, w), .threw (m, w') => h.memory = m ∧ w = w' ∧ S h
  | .fault f, .fault g => f = g
  | _, _ => False

theorem new_match {h : Heap σ} {L : List (Nat × Stored σ)} (hh : HoldsAll h L) (c : Stored σ) (w : σ) :
    Match (fun p h' (_ : Unit) => HoldsAll h' ((p, c) :: L)) (fun h' => HoldsAll h' L) (Heap.new c (h, w)) (construct c (h.memory, w)) := by
  unfold Heap.new construct
  simp only
  split
  · exact ⟨rfl, rfl, hh.memory _⟩
  · cases c.init w with
    | ret r w' => exact ⟨rfl, rfl, new_ok hh c _⟩
    | threw w' => exact ⟨rfl, rfl, hh.memory _⟩
    | fault f => exact rfl

theorem newAll_match : ∀ (cs : List (Stored σ)) {h : Heap σ} {L : List (Nat × Stored σ)} (_ : HoldsAll h L) (w : σ),
    Match (fun ps h' (_ : Unit) => ∃ ds : List (Nat × Stored σ), ps = ds.map (fun d => some d.1) ∧ ds.map Prod.snd = cs ∧ HoldsAll h' (ds ++ L)) (fun h' => HoldsAll h' L)
      (Heap.newAll cs (h, w)) (constructAll cs (h.memory, w))
  | [], h, L, hh, w => ⟨rfl, rfl, [], rfl, rfl, hh⟩
  | c :: cs, h, L, hh, w => by
    unfold Heap.newAll constructAll
    have h1 := new_match hh c w
    cases hn : Heap.new c (h, w) with
    | ret p st =>
      cases hc : construct c (h.memory, w) with
      | ret r st' =>
        rw [hn, hc] at h1
        obtain ⟨h2, h3, h4⟩ := h1
        obtain ⟨h', w'⟩ := st
        obtain ⟨m', w''⟩ := st'
        simp only at h2 h3 h4
        subst h2 h3
        have h5 := newAll_match cs h4 w'
        simp only
        cases ha : Heap.newAll cs (h', w') with
        | ret ps st =>
          cases hb : constructAll cs (h'.memory, w') with
          | ret r st' =>
            rw [ha, hb] at h5
            obtain ⟨h6, h7, ds, h8, h9, h10⟩ := h5
            refine ⟨h6, h7, (p, c) :: ds, by simp [h8], by simp [h9], ?_⟩
            exact h10.perm (by simp)
          | threw st' => rw [ha, hb] at h5; exact h5.elim
          | fault f => rw [ha, hb] at h5; exact h5.elim
        | threw st =>
          cases hb : constructAll cs (h'.memory, w') with
          | ret r st' => rw [ha, hb] at h5; exact h5.elim
          | threw st' =>
            rw [ha, hb] at h5
            obtain ⟨h2, w2⟩ := st
            obtain ⟨m2, w3⟩ := st'
            obtain ⟨h6, h7, h8⟩ := h5
            subst h6 h7
            obtain ⟨h3, h9, h10, h11⟩ := delete_ok h8 w2
            simp only [h9]
            exact ⟨h10, rfl, h11⟩
          | fault f => rw [ha, hb] at h5; exact h5.elim
        | fault f =>
          cases hb : constructAll cs (h'.memory, w') with
          | ret r st' => rw [ha, hb] at h5; exact h5.elim
          | threw st' => rw [ha, hb] at h5; exact h5.elim
          | fault g => rw [ha, hb] at h5; exact h5
      | threw st' => rw [hn, hc] at h1; exact h1.elim
      | fault f => rw [hn, hc] at h1; exact h1.elim
    | threw st =>
      cases hc : construct c (h.memory, w) with
      | ret r st' => rw [hn, hc] at h1; exact h1.elim
      | threw st' => rw [hn, hc] at h1; simp only [hn, hc]; exact h1
      | fault f => rw [hn, hc] at h1; exact h1.elim
    | fault f =>
      cases hc : construct c (h.memory, w) with
      | ret r st' => rw [hn, hc] at h1; exact h1.elim
      | threw st' => rw [hn, hc] at h1; exact h1.elim
      | fault g => rw [hn, hc] at h1; simp only [hn, hc]; exact h1

/-- Slots: pointers with the objects that they point to. -/
abbrev Deco (σ : Type) := List (Option (Nat × Stored σ))

theorem release_ok (d : Option (Nat × Stored σ)) {h : Heap σ} {L : List (Nat × Stored σ)} (hh : HoldsAll h (d.toList ++ L)) (w : σ) :
    ∃ h', Heap.release (d.map Prod.fst) (h, w) = .ret () (h', destroyed [d.map Prod.snd] w) ∧ h'.memory = h.memory ∧ HoldsAll h' L := by
  cases d with
  | none => exact ⟨h, rfl, rfl, hh⟩
  | some d => exact delete_ok (p := d.1) (c := d.2) (by simpa using hh) w

theorem destroyed_append (l l' : List (Option (Stored σ))) (w : σ) : destroyed (l ++ l') w = destroyed l' (destroyed l w) := by
  simp [destroyed, List.foldl_append]

theorem filterMap_cons_id {α : Type} (d : Option α) (ds : List (Option α)) : (d :: ds).filterMap id = d.toList ++ ds.filterMap id := by
  cases d <;> simp

theorem deleteAll_ok : ∀ (ds : Deco σ) {h : Heap σ} {L : List (Nat × Stored σ)} (_ : HoldsAll h (ds.filterMap id ++ L)) (w : σ),
    ∃ h', Heap.deleteAll (ds.map (·.map Prod.fst)) (h, w) = .ret () (h', destroyed (ds.map (·.map Prod.snd)).reverse w) ∧ h'.memory = h.memory ∧ HoldsAll h' L
  | [], h, L, hh, w => ⟨h, rfl, rfl, by simpa using hh⟩
  | d :: ds, h, L, hh, w => by
    rw [filterMap_cons_id] at hh
    obtain ⟨h1, h2, h3, h4⟩ := deleteAll_ok ds (L := d.toList ++ L) (hh.perm (by
      rw [List.append_assoc]
      exact (List.perm_append_comm_assoc ..))) w
    obtain ⟨h5, h6, h7, h8⟩ := release_ok d h4 (destroyed (ds.map (·.map Prod.snd)).reverse w)
    refine ⟨h5, ?_, h7.trans h3, h8⟩
    rw [List.map_cons, Heap.deleteAll]
    show Eff.bind _ _ _ = _
    unfold Eff.bind
    rw [h2]
    simp only [h6]
    rw [List.map_cons, List.reverse_cons, destroyed_append]

theorem assignAll_ok : ∀ (ds : Deco σ) {h : Heap σ} {L : List (Nat × Stored σ)} (_ : HoldsAll h (ds.filterMap id ++ L)) (w : σ),
    ∃ h', Heap.assignAll (ds.map (·.map Prod.fst)) (h, w) = .ret () (h', destroyed (ds.map (·.map Prod.snd)) w) ∧ h'.memory = h.memory ∧ HoldsAll h' L
  | [], h, L, hh, w => ⟨h, rfl, rfl, by simpa using hh⟩
  | d :: ds, h, L, hh, w => by
    rw [filterMap_cons_id, List.append_assoc] at hh
    obtain ⟨h1, h2, h3, h4⟩ := release_ok d hh w
    obtain ⟨h5, h6, h7, h8⟩ := assignAll_ok ds h4 (destroyed [d.map Prod.snd] w)
    refine ⟨h5, ?_, h7.trans h3, h8⟩
    rw [List.map_cons, Heap.assignAll]
    show Eff.bind _ _ _ = _
    unfold Eff.bind
    rw [h2]
    simp only [h6]
    rfl

/-- Objects of a program, with what their pointers point to. -/
inductive DObj (σ : Type) where
  | any (ds : Deco σ)
  | weak (cs : List (Stored σ))

def DObj.ptrs : DObj σ → Actions σ
  | .any ds => .any (ds.map (·.map Prod.fst))
  | .weak cs => .weak cs

def DObj.vals : DObj σ → Vals σ
  | .any ds => .any (ds.map (·.map Prod.snd))
  | .weak cs => .weak cs

def DObj.owned : Option (DObj σ) → List (Nat × Stored σ)
  | some (.any ds) => ds.filterMap id
  | _ => []

/-- What the objects of a program own. -/
def owned (D : List (Option (DObj σ))) : List (Nat × Stored σ) := D.flatMap DObj.owned

theorem owned_set : ∀ {D : List (Option (DObj σ))} {o : Nat} {x : Option (DObj σ)} (_ : D[o]? = some x) (y : Option (DObj σ)),
    (DObj.owned x ++ owned (D.set o y)).Perm (DObj.owned y ++ owned D)
  | [], o, x, h, y => by simp at h
  | z :: D, 0, x, h, y => by
    simp only [List.getElem?_cons_zero, Option.some.injEq] at h
    subst h
    simp only [List.set_cons_zero, owned, List.flatMap_cons]
    exact List.perm_append_comm_assoc ..
  | z :: D, o + 1, x, h, y => by
    simp only [List.getElem?_cons_succ] at h
    have := owned_set h y
    simp only [List.set_cons_succ, owned, List.flatMap_cons] at this ⊢
    refine (List.perm_append_comm_assoc ..).trans (List.Perm.trans ?_ (List.perm_append_comm_assoc ..))
    exact this.append_left _

theorem slots_set {α : Type} : ∀ {ds : List (Option α)} {i : Nat} {x : Option α} (_ : ds[i]? = some x) (y : Option α),
    (x.toList ++ (ds.set i y).filterMap id).Perm (y.toList ++ ds.filterMap id)
  | [], i, x, h, y => by simp at h
  | z :: ds, 0, x, h, y => by
    simp only [List.getElem?_cons_zero, Option.some.injEq] at h
    subst h
    simp only [List.set_cons_zero, filterMap_cons_id]
    exact List.perm_append_comm_assoc ..
  | z :: ds, i + 1, x, h, y => by
    simp only [List.getElem?_cons_succ] at h
    have := slots_set h y
    simp only [List.set_cons_succ, filterMap_cons_id] at this ⊢
    refine (List.perm_append_comm_assoc ..).trans (List.Perm.trans ?_ (List.perm_append_comm_assoc ..))
    exact this.append_left _

theorem owned_append (D D' : List (Option (DObj σ))) : owned (D ++ D') = owned D ++ owned D' := by simp [owned, List.flatMap_append]

theorem nones_owned (ds : Deco σ) : (ds.map fun _ => (none : Option (Nat × Stored σ))).filterMap id = [] := by
  induction ds with
  | nil => rfl
  | cons d ds ih => simpa using ih

/-- A state with pointers against a state with values. -/
def Links (st : List (Option (Actions σ)) × Heap σ) (vt : List (Option (Vals σ)) × List Bool) : Prop :=
  ∃ D : List (Option (DObj σ)), st.1 = D.map (·.map DObj.ptrs) ∧ vt.1 = D.map (·.map DObj.vals) ∧ st.2.memory = vt.2 ∧ HoldsAll st.2 (owned D)

/-- Outcomes. -/
def LinkedOutcome {γ : Type} : Res (LifeState σ) γ → Res (ValState σ) γ → Prop
  | .ret a st, .ret b vt => a = b ∧ st.2 = vt.2 ∧ Links st.1 vt.1
  | .threw st, .threw vt => st.2 = vt.2 ∧ Links st.1 vt.1
  | .fault f, .fault g => f = g
  | _, _ => False

theorem ptrs_get {D : List (Option (DObj σ))} {o : Nat} {x : Option (Option (DObj σ))} (h : D[o]? = x) : (D.map (·.map DObj.ptrs))[o]? = x.map (·.map DObj.ptrs) := by
  rw [List.getElem?_map, h]

theorem vals_get {D : List (Option (DObj σ))} {o : Nat} {x : Option (Option (DObj σ))} (h : D[o]? = x) : (D.map (·.map DObj.vals))[o]? = x.map (·.map DObj.vals) := by
  rw [List.getElem?_map, h]

theorem links_set {D : List (Option (DObj σ))} {h : Heap σ} {m : List Bool} (o : Nat) (y : Option (DObj σ)) (hm : h.memory = m) (hh : HoldsAll h (owned (D.set o y))) :
    Links ((D.map (·.map DObj.ptrs)).set o (y.map DObj.ptrs), h) ((D.map (·.map DObj.vals)).set o (y.map DObj.vals), m) :=
  ⟨D.set o y, by simp only [List.map_set], by simp only [List.map_set], hm, hh⟩

theorem links_snoc {D : List (Option (DObj σ))} {h : Heap σ} {m : List Bool} (y : DObj σ) (hm : h.memory = m) (hh : HoldsAll h (owned (D ++ [some y]))) :
    Links (D.map (·.map DObj.ptrs) ++ [some y.ptrs], h) (D.map (·.map DObj.vals) ++ [some y.vals], m) :=
  ⟨D ++ [some y], by simp, by simp, hm, hh⟩

theorem owned_snoc_nil {D : List (Option (DObj σ))} {y : DObj σ} (hy : DObj.owned (some y) = []) : owned (D ++ [some y]) = owned D := by
  rw [owned_append]
  simp [owned, hy]

theorem call_match (P : Platform) (d : Option (Nat × Stored σ)) {h : Heap σ} {L : List (Nat × Stored σ)} (hh : HoldsAll h L) (hd : ∀ x, d = some x → x ∈ L) (src : Eff σ Byte)
    (dest : Byte → Eff σ Unit) (w : σ) :
    Heap.call P (d.map Prod.fst) src dest (h, w) =
      match d with
      | none => .ret () (h, w)
      | some x =>
        match (Action.stored x.2.e x.2.s x.2.cb).invoke P (Lens.whole σ) src dest w with
        | .ret _ w => .ret () (h, w)
        | .threw w => .threw (h, w)
        | .fault f => .fault f := by
  cases d with
  | none => rfl
  | some x =>
    simp only [Heap.call, Option.map_some, hh.live x (hd x rfl)]
    cases (Action.stored x.2.e x.2.s x.2.cb).invoke P (Lens.whole σ) src dest w <;> rfl

theorem mem_owned {D : List (Option (DObj σ))} {o : Nat} {ds : Deco σ} (hD : D[o]? = some (some (.any ds))) {i : Nat} {x : Nat × Stored σ} (hx : ds[i]? = some (some x)) :
    x ∈ owned D := by
  refine List.mem_flatMap.mpr ⟨_, List.mem_of_getElem? hD, ?_⟩
  exact List.mem_filterMap.mpr ⟨some x, List.mem_of_getElem? hx, rfl⟩

theorem step_linked (P : Platform) (op : ActOp σ) {D : List (Option (DObj σ))} {h : Heap σ} (hh : HoldsAll h (owned D)) (w : σ) :
    LinkedOutcome (op.run P ((D.map (·.map DObj.ptrs), h), w)) (stepVals P op ((D.map (·.map DObj.vals), h.memory), w)) := by
  have hself : Links (D.map (·.map DObj.ptrs), h) (D.map (·.map DObj.vals), h.memory) := ⟨D, rfl, rfl, rfl, hh⟩
  cases op with
  | make f cs =>
    cases f with
    | weakReference =>
      refine ⟨rfl, rfl, links_snoc (.weak cs) rfl ?_⟩
      rw [owned_snoc_nil rfl]
      exact hh
    | any =>
      have h1 := newAll_match cs hh w
      unfold ActOp.run stepVals
      simp only
      show LinkedOutcome (Eff.bind _ _ _) _
      unfold Eff.bind Eff.zoom
      simp only [LifeState.heap]
      cases ha : Heap.newAll cs (h, w) with
      | ret ps st =>
        cases hb : constructAll cs (h.memory, w) with
        | ret r st' =>
          rw [ha, hb] at h1
          obtain ⟨h2, h3, ds, h4, h5, h6⟩ := h1
          refine ⟨rfl, h3, ?_⟩
          have h7 := links_snoc (D := D) (DObj.any (ds.map some)) h2 (by
            rw [owned_append]
            have e : owned [some (DObj.any (ds.map some))] = ds := by simp [owned, DObj.owned]
            rw [e]
            exact h6.perm List.perm_append_comm)
          have e1 : (DObj.any (ds.map some)).ptrs = .any ps := by simp [DObj.ptrs, h4]
          have e2 : (DObj.any (ds.map some)).vals = .any (cs.map some) := by simp [DObj.vals, ← h5]
          rw [e1, e2] at h7
          exact h7
        | threw st' => rw [ha, hb] at h1; exact h1.elim
        | fault f => rw [ha, hb] at h1; exact h1.elim
      | threw st =>
        cases hb : constructAll cs (h.memory, w) with
        | ret r st' => rw [ha, hb] at h1; exact h1.elim
        | threw st' =>
          rw [ha, hb] at h1
          obtain ⟨h2, h3, h4⟩ := h1
          exact ⟨h3, D, rfl, rfl, h2, h4⟩
        | fault f => rw [ha, hb] at h1; exact h1.elim
      | fault f =>
        cases hb : constructAll cs (h.memory, w) with
        | ret r st' => rw [ha, hb] at h1; exact h1.elim
        | threw st' => rw [ha, hb] at h1; exact h1.elim
        | fault g => rw [ha, hb] at h1; exact h1
  | empty =>
    refine ⟨rfl, rfl, links_snoc (.any [none]) rfl ?_⟩
    rw [owned_snoc_nil rfl]
    exact hh
  | moveFrom o =>
    unfold ActOp.run stepVals
    rcases hD : D[o]? with _ | _ | ds | cs <;> simp only [ptrs_get hD, vals_get hD, Option.map_none, Option.map_some, DObj.ptrs, DObj.vals]
    · exact rfl
    · exact rfl
    · refine ⟨rfl, rfl, D.set o (some (.any (ds.map fun _ => none))) ++ [some (.any ds)], ?_, ?_, rfl, ?_⟩
      · simp [List.map_set, DObj.ptrs, Function.comp_def]
      · simp [List.map_set, DObj.vals, Function.comp_def]
      · rw [owned_append]
        have h1 := owned_set hD (some (.any (ds.map fun _ => none)))
        have e : DObj.owned (some (DObj.any (ds.map fun _ => (none : Option (Nat × Stored σ))))) = [] := nones_owned ds
        rw [e] at h1
        refine hh.perm (h1.symm.trans (List.Perm.trans List.perm_append_comm ?_))
        simp [owned]
    · refine ⟨rfl, rfl, links_snoc (.weak cs) rfl ?_⟩
      rw [owned_snoc_nil rfl]
      exact hh
  | moveAssign o o' =>
    unfold ActOp.run stepVals
    rcases hD : D[o]? with _ | _ | ds | cs <;> rcases hD' : D[o']? with _ | _ | es | cs' <;>
      simp only [ptrs_get hD, vals_get hD, ptrs_get hD', vals_get hD', Option.map_none, Option.map_some, DObj.ptrs, DObj.vals]
    case some.some.any.some.some.any =>
      by_cases ho : o = o'
      · simp only [if_pos ho]
        exact ⟨rfl, rfl, hself⟩
      · simp only [if_neg ho, List.length_map]
        by_cases hl : ds.length ≠ es.length
        · simp only [if_pos hl]
          exact rfl
        · simp only [if_neg hl]
          have h1 := owned_set hD (some (.any es))
          have hD1 : (D.set o (some (.any es)))[o']? = some (some (.any es)) := by rw [List.getElem?_set_ne ho]; exact hD'
          have h2 := owned_set hD1 (some (.any (es.map fun _ => none)))
          have e : DObj.owned (some (DObj.any (es.map fun _ => (none : Option (Nat × Stored σ))))) = [] := nones_owned es
          rw [e] at h2
          have h3 : (owned D).Perm (ds.filterMap id ++ owned ((D.set o (some (.any es))).set o' (some (.any (es.map fun _ => none))))) := by
            refine (List.perm_append_left_iff (es.filterMap id)).mp ?_
            refine h1.symm.trans (List.Perm.trans ?_ (List.perm_append_comm_assoc ..))
            exact (h2.symm).append_left _
          obtain ⟨h', h4, h5, h6⟩ := assignAll_ok ds (hh.perm h3) w
          unfold Eff.zoom
          simp only [LifeState.heap, h4]
          refine ⟨rfl, rfl, _, ?_, ?_, h5, h6⟩
          · simp [List.map_set, DObj.ptrs, Function.comp_def]
          · simp [List.map_set, DObj.vals, Function.comp_def]
    case some.some.weak.some.some.weak =>
      by_cases hl : cs.length ≠ cs'.length
      · simp only [if_pos hl]
        exact rfl
      · simp only [if_neg hl]
        refine ⟨rfl, rfl, links_set o (some (.weak cs')) rfl ?_⟩
        have h1 := owned_set hD (some (.weak cs'))
        exact hh.perm h1.symm
    all_goals exact rfl
  | replace o i c =>
    unfold ActOp.run stepVals
    rcases hD : D[o]? with _ | _ | ds | cs <;> simp only [ptrs_get hD, vals_get hD, Option.map_none, Option.map_some, DObj.ptrs, DObj.vals, List.getElem?_map]
    · exact rfl
    · exact rfl
    · cases hi : ds[i]? with
      | none => exact rfl
      | some old =>
        simp only [Option.map_some]
        have h1 := new_match hh c w
        show LinkedOutcome (Eff.bind _ _ _) _
        unfold Eff.bind
        rw [show Eff.zoom LifeState.heap (Heap.new c) ((D.map (·.map DObj.ptrs), h), w) = _ from rfl]
        simp only [Eff.zoom, LifeState.heap]
        cases ha : Heap.new c (h, w) with
        | ret p st =>
          cases hb : construct c (h.memory, w) with
          | ret r st' =>
            rw [ha, hb] at h1
            obtain ⟨h1', w1⟩ := st
            obtain ⟨m1, w2⟩ := st'
            obtain ⟨h2, h3, h4⟩ := h1
            subst h2 h3
            have h5 := owned_set hD (some (.any (ds.set i (some (p, c)))))
            have h6 := slots_set hi (some (p, c))
            have h7 : ((p, c) :: owned D).Perm (old.toList ++ owned (D.set o (some (.any (ds.set i (some (p, c))))))) := by
              refine (List.perm_append_left_iff (ds.filterMap id)).mp ?_
              refine List.Perm.trans (List.perm_middle) (List.Perm.trans ?_ (List.perm_append_comm_assoc ..))
              refine List.Perm.trans ?_ (h5.symm.append_left _)
              show ([(p, c)] ++ ds.filterMap id ++ owned D).Perm (old.toList ++ ((ds.set i (some (p, c))).filterMap id ++ owned D))
              rw [← List.append_assoc]
              exact h6.symm.append_right _
            obtain ⟨h', h8, h9, h10⟩ := release_ok old (h4.perm h7) w1
            simp only [h8]
            refine ⟨rfl, rfl, _, ?_, ?_, h9, h10⟩
            · simp [List.map_set, DObj.ptrs]
            · simp [List.map_set, DObj.vals]
          | threw st' => rw [ha, hb] at h1; exact h1.elim
          | fault f => rw [ha, hb] at h1; exact h1.elim
        | threw st =>
          cases hb : construct c (h.memory, w) with
          | ret r st' => rw [ha, hb] at h1; exact h1.elim
          | threw st' =>
            rw [ha, hb] at h1
            obtain ⟨h2, h3, h4⟩ := h1
            exact ⟨h3, D, rfl, rfl, h2, h4⟩
          | fault f => rw [ha, hb] at h1; exact h1.elim
        | fault f =>
          cases hb : construct c (h.memory, w) with
          | ret r st' => rw [ha, hb] at h1; exact h1.elim
          | threw st' => rw [ha, hb] at h1; exact h1.elim
          | fault g => rw [ha, hb] at h1; exact h1
    · split
      · refine ⟨rfl, rfl, links_set o (some (.weak (cs.set i c))) rfl ?_⟩
        exact hh.perm (owned_set hD (some (.weak (cs.set i c)))).symm
      · exact rfl
  | destroy o =>
    unfold ActOp.run stepVals
    rcases hD : D[o]? with _ | _ | ds | cs <;> simp only [ptrs_get hD, vals_get hD, Option.map_none, Option.map_some, DObj.ptrs, DObj.vals]
    · exact rfl
    · exact rfl
    · obtain ⟨h', h1, h2, h3⟩ := deleteAll_ok ds (hh.perm (owned_set hD none).symm) w
      simp only [Eff.zoom, LifeState.heap, h1]
      exact ⟨rfl, rfl, links_set o none h2 h3⟩
    · exact ⟨rfl, rfl, links_set o none rfl (hh.perm (owned_set hD none).symm)⟩
  | call o i src dest =>
    unfold ActOp.run stepVals
    rcases hD : D[o]? with _ | _ | ds | cs <;> simp only [ptrs_get hD, vals_get hD, Option.map_none, Option.map_some, DObj.ptrs, DObj.vals, List.getElem?_map]
    · exact rfl
    · exact rfl
    · cases hi : ds[i]? with
      | none => exact rfl
      | some d =>
        have h1 := call_match P d hh (fun x hx => mem_owned hD (hx ▸ hi)) src dest w
        simp only [Option.map_some, Eff.zoom, LifeState.heap, h1]
        cases d with
        | none => exact ⟨rfl, rfl, hself⟩
        | some x =>
          simp only [Option.map_some]
          cases (Action.stored x.2.e x.2.s x.2.cb).invoke P (Lens.whole σ) src dest w with
          | ret r w' => exact ⟨rfl, rfl, hself⟩
          | threw w' => exact ⟨rfl, hself⟩
          | fault f => exact rfl
    · cases hi : cs[i]? with
      | none => exact rfl
      | some c =>
        simp only
        cases (Action.weak c.e c.s c.cb).invoke P (Lens.whole σ) src dest w with
        | ret r w' => exact ⟨rfl, rfl, hself⟩
        | threw w' => exact ⟨rfl, hself⟩
        | fault f => exact rfl

theorem runAll_linked (P : Platform) : ∀ (prog : List (ActOp σ)) {D : List (Option (DObj σ))} {h : Heap σ} (_ : HoldsAll h (owned D)) (w : σ),
    LinkedOutcome (ActOp.runAll P prog ((D.map (·.map DObj.ptrs), h), w)) (runVals P prog ((D.map (·.map DObj.vals), h.memory), w))
  | [], D, h, hh, w => ⟨rfl, rfl, D, rfl, rfl, rfl, hh⟩
  | op :: ops, D, h, hh, w => by
    have h1 := step_linked P op hh w
    unfold ActOp.runAll runVals
    have next : ∀ (b : Bool) {st : LifeState σ} {vt : ValState σ}, st.2 = vt.2 → Links st.1 vt.1 →
        LinkedOutcome ((ActOp.runAll P ops >>= fun l => pure (b :: l)) st) ((runVals P ops >>= fun l => pure (b :: l)) vt) := by
      intro b st vt he hl
      obtain ⟨⟨objs, h'⟩, w'⟩ := st
      obtain ⟨⟨vobjs, m'⟩, w''⟩ := vt
      obtain ⟨D', h2, h3, h4, h5⟩ := hl
      simp only at he h2 h3 h4 h5
      subst he h2 h3 h4
      have h6 := runAll_linked P ops h5 w'
      show LinkedOutcome (Eff.bind _ _ _) (Eff.bind _ _ _)
      unfold Eff.bind
      cases ha : ActOp.runAll P ops ((D'.map (·.map DObj.ptrs), h'), w') <;> cases hb : runVals P ops ((D'.map (·.map DObj.vals), h'.memory), w') <;> rw [ha, hb] at h6 <;>
        first | exact h6.elim | exact ⟨by rw [h6.1], h6.2⟩ | exact h6
    cases ha : op.run P ((D.map (·.map DObj.ptrs), h), w) <;> cases hb : stepVals P op ((D.map (·.map DObj.vals), h.memory), w) <;> rw [ha, hb] at h1
    case ret.ret => exact next false h1.2.1 h1.2.2
    case threw.threw => exact next true h1.1 h1.2
    all_goals first | exact h1.elim | exact h1

end Upd
