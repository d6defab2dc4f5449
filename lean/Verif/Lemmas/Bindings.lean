import Verif.Props.Tuple
import Verif.Spec.Bindings

/-! # Programs with tuples, views and structured bindings -/

namespace Upd
open Spec TypeList

variable {P : Platform}

/-- The storage and the values of a tuple. -/
def BytesHold (P : Platform) (e : Endian) (s : Mode) (ts : List Ty) : Option Mem → Option (List Val) → Prop
  | none, none => True
  | some mem, some vs => Ty.serSizes ts ≤ mem.length ∧ Val.FitsAll (Safe P s) ts vs ∧ Matches mem 0 (cellsAll e s ts vs)
  | _, _ => False

/-- A tuple and the list of values it stands for. -/
structure Holds (P : Platform) (t : TupleObj) (u : ATuple) : Prop where
  he : t.e = u.e
  hs : t.s = u.s
  hts : t.ts = u.ts
  sup : Supported P u.e u.s
  wf : Ty.WFs u.ts
  loose : LooseAll u.ts
  bytes : BytesHold P u.e u.s u.ts t.mem u.vals

/-- A view and the part of a list of values it stands for. -/
def ViewHolds (a : AStore) (v : ViewObj) (w : AView) : Prop :=
  v.obj = w.obj ∧ ∃ u, a.tuples[w.obj]? = some u ∧ (Tuple.self u.e u.s u.ts).sub w.first w.length = some v.view

/-- A program and its specification. -/
structure Stands (P : Platform) (c : Store) (a : AStore) : Prop where
  len : c.tuples.length = a.tuples.length
  tuples : ∀ (i : Nat) (t : TupleObj) (u : ATuple), c.tuples[i]? = some t → a.tuples[i]? = some u → Holds P t u
  vlen : c.views.length = a.views.length
  views : ∀ (n : Nat) (v : ViewObj) (w : AView), c.views[n]? = some v → a.views[n]? = some w → ViewHolds a v w
  names : c.names = a.names
  out : c.out = a.out

section
variable {e : Endian} {s : Mode} {ts : List Ty} {mem : Mem} {vs : List Val}

theorem hold_get (hP : P.Valid) (hs : Supported P e s) (hw : Ty.WFs ts) (hl : LooseAll ts) (hf : Val.FitsAll (Safe P s) ts vs)
    (hm : Matches mem 0 (cellsAll e s ts vs)) (k : Nat) :
    (Tuple.self e s ts).get P k mem = match vs[k]? with | some v => .ok v | none => .error .illTyped := by
  have hlen := fitsAll_length hf
  by_cases hk : k < ts.length
  · have hk' : k < vs.length := by omega
    rw [List.getElem?_eq_getElem hk', View.get_eq P (Tuple.self e s ts) hk]
    exact readAs_ok hP hs _ _ _ _ (wfs_get hw hk) (looseAll_get hl hk) (fitsAll_get hf hk hk') (cellsAll_get hl hf hm hk hk')
  · rw [List.getElem?_eq_none (by omega), View.get, at11_eq]
    show (match ts[k]?, elemOffset ts k with | some t, some o => _ | _, _ => _) = _
    rw [List.getElem?_eq_none (by omega)]

theorem hold_gets (hP : P.Valid) (hs : Supported P e s) (hw : Ty.WFs ts) (hl : LooseAll ts) (hf : Val.FitsAll (Safe P s) ts vs)
    (hm : Matches mem 0 (cellsAll e s ts vs)) : (Tuple.self e s ts).gets P (Tuple.self e s ts).indices mem = .ok vs := by
  rw [View.indices_eq, View.gets_eq]
  exact readAll_ok hP hs ts vs mem 0 hw hl hf hm

theorem hold_set (hP : P.Valid) (hs : Supported P e s) (hw : Ty.WFs ts) (hl : LooseAll ts) (hb : Ty.serSizes ts ≤ mem.length)
    (hf : Val.FitsAll (Safe P s) ts vs) (hm : Matches mem 0 (cellsAll e s ts vs)) {k : Nat} (hk : k < ts.length) {v : Val}
    (hv : v.Fits (Safe P s) ts[k]) :
    ∃ mem', (Tuple.self e s ts).set P k v mem = .ok mem' ∧ BytesHold P e s ts (some mem') (some (vs.set k v)) := by
  have hbV : (Tuple.self e s ts).off + (Tuple.self e s ts).size ≤ mem.length := by
    rw [View.size_eq]; show 0 + Ty.serSizes ts ≤ _; omega
  have hset := View.set_ok hP (V := Tuple.self e s ts) hs hw hl hbV hk hv
  have hlen := cells_length e s _ _ _ (looseAll_get hl hk) hv
  have hf' := fitsAll_set hf hk hv
  refine ⟨_, hset, by rw [overlay_length]; exact hb, hf', matches_cellsAll_of_get hl hf' ?_⟩
  intro j hj hj'
  by_cases hij : k = j
  · subst hij
    have e1 : (vs.set k v)[k] = v := by simp
    rw [e1]
    exact matches_overlay (by
      show 0 + Ty.serSizes (ts.take k) + (cells e s ts[k] v).length ≤ mem.length
      rw [hlen]; exact elem_in_bounds (V := Tuple.self e s ts) hk hbV)
  · have hjv : j < vs.length := by rw [fitsAll_length hf]; exact hj
    have e1 : (vs.set k v)[j] = vs[j] := by rw [List.getElem_set, if_neg hij]
    rw [e1]
    apply matches_congr _ (cellsAll_get hl hf hm hj hjv)
    intro q hq
    rw [cells_length e s _ _ _ (looseAll_get hl hj) (fitsAll_get hf hj hjv)] at hq
    apply overlay_getElem?_out
    show 0 + Ty.serSizes (ts.take j) + q < 0 + Ty.serSizes (ts.take k) ∨
      0 + Ty.serSizes (ts.take k) + (cells e s ts[k] v).length ≤ 0 + Ty.serSizes (ts.take j) + q
    rw [hlen]
    have := disjoint_elems hk hj hij
    omega

theorem hold_lay (hP : P.Valid) (hs : Supported P e s) (hw : Ty.WFs ts) (hl : LooseAll ts) (hb : Ty.serSizes ts ≤ mem.length)
    (hf : Val.FitsAll (Safe P s) ts vs) :
    ∃ mem', (Tuple.self e s ts).lay P (Tuple.self e s ts).indices vs mem = .ok mem' ∧ BytesHold P e s ts (some mem') (some vs) := by
  have hlay := View.lay_eq P (Tuple.self e s ts) vs mem
  rw [← View.indices_eq] at hlay
  have hw' := writeAll_ok hP hs ts vs mem 0 hw hl hf (by omega)
  exact ⟨_, hlay.trans hw', by rw [overlay_length]; exact hb, hf,
    matches_overlay (by rw [cellsAll_length e s _ ts vs hl hf]; omega)⟩

theorem hold_make (hP : P.Valid) (hs : Supported P e s) (hw : Ty.WFs ts) (hl : LooseAll ts) (hf : Val.FitsAll (Safe P s) ts vs) :
    ∃ mem, Tuple.make P e s ts vs = .ok mem ∧ BytesHold P e s ts (some mem) (some vs) :=
  hold_lay (mem := P.junkBytes (Tuple.self e s ts).size) hP hs hw hl (by rw [junkBytes_length, View.size_eq]; exact Nat.le_refl _) hf

end

section
variable {c : Store} {a : AStore}

/-- A tuple which is alive, dead, or does not exist, for the program and for its specification. -/
theorem stands_cases (h : Stands P c a) (i : Nat) :
    (c.bytes i = .error .illTyped ∧ a.vals i = .error .illTyped) ∨ (c.bytes i = .error .dangling ∧ a.vals i = .error .dangling) ∨
    ∃ t u mem vs, c.tuples[i]? = some t ∧ a.tuples[i]? = some u ∧ t.mem = some mem ∧ u.vals = some vs ∧ c.bytes i = .ok (t, mem) ∧
      a.vals i = .ok (u, vs) ∧ Holds P t u ∧ Ty.serSizes u.ts ≤ mem.length ∧ Val.FitsAll (Safe P u.s) u.ts vs ∧
      Matches mem 0 (cellsAll u.e u.s u.ts vs) := by
  cases hc : c.tuples[i]? with
  | none =>
    have ha : a.tuples[i]? = none := by
      have := List.getElem?_eq_none_iff.1 hc
      exact List.getElem?_eq_none_iff.2 (by have := h.len; omega)
    exact .inl ⟨by unfold Store.bytes; rw [hc], by unfold AStore.vals; rw [ha]⟩
  | some t =>
    obtain ⟨hi, _⟩ := List.getElem?_eq_some_iff.1 hc
    have ha : a.tuples[i]? = some (a.tuples[i]'(by have := h.len; omega)) := List.getElem?_eq_getElem _
    have hh := h.tuples i _ _ hc ha
    generalize a.tuples[i]'(by have := h.len; omega) = u at ha hh
    have hb := hh.bytes
    right
    cases hm : t.mem with
    | none =>
      cases hv : u.vals with
      | none => exact .inl ⟨by unfold Store.bytes; rw [hc]; simp only [hm], by unfold AStore.vals; rw [ha]; simp only [hv]⟩
      | some vs => rw [hm, hv] at hb; cases hb
    | some mem =>
      cases hv : u.vals with
      | none => rw [hm, hv] at hb; cases hb
      | some vs =>
        rw [hm, hv] at hb
        exact .inr ⟨t, u, mem, vs, rfl, ha, hm, hv, by unfold Store.bytes; rw [hc]; simp only [hm],
          by unfold AStore.vals; rw [ha]; simp only [hv], hh, hb.1, hb.2.1, hb.2.2⟩

theorem stands_views (h : Stands P c a) (n : Nat) :
    (c.viewAt n = .error .illTyped ∧ a.viewAt n = .error .illTyped) ∨
    ∃ v w, a.views[n]? = some w ∧ c.viewAt n = .ok v ∧ a.viewAt n = .ok w ∧ ViewHolds a v w := by
  cases hc : c.views[n]? with
  | none =>
    have ha : a.views[n]? = none := by
      have := List.getElem?_eq_none_iff.1 hc
      exact List.getElem?_eq_none_iff.2 (by have := h.vlen; omega)
    exact .inl ⟨by unfold Store.viewAt; rw [hc], by unfold AStore.viewAt; rw [ha]⟩
  | some v =>
    obtain ⟨hi, _⟩ := List.getElem?_eq_some_iff.1 hc
    have ha : a.views[n]? = some (a.views[n]'(by have := h.vlen; omega)) := List.getElem?_eq_getElem _
    exact .inr ⟨_, _, ha, by unfold Store.viewAt; rw [hc], by unfold AStore.viewAt; rw [ha], h.views n _ _ hc ha⟩

/-- Tuples keep their classes. -/
theorem views_keep {a' : AStore} {v : ViewObj} {w : AView}
    (hk : ∀ (i : Nat) (u : ATuple), a.tuples[i]? = some u → ∃ u', a'.tuples[i]? = some u' ∧ u'.e = u.e ∧ u'.s = u.s ∧ u'.ts = u.ts)
    (h : ViewHolds a v w) : ViewHolds a' v w := by
  obtain ⟨h1, u, h2, h3⟩ := h
  obtain ⟨u', h4, h5, h6, h7⟩ := hk _ u h2
  exact ⟨h1, u', h4, by rw [h5, h6, h7]; exact h3⟩

theorem stands_add (h : Stands P c a) {t : TupleObj} {u : ATuple} (hh : Holds P t u) :
    Stands P { c with tuples := c.tuples ++ [t] } { a with tuples := a.tuples ++ [u] } where
  len := by simp [h.len]
  tuples := by
    intro i t' u' h1 h2
    by_cases hi : i < c.tuples.length
    · have h1 : (c.tuples ++ [t])[i]? = some t' := h1
      have h2 : (a.tuples ++ [u])[i]? = some u' := h2
      rw [List.getElem?_append_left hi] at h1
      rw [List.getElem?_append_left (by have := h.len; omega)] at h2
      exact h.tuples i t' u' h1 h2
    · have h1 : (c.tuples ++ [t])[i]? = some t' := h1
      have h2 : (a.tuples ++ [u])[i]? = some u' := h2
      obtain ⟨hi', _⟩ := List.getElem?_eq_some_iff.1 h1
      have hi'' : i = c.tuples.length := by simp at hi'; omega
      subst hi''
      rw [List.getElem?_concat_length] at h1
      rw [h.len, List.getElem?_concat_length] at h2
      injection h1 with h1
      injection h2 with h2
      subst h1; subst h2
      exact hh
  vlen := h.vlen
  views := by
    intro n v w h1 h2
    refine views_keep ?_ (h.views n v w h1 h2)
    intro i u' h3
    obtain ⟨hi, _⟩ := List.getElem?_eq_some_iff.1 h3
    exact ⟨u', by show (a.tuples ++ [u])[i]? = _; rw [List.getElem?_append_left hi]; exact h3, rfl, rfl, rfl⟩
  names := h.names
  out := h.out

theorem stands_set (h : Stands P c a) {i : Nat} {t' : TupleObj} {u u' : ATuple} (hu : a.tuples[i]? = some u)
    (hk : u'.e = u.e ∧ u'.s = u.s ∧ u'.ts = u.ts) (hh : Holds P t' u') :
    Stands P { c with tuples := c.tuples.set i t' } { a with tuples := a.tuples.set i u' } where
  len := by simp [h.len]
  tuples := by
    intro j t1 u1 h1 h2
    have h1 : (c.tuples.set i t')[j]? = some t1 := h1
    have h2 : (a.tuples.set i u')[j]? = some u1 := h2
    rw [List.getElem?_set] at h1 h2
    by_cases hij : i = j
    · subst hij
      obtain ⟨hi, _⟩ := List.getElem?_eq_some_iff.1 hu
      rw [if_pos rfl, if_pos hi] at h2
      rw [if_pos rfl, if_pos (by have := h.len; omega)] at h1
      injection h1 with h1
      injection h2 with h2
      subst h1; subst h2
      exact hh
    · rw [if_neg hij] at h1 h2
      exact h.tuples j t1 u1 h1 h2
  vlen := h.vlen
  views := by
    intro n v w h1 h2
    refine views_keep ?_ (h.views n v w h1 h2)
    intro j u1 h3
    show ∃ u2, (a.tuples.set i u')[j]? = some u2 ∧ _
    rw [List.getElem?_set]
    by_cases hij : i = j
    · subst hij
      obtain ⟨hi, _⟩ := List.getElem?_eq_some_iff.1 h3
      rw [if_pos rfl, if_pos hi]
      rw [h3] at hu
      injection hu with hu
      subst hu
      exact ⟨u', rfl, hk⟩
    · rw [if_neg hij]
      exact ⟨u1, h3, rfl, rfl, rfl⟩
  names := h.names
  out := h.out

theorem get_out (V : View) {k : Nat} (hk : V.ts.length ≤ k) (mem : Mem) : V.get P k mem = .error .illTyped := by
  unfold View.get
  rw [at11_eq, List.getElem?_eq_none hk]

theorem set_out (V : View) {k : Nat} (hk : V.ts.length ≤ k) (v : Val) (mem : Mem) : V.set P k v mem = .error .illTyped := by
  unfold View.set
  rw [at11_eq, List.getElem?_eq_none hk]

/-- The elements of a view. -/
theorem view_vals (hP : P.Valid) {t : TupleObj} {u : ATuple} {mem : Mem} {vs : List Val} (hh : Holds P t u)
    (hf : Val.FitsAll (Safe P u.s) u.ts vs) (hm : Matches mem 0 (cellsAll u.e u.s u.ts vs)) {V : View} {first length : Nat}
    (hV : (Tuple.self u.e u.s u.ts).sub first length = some V) :
    first + length ≤ vs.length ∧ V.ts.length = length ∧ ((vs.drop first).take length).length = length ∧
    (∀ k, V.get P k mem = match ((vs.drop first).take length)[k]? with | some v => .ok v | none => .error .illTyped) ∧
    V.gets P V.indices mem = .ok ((vs.drop first).take length) ∧
    (∀ k v, V.set P k v mem = if k < length then (Tuple.self u.e u.s u.ts).set P (first + k) v mem else .error .illTyped) := by
  have hlen := fitsAll_length hf
  have hsub := C21_sub_view P (Tuple.self u.e u.s u.ts) first length
  have hle : first + length ≤ u.ts.length := hsub.1.1 (by rw [hV]; rfl)
  obtain ⟨h1, h2, h3⟩ := hsub.2 V hV
  have hVl : V.ts.length = length := by
    rw [h1]; show ((u.ts.drop first).take length).length = _; simp; omega
  have hl2 : ((vs.drop first).take length).length = length := by simp; omega
  have hget : ∀ k, V.get P k mem = match ((vs.drop first).take length)[k]? with | some v => .ok v | none => .error .illTyped := by
    intro k
    by_cases hk : k < length
    · rw [h2 k hk, hold_get hP hh.sup hh.wf hh.loose hf hm, List.getElem?_take, if_pos hk, List.getElem?_drop]
    · rw [get_out V (by omega), List.getElem?_eq_none (by omega)]
  refine ⟨by omega, hVl, hl2, hget, ?_, ?_⟩
  · have h4 := C24_invoke (P := P) (V := V) (mem := mem) (vs := (vs.drop first).take length) (by omega)
      (fun i hi => by rw [hget i, List.getElem?_eq_getElem hi]) id
    unfold View.invoke at h4
    cases hg : V.gets P V.indices mem with
    | error f => rw [hg] at h4; cases h4
    | ok vs' => rw [hg] at h4; exact h4
  · intro k v
    by_cases hk : k < length
    · rw [if_pos hk, h3 k hk]
    · rw [if_neg hk, set_out V (by omega)]

/-- What a statement leads to, for the program and for its specification. -/
def Refines (P : Platform) (r : M Store) (R : M AStore) : Prop :=
  match R with
  | .ok a => ∃ c, r = .ok c ∧ Stands P c a
  | .error f => r = .error f

theorem stands_out (h : Stands P c a) (v : Val) : Stands P { c with out := c.out ++ [v] } { a with out := a.out ++ [v] } :=
  ⟨h.len, h.tuples, h.vlen, h.views, h.names, by show c.out ++ [v] = a.out ++ [v]; rw [h.out]⟩

theorem stands_names (h : Stands P c a) (vs : List Val) : Stands P { c with names := c.names ++ vs } { a with names := a.names ++ vs } :=
  ⟨h.len, h.tuples, h.vlen, h.views, by show c.names ++ vs = a.names ++ vs; rw [h.names], h.out⟩

theorem holds_vals {t : TupleObj} {u : ATuple} (h : Holds P t u) {m : Option Mem} {v : Option (List Val)}
    (hb : BytesHold P u.e u.s u.ts m v) : Holds P { t with mem := m } { u with vals := v } :=
  ⟨h.he, h.hs, h.hts, h.sup, h.wf, h.loose, hb⟩

theorem self_eq {t : TupleObj} {u : ATuple} (h : Holds P t u) : Tuple.self t.e t.s t.ts = Tuple.self u.e u.s u.ts := by
  rw [h.he, h.hs, h.hts]

theorem bind_eq (V : View) {mem : Mem} {vs : List Val} (hl : V.ts.length = vs.length) (hg : V.gets P V.indices mem = .ok vs) :
    V.bind P mem = if vs.isEmpty then .error .illTyped else .ok vs := by
  unfold View.bind
  rw [hg]
  cases h1 : V.ts <;> cases h2 : vs <;> rw [h1, h2] at hl <;> simp at hl ⊢

theorem step_refines (hP : P.Valid) (h : Stands P c a) (st : Stmt) (ho : StmtOk P a st) : Refines P (st.run P c) (runValues st a) := by
  cases st with
  | make e s ts vs =>
    obtain ⟨h1, h2, h3, h4⟩ := ho
    obtain ⟨mem, h5, h6⟩ := hold_make hP h1 h2 h3 h4
    refine ⟨{ c with tuples := c.tuples ++ [⟨e, s, ts, some mem⟩] }, ?_, stands_add h ⟨rfl, rfl, rfl, h1, h2, h3, h6⟩⟩
    simp only [Stmt.run]
    rw [h5]
    rfl
  | copy i =>
    simp only [Stmt.run, runValues]
    rcases stands_cases h i with ⟨h1, h2⟩ | ⟨h1, h2⟩ | ⟨t, u, mem, vs, _, _, _, _, h1, h2, hh, hb⟩
    · rw [h1, h2]; rfl
    · rw [h1, h2]; rfl
    · rw [h1, h2]
      exact ⟨_, rfl, stands_add h (holds_vals hh (m := some mem) (v := some vs) hb)⟩
  | assign i j =>
    simp only [Stmt.run, runValues]
    rcases stands_cases h i with ⟨h1, h2⟩ | ⟨h1, h2⟩ | ⟨t, u, mem, vs, _, hu, _, _, h1, h2, hh, hb, hf, hm⟩
    · rw [h1, h2]; rfl
    · rw [h1, h2]; rfl
    rw [h1, h2]
    rcases stands_cases h j with ⟨h1', h2'⟩ | ⟨h1', h2'⟩ | ⟨t', u', mem', vs', _, hu', _, hv', h1', h2', hh', hb', hf', hm'⟩
    · rw [h1', h2']; rfl
    · rw [h1', h2']; rfl
    rw [h1', h2']
    show Refines P (t.assign P t' mem mem' >>= fun m => .ok (c.put i t m)) (if u.ts = u'.ts then .ok (a.put i u vs') else .error .illTyped)
    have hfit := ho u u' vs' hu hu' hv'
    by_cases hts : u.ts = u'.ts
    · rw [if_pos hts]
      have key : ∃ m, t.assign P t' mem mem' = .ok m ∧ BytesHold P u.e u.s u.ts (some m) (some vs') := by
        unfold TupleObj.assign
        rw [if_pos (by rw [hh.hts, hh'.hts]; exact hts)]
        by_cases hc : t.e = t'.e ∧ t.s = t'.s
        · rw [if_pos hc]
          have e1 : u.e = u'.e := by rw [← hh.he, ← hh'.he]; exact hc.1
          have e2 : u.s = u'.s := by rw [← hh.hs, ← hh'.hs]; exact hc.2
          refine ⟨mem', rfl, ?_⟩
          rw [hts, e1, e2]
          exact ⟨hb', hf', hm'⟩
        · rw [if_neg hc, self_eq hh, self_eq hh']
          have hix : (Tuple.self u.e u.s u.ts).indices = (Tuple.self u'.e u'.s u'.ts).indices := by
            rw [View.indices_eq, View.indices_eq]; show List.range u.ts.length = List.range u'.ts.length; rw [hts]
          rw [hix, hold_gets hP hh'.sup hh'.wf hh'.loose hf' hm', ← hix]
          exact hold_lay hP hh.sup hh.wf hh.loose hb (hfit hts)
      obtain ⟨m, k1, k2⟩ := key
      rw [k1]
      exact ⟨_, rfl, stands_set h hu ⟨rfl, rfl, rfl⟩ (holds_vals hh k2)⟩
    · rw [if_neg hts]
      unfold TupleObj.assign
      rw [if_neg (by rw [hh.hts, hh'.hts]; exact hts)]
      rfl
  | destroy i =>
    simp only [Stmt.run, runValues]
    rcases stands_cases h i with ⟨h1, h2⟩ | ⟨h1, h2⟩ | ⟨t, u, mem, vs, _, hu, _, _, h1, h2, hh, hb⟩
    · rw [h1, h2]; rfl
    · rw [h1, h2]; rfl
    · rw [h1, h2]
      exact ⟨_, rfl, stands_set h hu ⟨rfl, rfl, rfl⟩ (holds_vals hh (m := none) (v := none) trivial)⟩
  | set i k v =>
    simp only [Stmt.run, runValues]
    rcases stands_cases h i with ⟨h1, h2⟩ | ⟨h1, h2⟩ | ⟨t, u, mem, vs, _, hu, _, _, h1, h2, hh, hb, hf, hm⟩
    · rw [h1, h2]; rfl
    · rw [h1, h2]; rfl
    rw [h1, h2]
    have hlen := fitsAll_length hf
    show Refines P ((Tuple.self t.e t.s t.ts).set P k v mem >>= fun m => .ok (c.put i t m))
      (if k < vs.length then .ok (a.put i u (vs.set k v)) else .error .illTyped)
    rw [self_eq hh]
    by_cases hk : k < vs.length
    · rw [if_pos hk]
      obtain ⟨m, k1, k2⟩ := hold_set hP hh.sup hh.wf hh.loose hb hf hm (k := k) (v := v) (by omega)
        (ho u hu _ (List.getElem?_eq_getElem (by omega)))
      rw [k1]
      exact ⟨_, rfl, stands_set h hu ⟨rfl, rfl, rfl⟩ (holds_vals hh k2)⟩
    · rw [if_neg hk, set_out _ (by show u.ts.length ≤ k; omega)]
      rfl
  | view i first length =>
    simp only [Stmt.run, runValues]
    rcases stands_cases h i with ⟨h1, h2⟩ | ⟨h1, h2⟩ | ⟨t, u, mem, vs, _, hu, _, _, h1, h2, hh, hb, hf, hm⟩
    · rw [h1, h2]; rfl
    · rw [h1, h2]; rfl
    rw [h1, h2]
    have hlen := fitsAll_length hf
    show Refines P (match (Tuple.self t.e t.s t.ts).sub first length with
        | none => .error .illTyped
        | some V => .ok { c with views := c.views ++ [⟨i, V⟩] })
      (if first + length ≤ vs.length then .ok { a with views := a.views ++ [⟨i, first, length⟩] } else .error .illTyped)
    rw [self_eq hh]
    have hsub := (C21_sub_view P (Tuple.self u.e u.s u.ts) first length).1
    by_cases hk : first + length ≤ vs.length
    · rw [if_pos hk]
      obtain ⟨V, hV⟩ := Option.isSome_iff_exists.1 (hsub.2 (by show first + length ≤ u.ts.length; omega))
      rw [hV]
      refine ⟨_, rfl, h.len, h.tuples, by simp [h.vlen], ?_, h.names, h.out⟩
      intro n v w k1 k2
      have k1 : (c.views ++ [⟨i, V⟩])[n]? = some v := k1
      have k2 : (a.views ++ [⟨i, first, length⟩])[n]? = some w := k2
      by_cases hn : n < c.views.length
      · rw [List.getElem?_append_left hn] at k1
        rw [List.getElem?_append_left (by have := h.vlen; omega)] at k2
        exact h.views n v w k1 k2
      · obtain ⟨hn', _⟩ := List.getElem?_eq_some_iff.1 k1
        have hn'' : n = c.views.length := by simp at hn'; omega
        subst hn''
        rw [List.getElem?_concat_length] at k1
        rw [h.vlen, List.getElem?_concat_length] at k2
        injection k1 with k1
        injection k2 with k2
        subst k1; subst k2
        exact ⟨rfl, u, hu, hV⟩
    · rw [if_neg hk]
      cases hV : (Tuple.self u.e u.s u.ts).sub first length with
      | none => rfl
      | some V =>
        have : first + length ≤ u.ts.length := hsub.1 (by rw [hV]; rfl)
        omega
  | setView n k v =>
    simp only [Stmt.run, runValues]
    rcases stands_views h n with ⟨h1, h2⟩ | ⟨w, x, hx, h1, h2, hobj, u0, hu0, hV⟩
    · rw [h1, h2]; rfl
    rw [h1, h2]
    show Refines P (c.bytes w.obj >>= fun p => w.view.set P k v p.2 >>= fun m => .ok (c.put w.obj p.1 m))
      (a.vals x.obj >>= fun p => if k < x.length then .ok (a.put x.obj p.1 (p.2.set (x.first + k) v)) else .error .illTyped)
    rw [hobj]
    rcases stands_cases h x.obj with ⟨h1, h2⟩ | ⟨h1, h2⟩ | ⟨t, u, mem, vs, _, hu, _, _, h1, h2, hh, hb, hf, hm⟩
    · rw [h1, h2]; rfl
    · rw [h1, h2]; rfl
    rw [h1, h2]
    rw [hu0] at hu
    injection hu with hu
    subst hu
    obtain ⟨k1, k2, k3, k4, k5, k6⟩ := view_vals hP hh hf hm hV
    have hlen := fitsAll_length hf
    show Refines P (w.view.set P k v mem >>= fun m => .ok (c.put x.obj t m))
      (if k < x.length then .ok (a.put x.obj u0 (vs.set (x.first + k) v)) else .error .illTyped)
    rw [k6 k v]
    by_cases hk : k < x.length
    · rw [if_pos hk, if_pos hk]
      obtain ⟨m, k1, k2⟩ := hold_set hP hh.sup hh.wf hh.loose hb hf hm (k := x.first + k) (v := v) (by omega)
        (ho x u0 hx hu0 _ (List.getElem?_eq_getElem (by omega)))
      rw [k1]
      exact ⟨_, rfl, stands_set h hu0 ⟨rfl, rfl, rfl⟩ (holds_vals hh k2)⟩
    · rw [if_neg hk, if_neg hk]
      rfl
  | bind i =>
    simp only [Stmt.run, runValues]
    rcases stands_cases h i with ⟨h1, h2⟩ | ⟨h1, h2⟩ | ⟨t, u, mem, vs, _, hu, _, _, h1, h2, hh, hb, hf, hm⟩
    · rw [h1, h2]; rfl
    · rw [h1, h2]; rfl
    rw [h1, h2]
    show Refines P ((Tuple.self t.e t.s t.ts).bind P mem >>= fun vs => .ok { c with names := c.names ++ vs }) (a.addNames vs)
    rw [self_eq hh, bind_eq _ (fitsAll_length hf).symm (hold_gets hP hh.sup hh.wf hh.loose hf hm)]
    unfold AStore.addNames
    by_cases he : vs.isEmpty = true
    · rw [if_pos he, if_pos he]; rfl
    · rw [if_neg he, if_neg he]
      exact ⟨_, rfl, stands_names h vs⟩
  | bindCopy i =>
    simp only [Stmt.run, runValues]
    rcases stands_cases h i with ⟨h1, h2⟩ | ⟨h1, h2⟩ | ⟨t, u, mem, vs, _, hu, _, _, h1, h2, hh, hb, hf, hm⟩
    · rw [h1, h2]; rfl
    · rw [h1, h2]; rfl
    rw [h1, h2]
    show Refines P ((Tuple.self t.e t.s t.ts).bind P mem >>= fun vs =>
        .ok { c with tuples := c.tuples ++ [{ t with mem := some mem }], names := c.names ++ vs })
      (a.addNames vs >>= fun a => .ok { a with tuples := a.tuples ++ [{ u with vals := some vs }] })
    rw [self_eq hh, bind_eq _ (fitsAll_length hf).symm (hold_gets hP hh.sup hh.wf hh.loose hf hm)]
    unfold AStore.addNames
    by_cases he : vs.isEmpty = true
    · rw [if_pos he, if_pos he]; rfl
    · rw [if_neg he, if_neg he]
      exact ⟨_, rfl, stands_add (stands_names h vs) (holds_vals hh (m := some mem) (v := some vs) ⟨hb, hf, hm⟩)⟩
  | bindView n =>
    simp only [Stmt.run, runValues]
    rcases stands_views h n with ⟨h1, h2⟩ | ⟨w, x, hx, h1, h2, hobj, u0, hu0, hV⟩
    · rw [h1, h2]; rfl
    rw [h1, h2]
    show Refines P (c.bytes w.obj >>= fun p => w.view.bind P p.2 >>= fun vs => .ok { c with names := c.names ++ vs })
      (a.vals x.obj >>= fun p => a.addNames ((p.2.drop x.first).take x.length))
    rw [hobj]
    rcases stands_cases h x.obj with ⟨h1, h2⟩ | ⟨h1, h2⟩ | ⟨t, u, mem, vs, _, hu, _, _, h1, h2, hh, hb, hf, hm⟩
    · rw [h1, h2]; rfl
    · rw [h1, h2]; rfl
    rw [h1, h2]
    rw [hu0] at hu
    injection hu with hu
    subst hu
    obtain ⟨k1, k2, k3, k4, k5, k6⟩ := view_vals hP hh hf hm hV
    show Refines P (w.view.bind P mem >>= fun vs => .ok { c with names := c.names ++ vs }) (a.addNames ((vs.drop x.first).take x.length))
    rw [bind_eq _ (by omega) k5]
    unfold AStore.addNames
    by_cases he : ((vs.drop x.first).take x.length).isEmpty = true
    · rw [if_pos he, if_pos he]; rfl
    · rw [if_neg he, if_neg he]
      exact ⟨_, rfl, stands_names h _⟩
  | assignName n v =>
    simp only [Stmt.run, runValues]
    rw [h.names]
    by_cases hn : n < a.names.length
    · rw [if_pos hn, if_pos hn]
      exact ⟨_, rfl, h.len, h.tuples, h.vlen, h.views, rfl, h.out⟩
    · rw [if_neg hn, if_neg hn]; rfl
  | readName n =>
    simp only [Stmt.run, runValues, AStore.read]
    have hn : c.names[n]? = a.names[n]? := by rw [h.names]
    rw [hn]
    cases a.names[n]? with
    | none => rfl
    | some v => exact ⟨_, rfl, stands_out h v⟩
  | get i k =>
    simp only [Stmt.run, runValues]
    rcases stands_cases h i with ⟨h1, h2⟩ | ⟨h1, h2⟩ | ⟨t, u, mem, vs, _, hu, _, _, h1, h2, hh, hb, hf, hm⟩
    · rw [h1, h2]; rfl
    · rw [h1, h2]; rfl
    rw [h1, h2]
    show Refines P ((Tuple.self t.e t.s t.ts).get P k mem >>= fun v => .ok { c with out := c.out ++ [v] }) (a.read vs k)
    rw [self_eq hh, hold_get hP hh.sup hh.wf hh.loose hf hm]
    unfold AStore.read
    cases vs[k]? with
    | none => rfl
    | some v => exact ⟨_, rfl, stands_out h v⟩
  | getView n k =>
    simp only [Stmt.run, runValues]
    rcases stands_views h n with ⟨h1, h2⟩ | ⟨w, x, hx, h1, h2, hobj, u0, hu0, hV⟩
    · rw [h1, h2]; rfl
    rw [h1, h2]
    show Refines P (c.bytes w.obj >>= fun p => w.view.get P k p.2 >>= fun v => .ok { c with out := c.out ++ [v] })
      (a.vals x.obj >>= fun p => a.read ((p.2.drop x.first).take x.length) k)
    rw [hobj]
    rcases stands_cases h x.obj with ⟨h1, h2⟩ | ⟨h1, h2⟩ | ⟨t, u, mem, vs, _, hu, _, _, h1, h2, hh, hb, hf, hm⟩
    · rw [h1, h2]; rfl
    · rw [h1, h2]; rfl
    rw [h1, h2]
    rw [hu0] at hu
    injection hu with hu
    subst hu
    obtain ⟨k1, k2, k3, k4, k5, k6⟩ := view_vals hP hh hf hm hV
    show Refines P (w.view.get P k mem >>= fun v => .ok { c with out := c.out ++ [v] }) (a.read ((vs.drop x.first).take x.length) k)
    rw [k4 k]
    unfold AStore.read
    cases ((vs.drop x.first).take x.length)[k]? with
    | none => rfl
    | some v => exact ⟨_, rfl, stands_out h v⟩

theorem exec_refines (hP : P.Valid) : ∀ (sts : List Stmt) (c : Store) (a : AStore), Stands P c a → ProgramOk P sts a →
    Refines P (Store.exec P sts c) (execValues sts a)
  | [], c, a, h, _ => ⟨c, rfl, h⟩
  | st :: sts, c, a, h, ho => by
    have h1 := step_refines hP h st ho.1
    unfold Store.exec execValues
    cases ha : runValues st a with
    | error f =>
      rw [ha] at h1
      have h1 : st.run P c = .error f := h1
      rw [h1]
      rfl
    | ok a' =>
      rw [ha] at h1
      obtain ⟨c', h2, h3⟩ := h1
      rw [h2]
      exact exec_refines hP sts c' a' h3 (ho.2 a' ha)

end

/-- What a statement can change. -/
theorem run_shape {st : Stmt} {c c' : Store} (h : st.run P c = .ok c') :
    (c'.tuples = c.tuples ∨ (∃ t, c'.tuples = c.tuples ++ [t]) ∨ ∃ j p t, c.bytes j = .ok p ∧ c'.tuples = c.tuples.set j t) ∧
    (∃ ws, c'.views = c.views ++ ws) ∧ ((∃ vs, c'.names = c.names ++ vs) ∨ ∃ m v, st = .assignName m v ∧ c'.names = c.names.set m v) := by
  cases st with
  | assignName m v =>
    simp only [Stmt.run] at h
    split at h
    · injection h with h
      subst h
      exact ⟨.inl rfl, ⟨[], (List.append_nil _).symm⟩, .inr ⟨m, v, rfl, rfl⟩⟩
    · cases h
  | make e s ts vs =>
    simp only [Stmt.run] at h
    cases hm : Tuple.make P e s ts vs with
    | error f => rw [hm] at h; cases h
    | ok mem => rw [hm] at h; injection h with h; subst h; exact ⟨.inr (.inl ⟨_, rfl⟩), ⟨[], (List.append_nil _).symm⟩, .inl ⟨[], (List.append_nil _).symm⟩⟩
  | readName m =>
    simp only [Stmt.run] at h
    split at h
    · cases h
    · injection h with h; subst h; exact ⟨.inl rfl, ⟨[], (List.append_nil _).symm⟩, .inl ⟨[], (List.append_nil _).symm⟩⟩
  | copy i =>
    simp only [Stmt.run] at h
    cases h1 : c.bytes i with
    | error f => rw [h1] at h; cases h
    | ok p => rw [h1] at h; injection h with h; subst h; exact ⟨.inr (.inl ⟨_, rfl⟩), ⟨[], (List.append_nil _).symm⟩, .inl ⟨[], (List.append_nil _).symm⟩⟩
  | destroy i =>
    simp only [Stmt.run] at h
    cases h1 : c.bytes i with
    | error f => rw [h1] at h; cases h
    | ok p => rw [h1] at h; injection h with h; subst h; exact ⟨.inr (.inr ⟨_, _, _, h1, rfl⟩), ⟨[], (List.append_nil _).symm⟩, .inl ⟨[], (List.append_nil _).symm⟩⟩
  | assign i j =>
    simp only [Stmt.run] at h
    cases h1 : c.bytes i with
    | error f => rw [h1] at h; cases h
    | ok p =>
      rw [h1, except_bind_ok] at h
      cases h2 : c.bytes j with
      | error f => rw [h2] at h; cases h
      | ok q =>
        rw [h2, except_bind_ok] at h
        cases h3 : p.1.assign P q.1 p.2 q.2 with
        | error f => rw [h3] at h; cases h
        | ok m => rw [h3] at h; injection h with h; subst h; exact ⟨.inr (.inr ⟨_, _, _, h1, rfl⟩), ⟨[], (List.append_nil _).symm⟩, .inl ⟨[], (List.append_nil _).symm⟩⟩
  | set i k v =>
    simp only [Stmt.run] at h
    cases h1 : c.bytes i with
    | error f => rw [h1] at h; cases h
    | ok p =>
      rw [h1, except_bind_ok] at h
      cases h3 : (Tuple.self p.1.e p.1.s p.1.ts).set P k v p.2 with
      | error f => rw [h3] at h; cases h
      | ok m => rw [h3] at h; injection h with h; subst h; exact ⟨.inr (.inr ⟨_, _, _, h1, rfl⟩), ⟨[], (List.append_nil _).symm⟩, .inl ⟨[], (List.append_nil _).symm⟩⟩
  | view i first length =>
    simp only [Stmt.run] at h
    cases h1 : c.bytes i with
    | error f => rw [h1] at h; cases h
    | ok p =>
      rw [h1, except_bind_ok] at h
      cases h3 : (Tuple.self p.1.e p.1.s p.1.ts).sub first length with
      | none => rw [h3] at h; cases h
      | some V => rw [h3] at h; injection h with h; subst h; exact ⟨.inl rfl, ⟨[_], rfl⟩, .inl ⟨[], (List.append_nil _).symm⟩⟩
  | setView m k v =>
    simp only [Stmt.run] at h
    cases h1 : c.viewAt m with
    | error f => rw [h1] at h; cases h
    | ok w =>
      rw [h1, except_bind_ok] at h
      cases h2 : c.bytes w.obj with
      | error f => rw [h2] at h; cases h
      | ok q =>
        rw [h2, except_bind_ok] at h
        cases h3 : w.view.set P k v q.2 with
        | error f => rw [h3] at h; cases h
        | ok m => rw [h3] at h; injection h with h; subst h; exact ⟨.inr (.inr ⟨_, _, _, h2, rfl⟩), ⟨[], (List.append_nil _).symm⟩, .inl ⟨[], (List.append_nil _).symm⟩⟩
  | bind i =>
    simp only [Stmt.run] at h
    cases h1 : c.bytes i with
    | error f => rw [h1] at h; cases h
    | ok p =>
      rw [h1, except_bind_ok] at h
      cases h3 : (Tuple.self p.1.e p.1.s p.1.ts).bind P p.2 with
      | error f => rw [h3] at h; cases h
      | ok vs => rw [h3] at h; injection h with h; subst h; exact ⟨.inl rfl, ⟨[], (List.append_nil _).symm⟩, .inl ⟨_, rfl⟩⟩
  | bindCopy i =>
    simp only [Stmt.run] at h
    cases h1 : c.bytes i with
    | error f => rw [h1] at h; cases h
    | ok p =>
      rw [h1, except_bind_ok] at h
      cases h3 : (Tuple.self p.1.e p.1.s p.1.ts).bind P p.2 with
      | error f => rw [h3] at h; cases h
      | ok vs => rw [h3] at h; injection h with h; subst h; exact ⟨.inr (.inl ⟨_, rfl⟩), ⟨[], (List.append_nil _).symm⟩, .inl ⟨_, rfl⟩⟩
  | bindView m =>
    simp only [Stmt.run] at h
    cases h1 : c.viewAt m with
    | error f => rw [h1] at h; cases h
    | ok w =>
      rw [h1, except_bind_ok] at h
      cases h2 : c.bytes w.obj with
      | error f => rw [h2] at h; cases h
      | ok q =>
        rw [h2, except_bind_ok] at h
        cases h3 : w.view.bind P q.2 with
        | error f => rw [h3] at h; cases h
        | ok vs => rw [h3] at h; injection h with h; subst h; exact ⟨.inl rfl, ⟨[], (List.append_nil _).symm⟩, .inl ⟨_, rfl⟩⟩
  | get i k =>
    simp only [Stmt.run] at h
    cases h1 : c.bytes i with
    | error f => rw [h1] at h; cases h
    | ok p =>
      rw [h1, except_bind_ok] at h
      cases h3 : (Tuple.self p.1.e p.1.s p.1.ts).get P k p.2 with
      | error f => rw [h3] at h; cases h
      | ok v => rw [h3] at h; injection h with h; subst h; exact ⟨.inl rfl, ⟨[], (List.append_nil _).symm⟩, .inl ⟨[], (List.append_nil _).symm⟩⟩
  | getView m k =>
    simp only [Stmt.run] at h
    cases h1 : c.viewAt m with
    | error f => rw [h1] at h; cases h
    | ok w =>
      rw [h1, except_bind_ok] at h
      cases h2 : c.bytes w.obj with
      | error f => rw [h2] at h; cases h
      | ok q =>
        rw [h2, except_bind_ok] at h
        cases h3 : w.view.get P k q.2 with
        | error f => rw [h3] at h; cases h
        | ok v => rw [h3] at h; injection h with h; subst h; exact ⟨.inl rfl, ⟨[], (List.append_nil _).symm⟩, .inl ⟨[], (List.append_nil _).symm⟩⟩

theorem run_names {st : Stmt} {c c' : Store} (h : st.run P c = .ok c') {n : Nat} (hn : n < c.names.length) (ha : ¬ Assigns n st) :
    n < c'.names.length ∧ c'.names[n]? = c.names[n]? := by
  rcases (run_shape h).2.2 with ⟨vs, h1⟩ | ⟨m, v, rfl, h1⟩
  · rw [h1]
    exact ⟨by rw [List.length_append]; omega, List.getElem?_append_left hn⟩
  · rw [h1, List.getElem?_set, if_neg (show ¬ m = n from ha)]
    exact ⟨by simpa using hn, rfl⟩

/-- A tuple which has been destroyed stays so. -/
theorem run_dead {st : Stmt} {c c' : Store} (h : st.run P c = .ok c') {i : Nat} (hd : c.bytes i = .error .dangling) : c'.bytes i = .error .dangling := by
  have hi : ∃ t, c.tuples[i]? = some t ∧ t.mem = none := by
    unfold Store.bytes at hd
    cases h1 : c.tuples[i]? with
    | none => rw [h1] at hd; cases hd
    | some t =>
      rw [h1] at hd
      cases h2 : t.mem with
      | none => exact ⟨t, rfl, h2⟩
      | some mem => simp only [h2] at hd; cases hd
  obtain ⟨t, h1, h2⟩ := hi
  have key : c'.tuples[i]? = some t := by
    rcases (run_shape h).1 with h3 | ⟨u, h3⟩ | ⟨j, p, u, h4, h3⟩
    · rw [h3]; exact h1
    · obtain ⟨hi, _⟩ := List.getElem?_eq_some_iff.1 h1
      rw [h3, List.getElem?_append_left hi]; exact h1
    · rw [h3, List.getElem?_set]
      by_cases hj : j = i
      · subst hj; rw [hd] at h4; cases h4
      · rw [if_neg hj]; exact h1
  unfold Store.bytes
  rw [key]
  simp only [h2]

theorem exec_dead {i : Nat} : ∀ {sts : List Stmt} {c c' : Store}, Store.exec P sts c = .ok c' → c.bytes i = .error .dangling →
    c'.bytes i = .error .dangling
  | [], c, c', h, hd => by injection h with h; subst h; exact hd
  | st :: sts, c, c', h, hd => by
    unfold Store.exec at h
    cases h1 : st.run P c with
    | error f => rw [h1] at h; cases h
    | ok c1 => rw [h1, except_bind_ok] at h; exact exec_dead h (run_dead h1 hd)

end Upd
