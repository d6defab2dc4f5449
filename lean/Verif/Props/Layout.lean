import Verif.Spec.Layout
import Verif.Props.Custom

/-!
# C83: classes derived from `buffered_dispatcher` and from other classes
-/

namespace Upd
open Spec TypeList

variable {σ : Type} {P : Platform} {K : Keyring} {f : Features} {defs : Nat → List Val → Eff σ (Option Val)} {shared : Bool}

theorem roundUp_ge {n a : Nat} (ha : 1 ≤ a) : n ≤ roundUp n a := by
  unfold roundUp
  have := Nat.div_add_mod (n + a - 1) a
  have := Nat.mod_lt (n + a - 1) (by omega : 0 < a)
  rw [Nat.mul_comm]
  omega

theorem roundUp_zero {a : Nat} (ha : 1 ≤ a) : roundUp 0 a = 0 := by
  unfold roundUp
  rw [Nat.div_eq_of_lt (by omega)]
  omega

theorem place_ge {d : Nat} {b : Base} (h : Base.Real b) : d ≤ (b.place d).2 := by
  cases b with
  | empty => exact Nat.le_refl _
  | solid n a dy => have := roundUp_ge (n := d) h.2; simp only [Base.place]; omega

/-- Without a primary base class, or with one which comes later or at its place. -/
theorem placeBases_offset {n a : Nat} (hn : 1 ≤ n) (ha : 1 ≤ a) {after : List Base} : ∀ {before : List Base} {d : Nat}, (∀ b ∈ before, Base.Real b) →
    ((placeBases d none (before ++ .solid n a false :: after))[before.length]?.getD 0 = 0 ↔ d = 0 ∧ ∀ b ∈ before, b = .empty)
  | [], d, _ => by
    have := roundUp_ge (n := d) ha
    simp only [List.nil_append, placeBases, Base.place, List.length_nil, List.getElem?_cons_zero, Option.getD_some]
    constructor
    · intro h; exact ⟨by omega, by simp⟩
    · rintro ⟨rfl, -⟩; exact roundUp_zero ha
  | b :: before, d, h => by
    simp only [List.cons_append, placeBases, List.length_cons, List.getElem?_cons_succ]
    rw [placeBases_offset hn ha (fun b hb => h b (by simp [hb]))]
    cases b with
    | empty => simp [Base.place]
    | solid m c dy =>
      have hr := h (.solid m c dy) (by simp)
      simp only [Base.place]
      constructor
      · rintro ⟨h1, -⟩; have := hr.1; omega
      · rintro ⟨-, h2⟩; have := h2 (.solid m c dy) (by simp); cases this

theorem placeBases_primary {n a : Nat} (ha : 1 ≤ a) {after : List Base} : ∀ {before : List Base} {d j : Nat}, 1 ≤ d → j ≠ before.length →
    (∀ b ∈ before, Base.Real b) → (placeBases d (some j) (before ++ .solid n a false :: after))[before.length]?.getD 0 ≠ 0
  | [], d, j, hd, hj, _ => by
    have := roundUp_ge (n := d) ha
    cases j with
    | zero => exact absurd rfl hj
    | succ j =>
      simp only [List.nil_append, placeBases, Base.place, List.length_nil, List.getElem?_cons_zero, Option.getD_some]
      omega
  | b :: before, d, j, hd, hj, h => by
    have hb : ∀ b ∈ before, Base.Real b := fun b hb => h b (by simp [hb])
    cases j with
    | zero =>
      simp only [List.cons_append, placeBases, List.length_cons, List.getElem?_cons_succ]
      exact placeBases_none ha hd hb
    | succ j =>
      simp only [List.cons_append, placeBases, List.length_cons, List.getElem?_cons_succ]
      exact placeBases_primary ha (Nat.le_trans hd (place_ge (h b (by simp)))) (by simpa using hj) hb
where
  placeBases_none {n a : Nat} (ha : 1 ≤ a) {after : List Base} : ∀ {before : List Base} {d : Nat}, 1 ≤ d → (∀ b ∈ before, Base.Real b) →
      (placeBases d none (before ++ .solid n a false :: after))[before.length]?.getD 0 ≠ 0
    | [], d, hd, _ => by
      have := roundUp_ge (n := d) ha
      simp only [List.nil_append, placeBases, Base.place, List.length_nil, List.getElem?_cons_zero, Option.getD_some]
      omega
    | b :: before, d, hd, h => by
      simp only [List.cons_append, placeBases, List.length_cons, List.getElem?_cons_succ]
      exact placeBases_none ha (Nat.le_trans hd (place_ge (h b (by simp)))) fun b hb => h b (by simp [hb])

/-- C83. The subobject is at the address of the object if and only if neither the class nor its base classes have virtual functions and the base classes before
`buffered_dispatcher` are empty. -/
theorem C83_offset {C : UserClass} (h : UserClass.Real C) : C.offset = 0 ↔ UserClass.Plain C := by
  unfold UserClass.offset UserClass.offsets UserClass.Plain
  cases hf : C.bases.findIdx? Base.isDynamic with
  | none =>
    have hnd : ∀ b ∈ C.bases, b.isDynamic = false := by simpa using List.findIdx?_eq_none_iff.1 hf
    have hnd' : ∀ b ∈ C.before ++ C.after, b.isDynamic = false := by
      intro b hb
      refine hnd b ?_
      unfold UserClass.bases
      simp only [List.mem_append, List.mem_cons] at hb ⊢
      rcases hb with hb | hb
      · exact .inl hb
      · exact .inr (.inr hb)
    simp only [UserClass.bases]
    rw [placeBases_offset h.size h.align h.before]
    cases hv : C.hasVirtual
    · simp only [Bool.false_eq_true, if_false, true_and]
      exact ⟨fun h2 => ⟨hnd', h2⟩, fun h2 => h2.2⟩
    · have := h.pointer
      simp only [if_true, Bool.true_eq_false, false_and, iff_false, not_and]
      omega
  | some j =>
    obtain ⟨hj, hd, -⟩ := List.findIdx?_eq_some_iff_getElem.1 hf
    have hat : C.bases[j]? = some C.bases[j] := List.getElem?_eq_getElem hj
    have hne : j ≠ C.before.length := by
      rintro rfl
      simp [UserClass.bases, Base.isDynamic] at hd
    have hmem : C.bases[j] ∈ C.before ++ C.after := by
      have hm := List.getElem_mem hj
      have : C.bases[j] ≠ .solid C.size C.align false := by intro he; rw [he] at hd; cases hd
      unfold UserClass.bases at hm ⊢
      simp only [List.mem_append, List.mem_cons] at hm ⊢
      rcases hm with hm | hm | hm
      · exact .inl hm
      · exact absurd hm this
      · exact .inr hm
    have hreal : Base.Real C.bases[j] := by
      rcases List.mem_append.1 hmem with hm | hm
      · exact h.before _ hm
      · exact h.after _ hm
    simp only [hat, Option.elim_some]
    have h1 : 1 ≤ C.bases[j].size := by
      cases hb : C.bases[j] with
      | empty => rw [hb] at hd; cases hd
      | solid n a dy => rw [hb] at hreal; exact hreal.1
    constructor
    · intro h0
      exact absurd h0 (placeBases_primary (n := C.size) h.align h1 hne h.before)
    · rintro ⟨-, h2, -⟩
      rw [h2 _ hmem] at hd; cases hd

theorem runIn_plain {C : UserClass} (h : C.offset = 0) (c : Call σ) : Call.runIn C P c = c.run P := by
  have hd : (C.derived : Eff (BState σ) Unit) = pure () := by unfold UserClass.derived; rw [if_pos h]; rfl
  have hp : ∀ x, C.put P x = (Buf.put P x : Eff (BState σ) Status) := by
    intro x; unfold UserClass.put; rw [hd]; rfl
  have hg : C.get = (Buf.get : Eff (BState σ) Byte) := by
    funext st; unfold UserClass.get; rw [hd]; split <;> rfl
  match c with
  | .io (.put x) => simp only [Call.runIn, hp, Call.run, Io.run]
  | .io .get => simp only [Call.runIn, hg, Call.run, Io.run]
  | .io .isLoaded | .replace .. | .replaceStatic .. | .pyReplace .. => rfl

theorem runIn_put {C : UserClass} (h : C.offset ≠ 0) (x : Byte) (st : BState σ) : Call.runIn C P (.io (.put x)) st = .fault .badCast := by
  unfold Call.runIn UserClass.put UserClass.derived
  rw [if_neg h]; rfl

/-- C83, full statement: whatever the other base classes and the virtual functions of a class with its own buffers, an object of that class behaves like the provided classes, for any
sequence of calls (cf. `C60_custom`). -/
def C83_Statement : Prop :=
  ∀ (σ : Type) (P : Platform) (K : Keyring) (f : Features) (defs : Nat → List Val → Eff σ (Option Val)) (C : UserClass) (shared : Bool) (ibuf obuf : Mem)
    (sizeMax : Nat) (w : σ) (calls : List (Call σ)), UserClass.Real C → Setup P K f defs → AllDecodeSafe P K → K.idxBytes ≤ ibuf.length →
    RequestsWithin K ibuf.length → ResponsesWithin K (if shared then ibuf.length else obuf.length) → (∀ c ∈ calls, c.Ok P K f) →
    (shared = true → DrainedCalls P calls (Buf.custom K f defs sizeMax shared ibuf obuf, w)) →
    SameOutcome (runAll (Call.runIn C P) calls (Buf.custom K f defs sizeMax shared ibuf obuf, w)) (runAll Call.runM calls ((protoOf K defs, Machine.init), w))

/-- C83 for classes without virtual functions whose base classes before `buffered_dispatcher` are empty. Missing: the other ones, see `C83_exact`. -/
theorem C83_plain_partial (h : Setup P K f defs) (hs : AllDecodeSafe P K) {C : UserClass} (hC : UserClass.Real C) (hplain : UserClass.Plain C) {ibuf obuf : Mem}
    (hi : K.idxBytes ≤ ibuf.length) (hq : RequestsWithin K ibuf.length) (ho : ResponsesWithin K (if shared then ibuf.length else obuf.length))
    (sizeMax : Nat) (w : σ) (calls : List (Call σ)) (hok : ∀ c ∈ calls, c.Ok P K f)
    (hd : shared = true → DrainedCalls P calls (Buf.custom K f defs sizeMax shared ibuf obuf, w)) :
    SameOutcome (runAll (Call.runIn C P) calls (Buf.custom K f defs sizeMax shared ibuf obuf, w))
      (runAll Call.runM calls ((protoOf K defs, Machine.init), w)) := by
  have : (Call.runIn C P : Call σ → _) = Call.run P := funext fun c => runIn_plain ((C83_offset hC).2 hplain) c
  rw [this]
  exact C60_custom h hs hi hq ho sizeMax w calls hok hd

/-- An empty dispatcher stays empty as long as nothing is put. -/
theorem runIn_quiet {C : UserClass} {c : Call σ} (hc : c.isPut = false) {b : Buf σ} (hb : b.isLoaded = false) (w : σ) :
    Call.runIn C P c (b, w) = c.run P (b, w) ∧ ∀ o st, c.run P (b, w) = .ret o st → st.1.isLoaded = false := by
  match c, hc with
  | .io .get, _ =>
    have hg : C.get (b, w) = (Buf.get (b, w) : Res (BState σ) Byte) := by simp [UserClass.get, hb]
    have hr : Buf.get (b, w) = .ret 0#8 (b, w) := by unfold Buf.get; simp only [hb]; rfl
    refine ⟨?_, ?_⟩
    · show (C.get >>= fun x => pure (Obs.byte x)) (b, w) = (Buf.get >>= fun x => pure (Obs.byte x)) (b, w)
      rw [hr] at hg
      rw [Eff.bind_ret hg, Eff.bind_ret hr]
    · intro o st h
      have h' : (Buf.get >>= fun x => pure (Obs.byte x)) (b, w) = .ret o st := h
      rw [Eff.bind_ret hr] at h'
      cases h'
      exact hb
  | .io .isLoaded, _ => exact ⟨rfl, fun o st h => by cases h; exact hb⟩
  | .replace i cb, _ => exact ⟨rfl, fun o st h => by cases h; exact hb⟩
  | .replaceStatic i cb, _ => exact ⟨rfl, fun o st h => by cases h; exact hb⟩
  | .pyReplace k fn, _ =>
    refine ⟨rfl, fun o st h => ?_⟩
    simp only [Call.run] at h
    cases hp : b.pyReplace k fn with
    | error e => rw [hp] at h; cases h
    | ok b' =>
      rw [hp] at h; cases h
      unfold Buf.pyReplace Buf.assign at hp
      split at hp
      · cases hp; exact hb
      · cases hp

theorem quiet_run {P : Platform} {C : UserClass} : ∀ {pre : List (Call σ)} {b : Buf σ} {w : σ}, (∀ c ∈ pre, c.isPut = false) → b.isLoaded = false →
    runAll (Call.runIn C P) pre (b, w) = runAll (Call.run P) pre (b, w) ∧
    ∀ os st, runAll (Call.run P) pre (b, w) = .ret os st → ∀ x post, C.offset ≠ 0 →
      runAll (Call.runIn C P) (pre ++ .io (.put x) :: post) (b, w) = .fault .badCast
  | [], b, w, _, _ => ⟨rfl, fun os st _ x post ho => Eff.bind_fault (runIn_put ho x (b, w))⟩
  | c :: pre, b, w, hp, hb => by
    obtain ⟨h1, h2⟩ := runIn_quiet (C := C) (P := P) (hp c (by simp)) hb w
    have hp' : ∀ c ∈ pre, c.isPut = false := fun c hc => hp c (by simp [hc])
    show (Call.runIn C P c >>= fun o => runAll (Call.runIn C P) pre >>= fun os => pure (o :: os)) (b, w) =
        (c.run P >>= fun o => runAll (Call.run P) pre >>= fun os => pure (o :: os)) (b, w) ∧
      ∀ os st, (c.run P >>= fun o => runAll (Call.run P) pre >>= fun os => pure (o :: os)) (b, w) = .ret os st → ∀ x post, C.offset ≠ 0 →
        (Call.runIn C P c >>= fun o => runAll (Call.runIn C P) (pre ++ .io (.put x) :: post) >>= fun os => pure (o :: os)) (b, w) = .fault .badCast
    cases hr : c.run P (b, w) with
    | fault e =>
      refine ⟨by rw [Eff.bind_fault hr, Eff.bind_fault (h1.trans hr)], fun os st h => ?_⟩
      rw [Eff.bind_fault hr] at h; cases h
    | threw st1 =>
      refine ⟨by rw [Eff.bind_threw hr, Eff.bind_threw (h1.trans hr)], fun os st h => ?_⟩
      rw [Eff.bind_threw hr] at h; cases h
    | ret o st1 =>
      obtain ⟨ih1, ih2⟩ := quiet_run (b := st1.1) (w := st1.2) hp' (h2 o st1 hr)
      refine ⟨?_, fun os st h x post ho => ?_⟩
      · rw [Eff.bind_ret hr, Eff.bind_ret (h1.trans hr)]
        show (runAll (Call.runIn C P) pre >>= fun os => pure (o :: os)) (st1.1, st1.2) = (runAll (Call.run P) pre >>= fun os => pure (o :: os)) (st1.1, st1.2)
        cases hq : runAll (Call.run P) pre (st1.1, st1.2) with
        | fault e => rw [Eff.bind_fault hq, Eff.bind_fault (ih1.trans hq)]
        | threw st2 => rw [Eff.bind_threw hq, Eff.bind_threw (ih1.trans hq)]
        | ret os st2 => rw [Eff.bind_ret hq, Eff.bind_ret (ih1.trans hq)]
      · rw [Eff.bind_ret hr] at h
        rw [Eff.bind_ret (h1.trans hr)]
        cases hq : runAll (Call.run P) pre (st1.1, st1.2) with
        | fault e => rw [Eff.bind_fault (show runAll (Call.run P) pre st1 = _ from hq)] at h; cases h
        | threw st2 => rw [Eff.bind_threw (show runAll (Call.run P) pre st1 = _ from hq)] at h; cases h
        | ret os2 st2 => exact Eff.bind_fault (ih2 os2 st2 hq x post ho)

/-- C83 for the other classes: up to the first byte given to the dispatcher nothing is wrong; the first `put` is undefined behaviour, always. -/
theorem C83_exact {C : UserClass} (hC : UserClass.Real C) (hnot : ¬ UserClass.Plain C) (sizeMax : Nat) (ibuf obuf : Mem) (w : σ)
    {pre : List (Call σ)} (hpre : ∀ c ∈ pre, c.isPut = false) :
    runAll (Call.runIn C P) pre (Buf.custom K f defs sizeMax shared ibuf obuf, w) = runAll (Call.run P) pre (Buf.custom K f defs sizeMax shared ibuf obuf, w) ∧
    ∀ os st, runAll (Call.run P) pre (Buf.custom K f defs sizeMax shared ibuf obuf, w) = .ret os st → ∀ x post,
      runAll (Call.runIn C P) (pre ++ .io (.put x) :: post) (Buf.custom K f defs sizeMax shared ibuf obuf, w) = .fault .badCast := by
  obtain ⟨h1, h2⟩ := quiet_run (C := C) (P := P) (b := Buf.custom K f defs sizeMax shared ibuf obuf) (w := w) hpre rfl
  exact ⟨h1, fun os st h x post => h2 os st h x post (fun h0 => hnot ((C83_offset hC).1 h0))⟩

/-- `class my_dispatcher : public upd::buffered_dispatcher<my_dispatcher, ...>` with a virtual destructor, on a platform with 8-byte pointers. -/
private def withVirtual : UserClass := ⟨8, true, [], 64, 8, []⟩

/-- `class my_dispatcher : public serial_port, public upd::buffered_dispatcher<my_dispatcher, ...>`, where `serial_port` has a data member of 4 bytes. -/
private def afterPort : UserClass := ⟨8, false, [.solid 4 4 false], 64, 8, []⟩

/-- The same the other way round, after an empty class. -/
private def beforePort : UserClass := ⟨8, false, [.empty], 64, 8, [.solid 4 4 false]⟩

example : withVirtual.offset = 8 ∧ afterPort.offset = 8 ∧ beforePort.offset = 0 := by decide

private theorem withVirtual_real : UserClass.Real withVirtual := ⟨by decide, by decide, by decide, by simp [withVirtual], by simp [withVirtual]⟩
private theorem afterPort_real : UserClass.Real afterPort := ⟨by decide, by decide, by decide, by simp [afterPort, Base.Real], by simp [afterPort]⟩
private theorem beforePort_real : UserClass.Real beforePort :=
  ⟨by decide, by decide, by decide, by simp [beforePort, Base.Real], by simp [beforePort, Base.Real]⟩

theorem C83_full_statement_is_false : ¬ C83_Statement := by
  intro h
  have := h Unit pc getRing .any getDefs withVirtual false (List.replicate 8 0#8) (List.replicate 16 0#8) 255 () [.io (.put 0#8)] withVirtual_real
    (get_setting .any).setup (by simp [AllDecodeSafe, getRing, DecodeSafeAll]) (by decide) (by simp [RequestsWithin, getRing, wireSizes]; decide)
    (by simp [ResponsesWithin, getRing, retSize, wireSize]) (by simp [Call.Ok]) (fun h => by cases h)
  have h1 := (C83_exact (P := pc) (K := getRing) (f := .any) (defs := getDefs) (shared := false) withVirtual_real (by simp [UserClass.Plain, withVirtual]) 255
    (List.replicate 8 0#8) (List.replicate 16 0#8) () (pre := []) (by simp)).2 [] _ rfl 0#8 []
  rw [show ([] : List (Call Unit)) ++ [.io (.put 0#8)] = [.io (.put 0#8)] from rfl] at h1
  rw [h1] at this
  exact this

/-- `C83_plain_partial`: the dispatcher comes after an empty class and before the port. -/
example (ibuf obuf : Mem) (hi : ibuf.length = 8) (ho : obuf.length = 16) (calls : List (Call Unit)) (hok : ∀ c ∈ calls, c.Ok pc getRing .any) :
    SameOutcome (runAll (Call.runIn beforePort pc) calls (Buf.custom getRing .any getDefs 255 false ibuf obuf, ()))
      (runAll Call.runM calls ((protoOf getRing getDefs, Machine.init), ())) :=
  C83_plain_partial (get_setting .any).setup (by simp [AllDecodeSafe, getRing, DecodeSafeAll]) beforePort_real
    (by simp [UserClass.Plain, beforePort, Base.isDynamic]) (by rw [hi]; decide) (by simp [RequestsWithin, getRing, wireSizes, hi]; decide)
    (by simp [ResponsesWithin, getRing, retSize, wireSize, ho]) 255 () calls hok (fun h => by cases h)

/-- `C83_exact`: the dispatcher comes after the port; it can be asked for bytes, then it receives one. -/
example (ibuf obuf : Mem) (x : Byte) : runAll (Call.runIn afterPort pc) [.io .isLoaded, .io .get, .io (.put x), .io .get]
    (Buf.custom getRing .any getDefs 255 false ibuf obuf, ()) = .fault .badCast :=
  (C83_exact (P := pc) (K := getRing) (f := .any) (defs := getDefs) (shared := false) afterPort_real (by simp [UserClass.Plain, afterPort]) 255
    ibuf obuf () (pre := [.io .isLoaded, .io .get]) (by simp [Call.isPut])).2 _ _ rfl x [.io .get]

example : UserClass.Plain beforePort ∧ ¬ UserClass.Plain afterPort :=
  ⟨(C83_offset beforePort_real).1 (by decide), fun h => absurd ((C83_offset afterPort_real).2 h) (by decide)⟩

end Upd
