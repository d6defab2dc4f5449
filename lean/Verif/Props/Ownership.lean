import Verif.Model.Ownership
import Verif.Props.Action

/-!
# Whose callback object an action calls (C55)
-/

namespace Upd
open Spec

variable {S σ τ τ' α β : Type}

/-- Two outcomes are the same (value, exception or fault), and leave states related by `R`. -/
def Res.Agree (R : τ → τ' → Prop) : Res τ α → Res τ' α → Prop
  | .ret a t, .ret a' t' => a = a' ∧ R t t'
  | .threw t, .threw t' => R t t'
  | .fault f, .fault f' => f = f'
  | _, _ => False

/-- A source or a destination which acts on the rest of the world. -/
def restLens : Lens (Owning S σ) σ := ⟨fun st => st.rest, fun w st => { st with rest := w }⟩

/-- `a(src, dest)`, where `src` and `dest` do not touch the callback objects. -/
def runAction (P : Platform) (a : Action (Owning S σ)) (src : Eff σ Byte) (dest : Byte → Eff σ Unit) : Eff (Owning S σ) Unit :=
  a.invoke P (Lens.whole _) (Eff.zoom restLens src) (fun x => Eff.zoom restLens (dest x))

/-- C55 as stated: once an action has been built from an object, whatever becomes of this object (`v`; `none` if it is destroyed), invoking the
action has the same effect. -/
def C55_Statement : Prop :=
  ∀ (S σ : Type) (P : Platform) (e : Endian) (s : Mode) (F : Functor S σ) (cat : Category) (st st1 : Owning S σ) (v : Option S) (src : Eff σ Byte)
    (dest : Byte → Eff σ Unit), F.store cat st = .ok st1 →
    Res.Agree (fun t t' => t.own = t'.own ∧ t.rest = t'.rest) (runAction P (F.action cat e s) src dest st1)
      (runAction P (F.action cat e s) src dest { st1 with var := v })

/-- A callback object `uint8_t operator()() { return value++; }`. -/
def counter : Functor Nat (List Byte) := ⟨⟨[], some (.uint 1)⟩, fun _ st => .ret (some (.int st.1)) (st.1 + 1, st.2), id⟩

/-- C55 does not hold for lvalues: `action{f, ...}` deduces `F` as a reference type, hence `F ftor` (include/upd/action.hpp:81) is a reference. -/
theorem C55_full_statement_is_false : ¬ C55_Statement := by
  intro h
  have h1 := h Nat (List Byte) pc .little .twosComplement counter .lvalue ⟨some 1, none, []⟩ ⟨some 1, none, []⟩ (some 7) (fun w => .threw w)
    (fun x w => .ret () (w ++ [x])) rfl
  have h2 : runAction pc (counter.action .lvalue .little .twosComplement) (fun w => .threw w) (fun x w => .ret () (w ++ [x])) ⟨some 1, none, []⟩ =
    .ret () ⟨some 2, none, [1#8]⟩ := rfl
  have h3 : runAction pc (counter.action .lvalue .little .twosComplement) (fun w => .threw w) (fun x w => .ret () (w ++ [x])) ⟨some 7, none, []⟩ =
    .ret () ⟨some 8, none, [7#8]⟩ := rfl
  rw [h2, h3] at h1
  exact absurd h1.2.2 (by decide)

/-! ### Actions on two related worlds -/

/-- From related states, same outcome and related states. -/
def Sim (R : τ → τ' → Prop) (x : Eff τ α) (y : Eff τ' α) : Prop := ∀ t t', R t t' → Res.Agree R (x t) (y t')

theorem Sim.pure {R : τ → τ' → Prop} (a : α) : Sim R (pure a : Eff τ α) (pure a) := fun _ _ h => ⟨rfl, h⟩

theorem Sim.bind {R : τ → τ' → Prop} {x : Eff τ α} {y : Eff τ' α} {f : α → Eff τ β} {g : α → Eff τ' β} (h : Sim R x y)
    (h' : ∀ a, Sim R (f a) (g a)) : Sim R (x >>= f) (y >>= g) := by
  intro t t' ht
  have h := h t t' ht
  cases hx : x t with
  | ret a w =>
    cases hy : y t' with
    | ret a' w' =>
      rw [hx, hy] at h
      obtain ⟨rfl, h⟩ := h
      rw [Eff.bind_ret hx, Eff.bind_ret hy]
      exact h' a w w' h
    | threw w' => rw [hx, hy] at h; exact h.elim
    | fault f => rw [hx, hy] at h; exact h.elim
  | threw w =>
    cases hy : y t' with
    | ret a' w' => rw [hx, hy] at h; exact h.elim
    | threw w' => rw [hx, hy] at h; rw [Eff.bind_threw hx, Eff.bind_threw hy]; exact h
    | fault f => rw [hx, hy] at h; exact h.elim
  | fault f =>
    cases hy : y t' with
    | ret a' w' => rw [hx, hy] at h; exact h.elim
    | threw w' => rw [hx, hy] at h; exact h.elim
    | fault f => rw [hx, hy] at h; rw [Eff.bind_fault hx, Eff.bind_fault hy]; exact h

theorem Sim.lift {R : τ → τ' → Prop} (x : M α) : Sim R (Eff.lift x) (Eff.lift x) := by
  intro t t' h
  cases x with
  | ok a => exact ⟨rfl, h⟩
  | error f => rfl

theorem Sim.fillFrom {R : τ → τ' → Prop} {src : Eff τ Byte} {src' : Eff τ' Byte} (h : Sim R src src') : ∀ (n i : Nat) (mem : Mem),
    Sim R (Upd.fillFrom src n i mem) (Upd.fillFrom src' n i mem)
  | 0, _, mem => Sim.pure mem
  | n + 1, i, _ => Sim.bind h fun _ => Sim.bind (Sim.lift _) fun mem => Sim.fillFrom h n (i + 1) mem

theorem Sim.outAll {R : τ → τ' → Prop} {dest : Byte → Eff τ Unit} {dest' : Byte → Eff τ' Unit} (h : ∀ b, Sim R (dest b) (dest' b)) :
    ∀ bs, Sim R (Upd.outAll dest bs) (Upd.outAll dest' bs)
  | [] => Sim.pure ()
  | b :: bs => Sim.bind (h b) fun _ => Sim.outAll h bs

theorem Sim.call {σ' : Type} {R : τ → τ' → Prop} (P : Platform) (e : Endian) (s : Mode) {cb : Callback σ} {cb' : Callback σ'}
    (hg : cb.sig = cb'.sig) {L : Lens τ σ} {L' : Lens τ' σ'} (hcb : ∀ args, Sim R (Eff.zoom L (cb.fn args)) (Eff.zoom L' (cb'.fn args)))
    {src : Eff τ Byte} {src' : Eff τ' Byte} (hs : Sim R src src') {dest : Byte → Eff τ Unit} {dest' : Byte → Eff τ' Unit}
    (hd : ∀ b, Sim R (dest b) (dest' b)) : Sim R (Upd.call P e s cb L src dest) (Upd.call P e s cb' L' src' dest') := by
  obtain ⟨g, f⟩ := cb
  obtain ⟨g', f'⟩ := cb'
  obtain rfl : g = g' := hg
  unfold Upd.call
  refine Sim.bind (Sim.bind (Sim.lift _) fun mem => Sim.fillFrom hs _ _ mem) fun mem => ?_
  simp only [View.invoke]
  intro t t' ht
  cases hv : (Tuple.self e s g.params).gets P (Tuple.self e s g.params).indices mem with
  | error flt => exact rfl
  | ok vs =>
    refine Sim.bind (x := Eff.zoom L (f vs)) (y := Eff.zoom L' (f' vs)) (hcb vs) (fun r => ?_) t t' ht
    cases hr : g.ret with
    | none =>
      cases r with
      | none => exact Sim.pure ()
      | some v => exact Sim.lift _
    | some t =>
      cases r with
      | none => exact Sim.lift _
      | some v => exact Sim.bind (Sim.lift _) fun out => Sim.outAll hd out

theorem Sim.rest {R : Owning S σ → Owning S σ → Prop} (h1 : ∀ t t', R t t' → t.rest = t'.rest)
    (h2 : ∀ t t' w, R t t' → R { t with rest := w } { t' with rest := w }) (x : Eff σ α) :
    Sim R (Eff.zoom restLens x) (Eff.zoom restLens x) := by
  intro t t' h
  have e : t'.rest = t.rest := (h1 t t' h).symm
  unfold Eff.zoom restLens
  simp only [e]
  cases x t.rest with
  | ret a w => exact ⟨rfl, h2 _ _ _ h⟩
  | threw w => exact h2 _ _ _ h
  | fault f => rfl

/-! ### C55 -/

/-- C55, partial: the argument is an rvalue. In any state `st1` of the program after the construction (`C55_rvalue_value`), whatever becomes of the original object, invoking the action has the same effect; and the original
object is not affected by the action. Missing: lvalues, for which it does not hold (`C55_lvalue_current_value`). -/
theorem C55_rvalue_partial (P : Platform) (e : Endian) (s : Mode) (F : Functor S σ) (st1 : Owning S σ)
    (v : Option S) (src : Eff σ Byte) (dest : Byte → Eff σ Unit) :
    Res.Agree (fun t t' => t.own = t'.own ∧ t.rest = t'.rest ∧ t.var = st1.var ∧ t'.var = v) (runAction P (F.action .rvalue e s) src dest st1)
      (runAction P (F.action .rvalue e s) src dest { st1 with var := v }) := by
  refine Sim.call P e s rfl (fun args => ?_) (Sim.rest ?_ ?_ _) (fun _ => Sim.rest ?_ ?_ _) st1 _ ⟨rfl, rfl, rfl, rfl⟩
  · rw [zoom_whole]
    rintro ⟨x, o, w⟩ ⟨x', o', w'⟩ ⟨h1, h2, h3, h4⟩
    simp only at h1 h2 h3 h4
    subst h1 h2 h3 h4
    simp only [Functor.stored]
    cases o with
    | none => rfl
    | some o =>
      simp only
      cases F.app args (o, w) with
      | ret r p => exact ⟨rfl, rfl, rfl, rfl, rfl⟩
      | threw p => exact ⟨rfl, rfl, rfl, rfl⟩
      | fault f => rfl
  · exact fun _ _ h => h.2.1
  · exact fun _ _ _ h => ⟨h.1, rfl, h.2.2.1, h.2.2.2⟩
  · exact fun _ _ h => h.2.1
  · exact fun _ _ _ h => ⟨h.1, rfl, h.2.2.1, h.2.2.2⟩

/-- C55, what an action built from an rvalue calls: the value that the object had. -/
theorem C55_rvalue_value (F : Functor S σ) {st st1 : Owning S σ} (h : F.store .rvalue st = .ok st1) : st1.own = st.var ∧ st1.rest = st.rest := by
  unfold Functor.store at h
  cases hv : st.var with
  | none => rw [hv] at h; cases h
  | some x => rw [hv] at h; cases h; exact ⟨rfl, rfl⟩

/-- C55, what happens for lvalues: at any time, the action behaves as one which has been built from an rvalue with the current value of the original
object, and modifies the latter. -/
theorem C55_lvalue_current_value (P : Platform) (e : Endian) (s : Mode) (F : Functor S σ) (x : S) (o v : Option S) (w : σ)
    (src : Eff σ Byte) (dest : Byte → Eff σ Unit) :
    Res.Agree (fun t t' => t.var = t'.own ∧ t.rest = t'.rest) (runAction P (F.action .lvalue e s) src dest ⟨some x, o, w⟩)
      (runAction P (F.action .rvalue e s) src dest ⟨v, some x, w⟩) := by
  refine Sim.call (R := fun t t' => t.var = t'.own ∧ t.rest = t'.rest) (cb := F.stored .lvalue) (cb' := F.stored .rvalue) P e s rfl (fun args => ?_) (Sim.rest ?_ ?_ _)
    (fun _ => Sim.rest ?_ ?_ _) ⟨some x, o, w⟩ ⟨v, some x, w⟩ ⟨rfl, rfl⟩
  · rw [zoom_whole, zoom_whole]
    rintro ⟨x, o, w⟩ ⟨x', o', w'⟩ ⟨h1, h2⟩
    simp only at h1 h2
    subst h1 h2
    simp only [Functor.stored]
    cases x with
    | none => rfl
    | some x =>
      simp only
      cases F.app args (x, w) with
      | ret r p => exact ⟨rfl, rfl, rfl⟩
      | threw p => exact ⟨rfl, rfl⟩
      | fault f => rfl
  · exact fun _ _ h => h.2
  · exact fun _ _ _ h => ⟨h.1, rfl⟩
  · exact fun _ _ h => h.2
  · exact fun _ _ _ h => ⟨h.1, rfl⟩

/-- C55, lvalues, once the lifetime of the original object has ended: a request makes the action access a dead object. -/
theorem C55_lvalue_dangling {P : Platform} (hP : P.Valid) {e : Endian} {s : Mode} (hs : Supported P e s) (F : Functor S σ) (hg : SigOk F.sig)
    {args : List Val} (hf : Val.FitsAll (Safe P s) F.sig.params args) {src : Eff σ Byte} {w w1 : σ}
    (hy : Yields src w (wires e s F.sig.params args) w1) (o : Option S) (dest : Byte → Eff σ Unit) :
    runAction P (F.action .lvalue e s) src dest ⟨none, o, w⟩ = .fault .dangling := by
  have hy' : Yields (Eff.zoom restLens src) (⟨none, o, w⟩ : Owning S σ) (wires e s F.sig.params args) ⟨none, o, w1⟩ := by
    clear hf
    generalize wires e s F.sig.params args = bs at hy
    induction hy with
    | nil => exact .nil _
    | cons h _ ih => exact .cons (by unfold Eff.zoom restLens; simp only [h]) ih
  show Upd.call P e s (F.stored .lvalue) _ _ _ _ = _
  rw [call_args (cb := F.stored .lvalue) hP hs hg _ hf hy']
  rfl

example : Res.Agree (fun t t' => t.own = t'.own ∧ t.rest = t'.rest ∧ t.var = some 1 ∧ t'.var = some 9)
    (runAction pc (counter.action .rvalue .big .twosComplement) (fun w => .threw w) (fun x w => .ret () (w ++ [x])) ⟨some 1, some 1, []⟩)
    (runAction pc (counter.action .rvalue .big .twosComplement) (fun w => .threw w) (fun x w => .ret () (w ++ [x])) ⟨some 9, some 1, []⟩) :=
  C55_rvalue_partial pc .big .twosComplement counter ⟨some 1, some 1, []⟩ (some 9) _ _

example : runAction pc (counter.action .lvalue .big .twosComplement) (fun w => .threw w) (fun x w => .ret () (w ++ [x])) ⟨none, none, []⟩ =
    .fault .dangling :=
  C55_lvalue_dangling pc_valid (pc_supported _ _) counter (by simp [counter, SigOk, Ty.WFs, Ty.WF, PackedAll, Packed]) (args := [])
    (by simp [counter, Val.FitsAll]) (.nil _) none _

example : (⟨some 7, some 4, []⟩ : Owning Nat (List Byte)).own = some 4 ∧ (⟨some 7, some 4, []⟩ : Owning Nat (List Byte)).rest = [] :=
  C55_rvalue_value (⟨⟨[], none⟩, fun _ => pure none, fun _ => 7⟩ : Functor Nat (List Byte)) (st := ⟨some 4, none, []⟩) rfl

example : Res.Agree (fun t t' => t.var = t'.own ∧ t.rest = t'.rest)
    (runAction pc (counter.action .lvalue .big .twosComplement) (fun w => .threw w) (fun x w => .ret () (w ++ [x])) ⟨some 3, none, []⟩)
    (runAction pc (counter.action .rvalue .big .twosComplement) (fun w => .threw w) (fun x w => .ret () (w ++ [x])) ⟨some 8, some 3, []⟩) :=
  C55_lvalue_current_value pc .big .twosComplement counter 3 none (some 8) [] _ _

end Upd
