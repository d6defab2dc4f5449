import Verif.Model.Category
import Verif.Props.Action

/-!
# C67: invoking an action several times
-/

namespace Upd
open Spec

variable {S : Type}

/-- The callback object, the bytes to read, the bytes written. -/
abbrev Stage (S : Type) := S × List Byte × List Byte

/-- Takes the next byte; throws if there is none. -/
def Stage.src : Eff (Stage S) Byte := fun st =>
  match st.2.1 with
  | [] => .threw st
  | b :: bs => .ret b (st.1, bs, st.2.2)

/-- Writes a byte. -/
def Stage.dest (b : Byte) : Eff (Stage S) Unit := fun st => .ret () (st.1, st.2.1, st.2.2 ++ [b])

/-- Invokes the action `n` times in a row. -/
def invokeTimes (P : Platform) (a : Action (Stage S)) : Nat → Eff (Stage S) Unit
  | 0 => pure ()
  | n + 1 => do
    a.invoke P (Lens.whole _) Stage.src Stage.dest
    invokeTimes P a n

/-- C67. An action is invoked several times: each invocation is one call of `operator()`, on the object left by the previous call, with the arguments
of its own request; it gives the response of that call. `calls` are the arguments, the returned values and the states of the object after each call. -/
theorem C67_sequence {P : Platform} (hP : P.Valid) {e : Endian} {s : Mode} (hs : Supported P e s) {F : QualFunctor S (List Byte × List Byte)}
    (hg : SigOk F.sig) {g : Category} {a : Action (Stage S)} (ha : F.action g e s = some a) (calls : List (List Val × Option Val × S)) :
    ∀ (f : S) (inp out : List Byte),
    (∀ c ∈ calls, Val.FitsAll (Safe P s) F.sig.params c.1 ∧ RetOk P s F.sig.ret c.2.1) →
    (∀ i (hi : i < calls.length), ∀ w, F.op calls[i].1 ((f :: calls.map (·.2.2))[i]'(by simp; omega), w) = .ret calls[i].2.1 (calls[i].2.2, w)) →
    invokeTimes P a calls.length (f, (calls.map fun c => wires e s F.sig.params c.1).flatten ++ inp, out) =
      .ret () ((f :: calls.map (·.2.2)).getLast (by simp), inp, out ++ (calls.map fun c => response e s F.sig.ret c.2.1).flatten) := by
  have ha : a = .stored e s ⟨F.sig, F.op⟩ ∨ a = .weak e s ⟨F.sig, F.op⟩ := by
    rw [QualFunctor.action] at ha
    split at ha
    · injection ha with ha; exact Or.inl ha.symm
    · cases ha
  have hy : ∀ (f : S) (bs inp out : List Byte), Yields (Stage.src (S := S)) (f, bs ++ inp, out) bs (f, inp, out) := by
    intro f bs
    induction bs with
    | nil => intro inp out; exact .nil _
    | cons b bs ih => intro inp out; exact .cons rfl (ih inp out)
  have hd : ∀ (f : S) (bs inp out : List Byte), Accepts (Stage.dest (S := S)) (f, inp, out) bs (f, inp, out ++ bs) := by
    intro f bs inp
    induction bs with
    | nil => intro out; rw [List.append_nil]; exact .nil _
    | cons b bs ih => intro out; exact .cons rfl (by have := ih (out ++ [b]); rwa [List.append_assoc] at this)
  induction calls with
  | nil => intro f inp out _ _; simp [invokeTimes]
  | cons c calls ih =>
    intro f inp out hfit hcalls
    simp only [List.length_cons, invokeTimes, List.map_cons, List.flatten_cons, List.append_assoc]
    obtain ⟨hf, hr⟩ := hfit c (List.mem_cons_self ..)
    have hc := hcalls 0 (by simp)
    simp only [List.getElem_cons_zero] at hc
    have h := C32_action_call hP hs hg ha hf (hy f _ ((calls.map fun c => wires e s F.sig.params c.1).flatten ++ inp) out) (hc _) hr (hd _ _ _ _)
    rw [Eff.bind_ret h, ih c.2.2 inp _ (fun c hc => hfit c (List.mem_cons_of_mem _ hc)) (fun i hi => by
      have := hcalls (i + 1) (by simp; omega)
      simp only [List.getElem_cons_succ, List.map_cons] at this
      exact this)]
    simp [List.getLast_cons]

/-- C67, an object which a call does not modify: the `n` responses are the same. -/
theorem C67_repeat {P : Platform} (hP : P.Valid) {e : Endian} {s : Mode} (hs : Supported P e s) {F : QualFunctor S (List Byte × List Byte)}
    (hg : SigOk F.sig) {g : Category} {a : Action (Stage S)} (ha : F.action g e s = some a) {f : S} {args : List Val}
    (hf : Val.FitsAll (Safe P s) F.sig.params args) {r : Option Val} (hr : RetOk P s F.sig.ret r) (hc : ∀ w, F.op args (f, w) = .ret r (f, w))
    (n : Nat) (inp out : List Byte) :
    invokeTimes P a n (f, (List.replicate n (wires e s F.sig.params args)).flatten ++ inp, out) =
      .ret () (f, inp, out ++ (List.replicate n (response e s F.sig.ret r)).flatten) := by
  have hst : ∀ i (h : i < (f :: (List.replicate n (args, r, f)).map (·.2.2)).length), (f :: (List.replicate n (args, r, f)).map (·.2.2))[i] = f := by
    intro i h
    cases i with
    | zero => rfl
    | succ i => simp
  have h := C67_sequence hP hs hg ha (List.replicate n (args, r, f)) f inp out
    (fun c hc => by rw [List.eq_of_mem_replicate hc]; exact ⟨hf, hr⟩)
    (fun i hi w => by rw [hst]; simp only [List.getElem_replicate]; exact hc w)
  rw [List.getLast_eq_getElem, hst] at h
  simpa using h

/-- C67, which objects are accepted: all those without ref-qualifier, whether given as temporaries or lvalues. -/
theorem C67_accepted (F : QualFunctor S (List Byte × List Byte)) (hq : F.qual = .unqualified) (g : Category) (e : Endian) (s : Mode) :
    ∃ a, F.action g e s = some a := by
  rw [QualFunctor.action, hq]
  exact ⟨_, if_pos rfl⟩

/-- C67, exactly which objects are accepted: a `&`-qualified `operator()` is only for objects given as lvalues, a `&&`-qualified one for objects given
as temporaries (although the object is then called several times). -/
theorem C67_accepted_iff (F : QualFunctor S (List Byte × List Byte)) (g : Category) (e : Endian) (s : Mode) :
    (∃ a, F.action g e s = some a) ↔ F.qual = .unqualified ∨ F.qual = .lvalue ∧ g = .lvalue ∨ F.qual = .rvalue ∧ g = .rvalue := by
  unfold QualFunctor.action
  cases F.qual <;> cases g <;> simp [RefQual.admits, Category.ofCall]

/-! ## Examples -/

/-- `[total = 0](uint8_t x) mutable { total += x; return total; }`. -/
def accumulate : QualFunctor Int (List Byte × List Byte) :=
  ⟨⟨[.uint 1], some (.uint 1)⟩, .unqualified,
    fun args st => match args with | [.int x] => .ret (some (.int ((st.1 + x) % 256))) ((st.1 + x) % 256, st.2) | _ => .fault .illTyped⟩

example (inp : List Byte) : invokeTimes pc (.stored .little .twosComplement ⟨accumulate.sig, accumulate.op⟩) 2 (0, 3#8 :: 4#8 :: inp, []) =
    .ret () (7, inp, [3#8, 7#8]) :=
  C67_sequence (F := accumulate) (g := .rvalue) pc_valid (pc_supported _ _)
    (by simp [SigOk, accumulate, Ty.WFs, Ty.WF, PackedAll, Packed]) rfl [([.int 3], some (.int 3), 3), ([.int 4], some (.int 7), 7)] 0 inp []
    (by simp [accumulate, Val.FitsAll, Val.Fits, RetOk])
    (by
      intro i hi w
      match i, hi with
      | 0, _ => rfl
      | 1, _ => rfl)

/-- An object which holds a string and returns its length, whose `operator()` is `&`-qualified, given as an lvalue. -/
def stringLength : QualFunctor (List Byte) (List Byte × List Byte) :=
  ⟨⟨[], some (.uint 1)⟩, .lvalue, fun _ st => .ret (some (.int (st.1.length % 256))) st⟩

example : invokeTimes pc (.stored .little .twosComplement ⟨stringLength.sig, stringLength.op⟩) 5 ([97#8, 98#8, 99#8], [], []) =
    .ret () ([97#8, 98#8, 99#8], [], [3#8, 3#8, 3#8, 3#8, 3#8]) :=
  C67_repeat (F := stringLength) (g := .lvalue) (args := []) (r := some (.int 3)) pc_valid (pc_supported _ _)
    (by simp [SigOk, stringLength, Ty.WFs, Ty.WF, PackedAll, Packed]) rfl (by simp [stringLength, Val.FitsAll])
    (by simp [stringLength, RetOk, Val.Fits]) (fun _ => rfl) 5 [] []

example : ∃ a, accumulate.action .rvalue .big .onesComplement = some a := C67_accepted accumulate rfl _ _ _

example : ¬ ∃ a, stringLength.action .rvalue .little .twosComplement = some a := fun h => by
  simpa [stringLength] using (C67_accepted_iff stringLength .rvalue .little .twosComplement).1 h

end Upd
