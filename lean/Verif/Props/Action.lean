import Verif.Lemmas.Dispatcher
import Verif.Props.Key
import Verif.Model.Buffered

/-!
# Actions (C32, C33, C34, C53)

`a.invoke P (Lens.whole σ) src dest` is `a(src, dest)`, where `src`, `dest` and the callback act on the world `σ`. Two effects are
equal when they have, from every world, the same outcome (value, exception or fault) and the same final world. Since `σ` is
arbitrary (it may record every call), equal effects call the same getters, putters and callbacks in the same order.
-/

namespace Upd
open Spec

variable {σ : Type}

/-! ## C32 -/

/-- C32, effect. Invoking an action (of either kind) is `serve`: get as many bytes as needed for the parameters, call the callback
once on the values they stand for, put the bytes of the returned value. It includes the cases where the source, the callback or
the destination throws: nothing is done after. -/
theorem C32_action_effect {P : Platform} (hP : P.Valid) {e : Endian} {s : Mode} (hs : Supported P e s) {cb : Callback σ}
    (hg : SigOk cb.sig) (hd : DecodeSafeAll P e s cb.sig.params) (hc : WellTyped P s cb) {a : Action σ}
    (ha : a = .stored e s cb ∨ a = .weak e s cb) (src : Eff σ Byte) (dest : Byte → Eff σ Unit) :
    a.invoke P (Lens.whole σ) src dest = serve e s cb (Lens.whole σ) src dest := by
  rw [Action.Holds.invoke ha P, call_serve hP hs cb hg hd hc]

/-- C32, on the encoding of arguments (without restriction on the types of the parameters besides `SigOk`): the callback receives the
arguments, and the encoding of what it returns is output. -/
theorem C32_action_call {P : Platform} (hP : P.Valid) {e : Endian} {s : Mode} (hs : Supported P e s) {cb : Callback σ}
    (hg : SigOk cb.sig) {a : Action σ} (ha : a = .stored e s cb ∨ a = .weak e s cb) {src : Eff σ Byte}
    {dest : Byte → Eff σ Unit} {args : List Val} (hf : Val.FitsAll (Safe P s) cb.sig.params args) {w w1 w2 w3 : σ}
    {r : Option Val} (hy : Yields src w (wires e s cb.sig.params args) w1) (hcb : cb.fn args w1 = .ret r w2)
    (hr : RetOk P s cb.sig.ret r) (hd : Accepts dest w2 (response e s cb.sig.ret r) w3) :
    a.invoke P (Lens.whole σ) src dest w = .ret () w3 := by
  rw [Action.Holds.invoke ha P, call_args hP hs hg _ hf hy, zoom_whole, Eff.bind_ret hcb, respond_eq hP hs hg.2.2 hr,
    putAll_accepts hd]

/-- C32, a callback which throws: nothing is output. -/
theorem C32_action_throw {P : Platform} (hP : P.Valid) {e : Endian} {s : Mode} (hs : Supported P e s) {cb : Callback σ}
    (hg : SigOk cb.sig) {a : Action σ} (ha : a = .stored e s cb ∨ a = .weak e s cb) {src : Eff σ Byte}
    {dest : Byte → Eff σ Unit} {args : List Val} (hf : Val.FitsAll (Safe P s) cb.sig.params args) {w w1 w2 : σ}
    (hy : Yields src w (wires e s cb.sig.params args) w1) (hcb : cb.fn args w1 = .threw w2) :
    a.invoke P (Lens.whole σ) src dest w = .threw w2 := by
  rw [Action.Holds.invoke ha P, call_args hP hs hg _ hf hy, zoom_whole, Eff.bind_threw hcb]

/-- C32, `action(src)`, without a destination: the callback receives the arguments and what it returns is discarded; nothing else happens. -/
theorem C32_action_input_only {P : Platform} (hP : P.Valid) {e : Endian} {s : Mode} (hs : Supported P e s) {cb : Callback σ}
    (hg : SigOk cb.sig) {src : Eff σ Byte} {args : List Val} (hf : Val.FitsAll (Safe P s) cb.sig.params args) {w w1 w2 : σ} {r : Option Val}
    (hy : Yields src w (wires e s cb.sig.params args) w1) (hcb : cb.fn args w1 = .ret r w2) (hr : RetOk P s cb.sig.ret r) :
    (Action.stored e s cb).invoke1 P (Lens.whole σ) src w = .ret () w2 := by
  have hd : ∀ m : List Byte, Accepts (fun _ => (pure () : Eff σ Unit)) w2 m w2 := by
    intro m
    induction m with
    | nil => exact .nil _
    | cons x m ih => exact .cons rfl ih
  exact C32_action_call hP hs hg (.inl rfl) hf hy hcb hr (hd _)

/-- C32, sizes of an `action`: `input_size()` is the number of bytes that it reads, `output_size()` the number of bytes that it
writes. -/
theorem C32_action_sizes {e : Endian} {s : Mode} {cb : Callback σ} (hg : SigOk cb.sig) :
    (Action.stored e s cb).inputSize = .ok (wireSizes cb.sig.params) ∧
    (Action.stored e s cb).outputSize = .ok (retSize cb.sig.ret) ∧
    ∀ (P : Platform) (r : Option Val), RetOk P s cb.sig.ret r →
      (response e s cb.sig.ret r).length = retSize cb.sig.ret := by
  refine ⟨?_, ?_, ?_⟩
  · simp only [Action.inputSize, View.size_eq, Tuple.self, packedAll_serSizes _ hg.2.1]
  · simp only [Action.outputSize, View.size_eq, Tuple.self]
    cases h : cb.sig.ret with
    | none => rfl
    | some t => simp [flattenTypes, Ty.serSizes, retSize, packed_serSize t (hg.2.2 t h).2]
  · intro P r hr
    cases h : cb.sig.ret with
    | none => rw [h] at hr; cases r <;> simp_all [RetOk, response, retSize]
    | some t =>
      rw [h] at hr
      cases r with
      | none => simp [RetOk] at hr
      | some v => exact wire_length (hg.2.2 t h).2 hr

/-- A stateful callback `int32_t f(int16_t x, uint8_t y)`: logs its arguments, returns `x + y`. -/
def demoCb : Callback (List Byte × List (List Val) × List Byte) :=
  ⟨demoKey.sig, fun args w =>
    match args with
    | [.int x, .int y] => .ret (some (.int (x + y))) (w.1, w.2.1 ++ [args], w.2.2)
    | _ => .fault .illTyped⟩

/-- Getter and putter on the first and third components of the world. -/
def demoSrc : Eff (List Byte × List (List Val) × List Byte) Byte := fun w =>
  match w.1 with
  | [] => .threw w
  | b :: l => .ret b (l, w.2)
def demoDest (b : Byte) : Eff (List Byte × List (List Val) × List Byte) Unit := fun w => .ret () (w.1, w.2.1, w.2.2 ++ [b])

theorem demoCb_wellTyped : WellTyped pcMacros .twosComplement demoCb := by
  intro args w r w' hf h
  match args, hf with
  | [.int x, .int y], hf =>
    simp only [demoCb, demoKey, Val.FitsAll, Val.Fits, Safe, Representable, InRange] at hf
    simp only [demoCb] at h
    injection h with h1 h2
    subst h1
    simp [demoCb, demoKey, RetOk, Val.Fits, Safe, MinSafe, Representable, InRange, pcMacros]
    simp at hf
    omega

example : (Action.weak .big .twosComplement demoCb).invoke pcMacros (Lens.whole _) demoSrc demoDest =
    serve .big .twosComplement demoCb (Lens.whole _) demoSrc demoDest :=
  C32_action_effect pcMacros_valid (pcMacros_supported _ _) demoKey_ok
    (by simp [demoCb, demoKey, DecodeSafeAll, DecodeSafe, pcMacros]) demoCb_wellTyped (Or.inr rfl) _ _

example (rest : List Byte) : (Action.stored .big .twosComplement demoCb).invoke pc (Lens.whole _) demoSrc demoDest
      ([0xff#8, 0xfe#8, 7#8] ++ rest, [], []) = .ret () (rest, [[.int (-2), .int 7]], [0#8, 0#8, 0#8, 5#8]) :=
  C32_action_call pc_valid (pc_supported _ _) demoKey_ok (Or.inl rfl) (args := [.int (-2), .int 7]) demoKey_args
    (w1 := (rest, [], [])) (w2 := (rest, [[.int (-2), .int 7]], [])) (r := some (.int 5))
    (.cons rfl (.cons rfl (.cons rfl (.nil _)))) rfl
    (by simp [demoCb, demoKey, RetOk, Val.Fits, Safe, MinSafe, Representable, InRange])
    (.cons rfl (.cons rfl (.cons rfl (.cons rfl (.nil _)))))

/-- `C32_action_input_only`: the action logs the call, and nothing is output. -/
example (rest : List Byte) : (Action.stored .big .twosComplement demoCb).invoke1 pc (Lens.whole _) demoSrc ([0xff#8, 0xfe#8, 7#8] ++ rest, [], []) =
    .ret () (rest, [[.int (-2), .int 7]], []) :=
  C32_action_input_only (cb := demoCb) (s := .twosComplement) pc_valid (pc_supported _ _) demoKey_ok (args := [.int (-2), .int 7]) demoKey_args
    (w1 := (rest, [], [])) (w2 := (rest, [[.int (-2), .int 7]], [])) (r := some (.int 5))
    (.cons rfl (.cons rfl (.cons rfl (.nil _)))) rfl
    (by simp [demoCb, demoKey, RetOk, Val.Fits, Safe, MinSafe, Representable, InRange])

/-! ## C33 -/

/-- C33, effect: for the same callback, both kinds of action have the same effect, always (even outside of the domain where the
conversions work). -/
theorem C33_same_effect {τ : Type} (P : Platform) (e : Endian) (s : Mode) (cb : Callback σ) (L : Lens τ σ) (src : Eff τ Byte)
    (dest : Byte → Eff τ Unit) :
    (Action.weak e s cb).invoke P L src dest = (Action.stored e s cb).invoke P L src dest :=
  staticWrapper_eq P e s cb L src dest

/-- C33, sizes, as stated. -/
def C33_Statement : Prop :=
  ∀ (e : Endian) (s : Mode) (cb : Callback Unit), SigOk cb.sig →
    (Action.weak e s cb).inputSize = (Action.stored e s cb).inputSize ∧
    (Action.weak e s cb).outputSize = (Action.stored e s cb).outputSize

/-- A parameter with a `upd_extension` such that `sizeof` is 4 but which is serialized on 3 bytes: `no_storage_action` announces 4
bytes but reads 3. -/
theorem C33_full_statement_is_false : ¬ C33_Statement := by
  intro h
  have := (h .little .twosComplement ⟨⟨[.user 4 [.uint 1, .uint 2]], none⟩, fun _ => pure none⟩
    (by simp [SigOk, Ty.WFs, Ty.WF, PackedAll, Packed])).1
  simp [Action.inputSize, Sig.parametersSize, TypeList.sum11, Ty.sizeof, View.size, Tuple.self, Ty.serSize, Ty.serSizes] at this

/-- C33, sizes, when the object size of the parameters and of the return type is their serialized size. Missing: user-extended types
for which it is not the case. -/
theorem C33_same_sizes_partial {e : Endian} {s : Mode} {cb : Callback σ} (hg : SigOk cb.sig)
    (hp : ∀ t ∈ cb.sig.params, t.sizeof = wireSize t) (hr : ∀ t, cb.sig.ret = some t → t.sizeof = wireSize t) :
    (Action.weak e s cb).inputSize = (Action.stored e s cb).inputSize ∧
    (Action.weak e s cb).outputSize = (Action.stored e s cb).outputSize := by
  obtain ⟨h1, h2, _⟩ := C32_action_sizes (e := e) (s := s) hg
  rw [h1, h2]
  refine ⟨by simp only [Action.inputSize, parametersSize_eq hp], ?_⟩
  simp only [Action.outputSize, Sig.returnTypeSize]
  cases h : cb.sig.ret with
  | none => rfl
  | some t => simp [retSize, hr t h]

/-- C33, sizes, exact condition on the input: the announced sizes are the same if and only if the sum of the object sizes is the sum of the
serialized sizes. -/
theorem C33_same_input_size_iff {e : Endian} {s : Mode} {cb : Callback σ} (hg : SigOk cb.sig) :
    (Action.weak e s cb).inputSize = (Action.stored e s cb).inputSize ↔
      (cb.sig.params.map Ty.sizeof).sum = (cb.sig.params.map wireSize).sum := by
  rw [(C32_action_sizes (e := e) (s := s) hg).1, wireSizes_eq]
  simp only [Action.inputSize, Sig.parametersSize, TypeList.sum11_eq, Nat.zero_add]
  constructor
  · intro h; exact Except.ok.inj h
  · intro h; rw [h]

/-- C33, sizes, exact condition on the output: nothing is returned, or the object size of the returned type is its serialized size. -/
theorem C33_same_output_size_iff {e : Endian} {s : Mode} {cb : Callback σ} (hg : SigOk cb.sig) :
    (Action.weak e s cb).outputSize = (Action.stored e s cb).outputSize ↔ ∀ t, cb.sig.ret = some t → t.sizeof = wireSize t := by
  rw [(C32_action_sizes (e := e) (s := s) hg).2.1]
  simp only [Action.outputSize, Sig.returnTypeSize]
  cases h : cb.sig.ret with
  | none => simp [retSize]
  | some t =>
    simp only [retSize]
    constructor
    · intro h1 t' h2
      cases h2
      exact Except.ok.inj h1
    · intro h1; rw [h1 t rfl]

/-- A returned type which takes 4 bytes in memory and is serialized on 3: the announced sizes differ. -/
example : (Action.weak .big .twosComplement (⟨⟨[], some (.user 4 [.uint 1, .uint 2])⟩, fun _ => pure none⟩ : Callback Unit)).outputSize ≠
    (Action.stored .big .twosComplement (⟨⟨[], some (.user 4 [.uint 1, .uint 2])⟩, fun _ => pure none⟩ : Callback Unit)).outputSize := by
  rw [ne_eq, C33_same_output_size_iff (by simp [SigOk, Ty.WFs, Ty.WF, PackedAll, Packed])]
  intro h
  have := h _ rfl
  simp [Ty.sizeof, wireSize, wireSizes] at this

example : (Action.weak .big .twosComplement demoCb).inputSize = .ok 3 ∧ (Action.weak .big .twosComplement demoCb).outputSize = .ok 4 := by
  obtain ⟨h1, h2⟩ := C33_same_sizes_partial (e := .big) (s := .twosComplement) (cb := demoCb) demoKey_ok
    (by simp [demoCb, demoKey, Ty.sizeof, wireSize]) (by intro t h; cases h; rfl)
  rw [h1, h2]; exact ⟨rfl, rfl⟩

/-! ## C34 -/

/-- C34. Invoking an action without callback (default-constructed, or moved-from) reads nothing, writes nothing, calls nothing; with
both forms of `operator()`. -/
theorem C34_empty_action {τ : Type} (P : Platform) (e : Endian) (s : Mode) (cb : Callback σ) {a : Action σ}
    (ha : a = .null ∨ a = (Action.stored e s cb).move.2) (L : Lens τ σ) (src : Eff τ Byte) (dest : Byte → Eff τ Unit)
    (w : τ) : a.invoke P L src dest w = .ret () w ∧ a.invoke1 P L src w = .ret () w := by
  rcases ha with rfl | rfl <;> exact ⟨rfl, rfl⟩

/-- On the other hand, its sizes cannot be asked for. -/
theorem C34_sizes_counterexample : (Action.null : Action σ).inputSize = .error .nullDeref := rfl

example : (Action.stored .big .twosComplement demoCb).move.2.invoke pc (Lens.whole _) demoSrc demoDest ([1#8], [], []) =
    .ret () ([1#8], [], []) :=
  (C34_empty_action pc .big .twosComplement demoCb (Or.inr rfl) (Lens.whole _) demoSrc demoDest _).1

/-! ## C53 -/

/-- C53. An action obtained with `key.with_hook(f)` and invoked on the response bytes of the key calls `f` once with the value which was
returned remotely, and consumes exactly these bytes. (`P` is the platform of the caller.) -/
theorem C53_hook {P : Platform} (hP : P.Valid) {k : Key} (hs : Supported P k.e k.s) {t : Ty} (hret : k.sig.ret = some t)
    (hg : SigOk k.sig) {f : Callback σ} (hpar : f.sig.params = [t]) (hvoid : f.sig.ret = none) {v : Val}
    (hv : v.Fits (Safe P k.s) t) {src : Eff σ Byte} (dest : Byte → Eff σ Unit) {w w1 : σ}
    (hy : Yields src w (response k.e k.s k.sig.ret (some v)) w1) {a : Action σ} (ha : a = k.withHook f ∨ a = k.withWeakHook f) :
    (∀ w2, f.fn [v] w1 = .ret none w2 → a.invoke P (Lens.whole σ) src dest w = .ret () w2) ∧
    (∀ w2, f.fn [v] w1 = .threw w2 → a.invoke P (Lens.whole σ) src dest w = .threw w2) := by
  obtain ⟨hw, hp⟩ := hg.2.2 t hret
  have hgf : SigOk f.sig := by
    refine ⟨by rw [hpar]; simp [Ty.WFs, hw], by rw [hpar]; simp [PackedAll, hp], ?_⟩
    intro u hu; rw [hvoid] at hu; cases hu
  have hf : Val.FitsAll (Safe P k.s) f.sig.params [v] := by rw [hpar]; simp [Val.FitsAll, hv]
  have hy' : Yields src w (wires k.e k.s f.sig.params [v]) w1 := by
    rw [hret] at hy; rw [hpar]; simpa [response, wires] using hy
  constructor
  · intro w2 h
    exact C32_action_call hP hs hgf ha hf hy' h (by simp [hvoid, RetOk]) (by rw [hvoid]; exact .nil _)
  · intro w2 h
    exact C32_action_throw hP hs hgf ha hf hy' h

/-- C53, for a key whose callback returns `void`: the hook is called once without argument, nothing is consumed. -/
theorem C53_hook_void {P : Platform} (hP : P.Valid) {k : Key} (hs : Supported P k.e k.s) {f : Callback σ}
    (hpar : f.sig.params = []) (hvoid : f.sig.ret = none) (src : Eff σ Byte) (dest : Byte → Eff σ Unit)
    {a : Action σ} (ha : a = k.withHook f ∨ a = k.withWeakHook f) {w w2 : σ} (h : f.fn [] w = .ret none w2) :
    a.invoke P (Lens.whole σ) src dest w = .ret () w2 := by
  have hgf : SigOk f.sig := by
    refine ⟨by rw [hpar]; simp [Ty.WFs], by rw [hpar]; simp [PackedAll], ?_⟩
    intro u hu; rw [hvoid] at hu; cases hu
  exact C32_action_call hP hs hgf ha (args := []) (by rw [hpar]; simp [Val.FitsAll]) (by rw [hpar]; exact .nil _) h
    (by simp [hvoid, RetOk]) (by rw [hvoid]; exact .nil _)

/-- A hook which logs its argument. -/
def demoHook : Callback (List Byte × List (List Val) × List Byte) :=
  ⟨⟨[.sint 4], none⟩, fun args w => .ret none (w.1, w.2.1 ++ [args], w.2.2)⟩

example (rest : List Byte) : (demoKey.withHook demoHook).invoke pc (Lens.whole _) demoSrc demoDest
    ([0xff#8, 0xff#8, 0xff#8, 0xfe#8] ++ rest, [], []) = .ret () (rest, [[.int (-2)]], []) :=
  (C53_hook (f := demoHook) pc_valid (pc_supported _ _) (k := demoKey) rfl demoKey_ok rfl rfl (v := .int (-2))
    (by simp [demoKey, Val.Fits, Safe, MinSafe, Representable, InRange]) (src := demoSrc) demoDest
    (w := ([0xff#8, 0xff#8, 0xff#8, 0xfe#8] ++ rest, [], [])) (w1 := (rest, [], []))
    (.cons rfl (.cons rfl (.cons rfl (.cons rfl (.nil _))))) (Or.inl rfl)).1 _ rfl

/-! ## Further uses -/

/-- A callback which throws: the exception gets out, the arguments have been consumed and nothing is output. -/
example (rest : List Byte) :
    (Action.weak .big .twosComplement ⟨demoKey.sig, fun args w => .threw (w.1, w.2.1 ++ [args], w.2.2)⟩).invoke pc (Lens.whole _) demoSrc demoDest
      ([0xff#8, 0xfe#8, 7#8] ++ rest, [], []) = .threw (rest, [[.int (-2), .int 7]], []) :=
  C32_action_throw (cb := ⟨demoKey.sig, fun args w => .threw (w.1, w.2.1 ++ [args], w.2.2)⟩) pc_valid (pc_supported _ _) demoKey_ok
    (Or.inr rfl) (args := [.int (-2), .int 7]) demoKey_args (w1 := (rest, [], [])) (.cons rfl (.cons rfl (.cons rfl (.nil _)))) rfl

example : (Action.stored .big .twosComplement demoCb).inputSize = .ok 3 ∧ (Action.stored .big .twosComplement demoCb).outputSize = .ok 4 :=
  ⟨(C32_action_sizes demoKey_ok).1, (C32_action_sizes demoKey_ok).2.1⟩

/-- Even where it is undefined behaviour to invoke the action: the byte 2 is no `bool`. -/
example (cb : Callback (List Byte × List (List Val) × List Byte)) :
    (Action.weak .big .twosComplement ⟨⟨[.bool], none⟩, cb.fn⟩).invoke pc (Lens.whole _) demoSrc demoDest ([2#8], [], []) =
      (Action.stored .big .twosComplement ⟨⟨[.bool], none⟩, cb.fn⟩).invoke pc (Lens.whole _) demoSrc demoDest ([2#8], [], []) :=
  congrFun (C33_same_effect pc _ _ _ (Lens.whole _) demoSrc demoDest) _

/-- A parameter of a type of 16 bytes which is encoded with 3 bytes. -/
example (fn : List Val → Eff Unit (Option Val)) :
    (Action.weak .big .twosComplement ⟨⟨[.user 16 [.sint 2, .bool]], none⟩, fn⟩).inputSize ≠
      (Action.stored .big .twosComplement ⟨⟨[.user 16 [.sint 2, .bool]], none⟩, fn⟩).inputSize := fun h => by
  have := (C33_same_input_size_iff (by simp [SigOk, Ty.WFs, Ty.WF, PackedAll, Packed])).1 h
  simp [Ty.sizeof, wireSize, wireSizes] at this

example : ((⟨.big, .twosComplement, 1, 0, [.sint 2], none⟩ : Key).withHook ⟨⟨[], none⟩, fun args w => .ret none (w.1, w.2.1 ++ [args], w.2.2)⟩).invoke
    pc (Lens.whole _) demoSrc demoDest ([1#8], [], []) = .ret () ([1#8], [[]], []) :=
  C53_hook_void pc_valid (pc_supported _ _) rfl rfl demoSrc demoDest (Or.inl rfl) rfl

end Upd
