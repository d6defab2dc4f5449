import Verif.Spec.Convert
import Verif.Props.Action

/-!
# C66: hooks whose parameter is not of the type returned by the function
-/

namespace Upd
open Spec TypeList

/-- C66, full statement: a hook which can be called on the value returned by the remote function (up to an implicit conversion) is called on it,
and the action takes the response from the byte source. -/
def C66_Statement : Prop :=
  ∀ (σ : Type) (P : Platform) (k : Key) (t u : Ty) (f : Callback σ) (v y : Val) (src : Eff σ Byte) (dest : Byte → Eff σ Unit) (w w1 w2 : σ),
    P.Valid → Supported P k.e k.s → SigOk k.sig → k.sig.ret = some t → f.sig = ⟨[u], none⟩ → u.WF → Packed u →
    v.Fits (Safe P k.s) t → Converted u v y → y.Fits (Safe P k.s) u → Yields src w (response k.e k.s k.sig.ret (some v)) w1 →
    f.fn [y] w1 = .ret none w2 → (k.withHook f).invoke P (Lens.whole σ) src dest w = .ret () w2

/-- The function returns a `uint8_t` and the hook takes a `uint16_t`: the action waits for a second byte. (Here, the byte source throws when it is
exhausted.) -/
theorem C66_full_statement_is_false : ¬ C66_Statement := by
  intro h
  have h1 := h (List Byte × List Val) pc ⟨.little, .twosComplement, 1, 0, [], some (.uint 1)⟩ (.uint 1) (.uint 2)
    ⟨⟨[.uint 2], none⟩, fun args w => .ret none (w.1, w.2 ++ args)⟩ (.int 7) (.int 7)
    (fun w => match w.1 with | [] => .threw w | b :: bs => .ret b (bs, w.2)) (fun _ => pure ()) ([7#8], []) ([], []) ([], [.int 7])
    pc_valid (pc_supported _ _) (by simp [SigOk, Ty.WFs, Ty.WF, PackedAll, Packed]) rfl rfl (by simp [Ty.WF]) (by simp [Packed])
    (by simp [Val.Fits]) ⟨by decide, by decide, 0, by decide⟩ (by simp [Val.Fits]) (.cons rfl (.nil _)) rfl
  have h2 : (Key.withHook (σ := List Byte × List Val) ⟨.little, .twosComplement, 1, 0, [], some (.uint 1)⟩
      ⟨⟨[.uint 2], none⟩, fun args w => .ret none (w.1, w.2 ++ args)⟩).invoke pc (Lens.whole _)
      (fun w => match w.1 with | [] => .threw w | b :: bs => .ret b (bs, w.2)) (fun _ => pure ()) ([7#8], []) = .threw ([], []) := rfl
  rw [h2] at h1
  cases h1

/-- C66, hooks whose parameter has the type returned by the function (up to a reference and `const`). What is missing is the conversion: the action
always takes the parameter of the hook, not the type returned by the function, from the byte source (`C66_exact`). -/
theorem C66_hook_partial {σ : Type} {P : Platform} (hP : P.Valid) {k : Key} (hs : Supported P k.e k.s) {t : Ty} (hret : k.sig.ret = some t)
    (hg : SigOk k.sig) {f : Callback σ} (hsig : f.sig = ⟨[t], none⟩) {v y : Val} (hc : Converted t v y) (hv : v.Fits (Safe P k.s) t)
    {src : Eff σ Byte} (dest : Byte → Eff σ Unit) {w w1 w2 : σ} (hy : Yields src w (response k.e k.s k.sig.ret (some v)) w1)
    (h : f.fn [y] w1 = .ret none w2) {a : Action σ} (ha : a = k.withHook f ∨ a = k.withWeakHook f) :
    a.invoke P (Lens.whole σ) src dest w = .ret () w2 := by
  have e : y = v := by
    cases t with
    | uint n =>
      cases v with
      | int x =>
        cases y with
        | int y =>
          obtain ⟨h1, h2, q, h3⟩ := hc
          obtain ⟨h4, h5⟩ := hv
          congr 1
          rw [← Int.emod_eq_of_lt h4 h5, h3, Int.add_mul_emod_self_left, Int.emod_eq_of_lt h1 h2]
        | _ => exact hc.elim
      | _ => exact hv.elim
    | sint n =>
      cases v with
      | int x =>
        cases y with
        | int y =>
          obtain ⟨h1, q, h3⟩ := hc
          have hn : SizeOk n := (hg.2.2 _ hret).1
          have h4 : InRange n x := by
            have := hv.1
            revert this
            cases k.s <;> simp only [Representable, InRange] <;> omega
          congr 1
          rw [← toSigned_of_inRange hn h4, toSigned_unique hn h1 h3]
        | _ => exact hc.elim
      | _ => exact hv.elim
    | bool =>
      cases v with
      | bool a =>
        cases y with
        | bool b => exact congrArg Val.bool hc.symm
        | _ => exact hc.elim
      | _ => exact hv.elim
    | arr t n =>
      cases v with
      | arr xs => exact hc
      | _ => exact hv.elim
    | user n fs =>
      cases v with
      | user xs => exact hc
      | _ => exact hv.elim
  subst e
  exact (C53_hook hP hs hret hg (by rw [hsig]) (by rw [hsig]) hv dest hy ha).1 w2 h

/-- C66, what the action does for any hook: it takes the encoding of the parameters of the hook from the byte source, whatever the key. -/
theorem C66_exact {σ : Type} {P : Platform} (hP : P.Valid) (k : Key) (hs : Supported P k.e k.s) {f : Callback σ} (hgf : SigOk f.sig)
    (hvoid : f.sig.ret = none) {args : List Val} (hf : Val.FitsAll (Safe P k.s) f.sig.params args) {src : Eff σ Byte} (dest : Byte → Eff σ Unit)
    {w w1 w2 : σ} (hy : Yields src w (wires k.e k.s f.sig.params args) w1) (h : f.fn args w1 = .ret none w2) {a : Action σ}
    (ha : a = k.withHook f ∨ a = k.withWeakHook f) :
    a.invoke P (Lens.whole σ) src dest w = .ret () w2 :=
  C32_action_call hP hs hgf ha hf hy h (by simp [hvoid, RetOk]) (by rw [hvoid]; exact .nil _)

example (rest : List Byte) : (demoKey.withHook demoHook).invoke pc (Lens.whole _) demoSrc demoDest
    ([0xff#8, 0xff#8, 0xff#8, 0xfe#8] ++ rest, [], []) = .ret () (rest, [[.int (-2)]], []) :=
  C66_hook_partial (f := demoHook) pc_valid (k := demoKey) (pc_supported _ _) rfl demoKey_ok rfl (v := .int (-2)) (y := .int (-2))
    ⟨by simp [InRange], 0, by decide⟩ (by simp [demoKey, Val.Fits, Safe, MinSafe, Representable, InRange]) (src := demoSrc) demoDest
    (w := ([0xff#8, 0xff#8, 0xff#8, 0xfe#8] ++ rest, [], [])) (w1 := (rest, [], []))
    (.cons rfl (.cons rfl (.cons rfl (.cons rfl (.nil _))))) rfl (Or.inl rfl)

/-- The key of a function which returns an `int32_t`, a hook which takes two `uint16_t`. -/
example (rest : List Byte) : (demoKey.withHook (σ := List Byte × List (List Val) × List Byte)
      ⟨⟨[.uint 2, .uint 2], none⟩, fun args w => .ret none (w.1, w.2.1 ++ [args], w.2.2)⟩).invoke pc (Lens.whole _) demoSrc demoDest
    ([0xff#8, 0xff#8, 0xff#8, 0xfe#8] ++ rest, [], []) = .ret () (rest, [[.int 0xffff, .int 0xfffe]], []) :=
  C66_exact (f := ⟨⟨[.uint 2, .uint 2], none⟩, fun args w => .ret none (w.1, w.2.1 ++ [args], w.2.2)⟩) pc_valid demoKey (pc_supported _ _)
    (by simp [SigOk, Ty.WFs, Ty.WF, PackedAll, Packed]) rfl (args := [.int 0xffff, .int 0xfffe]) (by simp [Val.FitsAll, Val.Fits])
    (src := demoSrc) demoDest
    (w := ([0xff#8, 0xff#8, 0xff#8, 0xfe#8] ++ rest, [], [])) (w1 := (rest, [], []))
    (.cons rfl (.cons rfl (.cons rfl (.cons rfl (.nil _))))) rfl (Or.inl rfl)

end Upd
