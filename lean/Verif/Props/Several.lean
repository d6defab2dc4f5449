import Verif.Lemmas.Several
import Verif.Props.Buffered

/-!
# Several dispatchers and copies of dispatchers

C98: dispatchers whose functions do not communicate are independent, and a copy goes on as the original would have.
-/

namespace Upd
open Spec

variable {σ : Type} {P : Platform} {defs : Nat → List Val → Eff σ (Option Val)} {sizeMax : Nat} {serves : Nat → Nat → Prop} {sees : Nat → σ → σ → Prop}

/-- C98. A program makes dispatchers, copies them, possibly in the middle of a packet, and uses them in any order; it catches the exceptions which the functions throw. If the
dispatchers do not communicate through their functions, then each of them has answered what it would have answered if it had been alone, its life beginning with the life of the
dispatcher which it is a copy of; and so will it answer to the next operation, be it a value, an exception or undefined behaviour. -/
theorem C98_alone (hs : Separate defs serves sees) {prog : List SevOp} (hr : Respects serves 0 prog) {w w' : σ} {bufs : List (Buf σ)} {os : List (Option Obs)}
    (h : runCaught (SevOp.run P defs sizeMax) prog ([], w) = .ret os (bufs, w')) {n : Nat} {l : Life} (hn : ((prog.zip os).foldl addLife [])[n]? = some l) {op : OwnOp}
    (ho : op.Serves serves n) :
    ∃ b w1, l.alone P defs sizeMax w = .ret (l.items.map (·.2)) (b, w1) ∧ answerOf (SevOp.run P defs sizeMax (.on n op) (bufs, w')) = answerOf (op.run P defs (b, w1)) := by
  have ha : Apart P defs sizeMax serves sees w [] [] w := ⟨rfl, fun n l h => by simp at h, fun m _ => hs.refl m w⟩
  obtain ⟨b, w1, h1, h2, h3, h4, _⟩ := (apart_run hs ha hr h).each n l hn
  refine ⟨b, w1, h2, ?_⟩
  have hp := par_own (P := P) (fun name => hs.own (n := n) (name := name)) ho (b, w') (b, w1) ⟨rfl, h4, h3⟩
  simp only [SevOp.run, h1]
  cases e : op.run P defs (b, w') with
  | ret a st =>
    cases e' : op.run P defs (b, w1) with
    | ret a' st' => rw [e, e'] at hp; show Except.ok (some a) = .ok (some a'); rw [hp.1]
    | threw st' => rw [e, e'] at hp; cases hp
    | fault f => rw [e, e'] at hp; cases hp
  | threw st =>
    cases e' : op.run P defs (b, w1) with
    | ret a' st' => rw [e, e'] at hp; cases hp
    | threw st' => rfl
    | fault f => rw [e, e'] at hp; cases hp
  | fault f =>
    cases e' : op.run P defs (b, w1) with
    | ret a' st' => rw [e, e'] at hp; cases hp
    | threw st' => rw [e, e'] at hp; cases hp
    | fault f' => rw [e, e'] at hp; show Except.error f = .error f'; rw [show f = f' from hp]

/-- C98. Exactly the dispatchers whose actions do not store their callbacks can be copied: a dispatcher made from a keyring, whatever has been done with it, can be copied if and
only if its policy is `weak_reference`. -/
theorem C98_copyable {K : Keyring} {f : Features} {shared : Bool} {items : List OwnOp} {w w' : σ} {os : List (Option Obs)} {b : Buf σ}
    (h : runCaught (OwnOp.run P defs) items (fresh P K f defs sizeMax shared, w) = .ret os (b, w')) : b.copy = (if f = .weakReference then .ok b else .error .illTyped) := by
  refine copy_policy (caught_policy ?_ h)
  have h1 : (fresh P K f defs sizeMax shared).disp = Dispatcher.make K f defs := by cases shared <;> rfl
  rw [h1]
  refine ⟨rfl, fun hf a ha => ?_⟩
  subst hf
  obtain ⟨d, _, rfl⟩ := List.mem_map.1 ha
  exact ⟨_, _, _, rfl⟩

/-! Examples. -/

/-- The functions of `ledRing` write to a common log, which they do not read: nothing is seen. -/
theorem led_separate : Separate ledDefs (fun _ name => name ∈ [1, 2, 3]) (fun _ _ _ => True) where
  refl := fun _ _ => trivial
  symm := fun _ => trivial
  trans := fun _ _ => trivial
  own := by
    intro n name _ args w w' _
    unfold ledDefs
    split <;> exact ⟨rfl, trivial⟩
  others := by
    intro n m name _ _ args w
    cases ledDefs name args w <;> trivial

/-- A dispatcher is copied in the middle of the request `f1(300, 7)`. The copy receives the end of the request, the original the end of `f1(300, 8)`. -/
def ledCopies : List SevOp :=
  [.new ledRing .weakReference true, .on 0 (.io (.put 0#8)), .on 0 (.io (.put 0x2c#8)), .copy 0, .on 1 (.io (.put 1#8)), .on 0 (.io (.put 1#8)), .on 1 (.io (.put 7#8)),
    .on 0 (.io (.put 8#8)), .on 1 (.io .get), .on 0 (.io .get)]

theorem ledCopies_respects : Respects (fun _ name => name ∈ [1, 2, 3]) 0 ledCopies := by
  simp [Respects, ledCopies, ledRing, OwnOp.Serves]

theorem ledCopies_answers : answerOf (runCaught (SevOp.run pc ledDefs 100) ledCopies ([], ([], [], []))) =
    .ok (some [some .unit, some (.status .loading), some (.status .loading), some .unit, some (.status .loading), some (.status .loading), some (.status .resolved),
      some (.status .resolved), some (.byte 0x33#8), some (.byte 0x34#8)]) := by
  decide +kernel

/-- The copy has answered what a dispatcher which receives the whole request `f1(300, 7)` answers. -/
example (w : _) (bufs : _) (w' : _) (os : _) (h : runCaught (SevOp.run pc ledDefs 100) ledCopies ([], w) = .ret os (bufs, w')) (l : Life)
    (hn : ((ledCopies.zip os).foldl addLife [])[1]? = some l) :
    ∃ b w1, l.alone pc ledDefs 100 w = .ret (l.items.map (·.2)) (b, w1) ∧ answerOf (SevOp.run pc ledDefs 100 (.on 1 (.io .get)) (bufs, w')) = answerOf (Io.run pc .get (b, w1)) :=
  C98_alone led_separate ledCopies_respects h hn (op := .io .get) trivial

/-- Two counters: each dispatcher has a function which counts the calls. -/
def countDefs : Nat → List Val → Eff (Nat × Nat) (Option Val) := fun name _ w =>
  match name with
  | 1 => .ret (some (.int (w.1 % 256 : Nat))) (w.1 + 1, w.2)
  | _ => .ret (some (.int (w.2 % 256 : Nat))) (w.1, w.2 + 1)

/-- They do not communicate: each of them sees its counter. -/
theorem count_separate : Separate countDefs (fun n name => (n = 0 ∧ name = 1) ∨ (n = 1 ∧ name = 2)) (fun n w w' => (n = 0 → w.1 = w'.1) ∧ (n = 1 → w.2 = w'.2)) where
  refl := fun _ _ => ⟨fun _ => rfl, fun _ => rfl⟩
  symm := fun h => ⟨fun e => (h.1 e).symm, fun e => (h.2 e).symm⟩
  trans := fun h h' => ⟨fun e => (h.1 e).trans (h'.1 e), fun e => (h.2 e).trans (h'.2 e)⟩
  own := by
    rintro n name (⟨rfl, rfl⟩ | ⟨rfl, rfl⟩) args w w' h <;> simp at h <;> simp [countDefs, Alike, h]
  others := by
    rintro n m name hn (⟨rfl, rfl⟩ | ⟨rfl, rfl⟩) args w <;> simp [countDefs, hn]

end Upd
