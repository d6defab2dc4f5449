import Verif.Lemmas.Key
import Verif.Model.Dispatcher
import Verif.Spec.Request

namespace Upd
open Spec TypeList

variable {σ τ : Type}

/-- The action holds the callback `cb`, in one of the two ways, with the format `(e, s)`. -/
def Action.Holds (a : Action σ) (e : Endian) (s : Mode) (cb : Callback σ) : Prop :=
  a = .stored e s cb ∨ a = .weak e s cb

theorem Action.Holds.invoke {a : Action σ} {e : Endian} {s : Mode} {cb : Callback σ} (h : a.Holds e s cb) (P : Platform)
    (L : Lens τ σ) (src : Eff τ Byte) (dest : Byte → Eff τ Unit) :
    a.invoke P L src dest = call P e s cb L src dest := by
  rcases h with rfl | rfl
  · rfl
  · exact staticWrapper_eq P e s cb L src dest

theorem makeAction_holds (f : Features) (e : Endian) (s : Mode) (cb : Callback σ) : (makeAction f e s cb).Holds e s cb := by
  cases f
  · exact Or.inr rfl
  · exact Or.inl rfl

/-- An action on the encoding of arguments. -/
theorem call_args {P : Platform} (hP : P.Valid) {e : Endian} {s : Mode} (hs : Supported P e s) {cb : Callback σ}
    (hg : SigOk cb.sig) (L : Lens τ σ) {src : Eff τ Byte} {dest : Byte → Eff τ Unit} {args : List Val}
    (hf : Val.FitsAll (Safe P s) cb.sig.params args) {w w1 : τ} (hy : Yields src w (wires e s cb.sig.params args) w1) :
    call P e s cb L src dest w =
      (Eff.zoom L (cb.fn args) >>= fun r => respond P e s cb.sig.ret r dest) w1 := by
  rw [call_eq hP hs cb hg.1 hg.2.1, ← wires_length hg.2.1 hf, Eff.bind_ret (getN_yields hy),
    readAll_wires hP hs hg.1 hg.2.1 hf, Eff.lift_ok, pure_bind]

theorem zoom_ret {L : Lens τ σ} {α : Type} {x : Eff σ α} {w : τ} {a : α} {v : σ} (h : x (L.get w) = .ret a v) :
    Eff.zoom L x w = .ret a (L.put v w) := by
  unfold Eff.zoom; rw [h]

theorem zoom_threw {L : Lens τ σ} {α : Type} {x : Eff σ α} {w : τ} {v : σ} (h : x (L.get w) = .threw v) :
    Eff.zoom L x w = .threw (L.put v w) := by
  unfold Eff.zoom; rw [h]

theorem zoom_whole {α : Type} (x : Eff σ α) : Eff.zoom (Lens.whole σ) x = x := by
  funext w
  show (match x w with | .ret a w => .ret a w | .threw w => .threw w | .fault e => .fault e : Res σ α) = x w
  cases x w <;> rfl

theorem getIndex_eq {P : Platform} (hP : P.Valid) {D : Dispatcher σ} (hs : Supported P D.e D.s) (hi : 1 ≤ D.idxBytes)
    (src : Eff τ Byte) :
    D.getIndex P src = (getN src D.idxBytes >>= fun bs => pure (wireValue D.e bs)) := by
  unfold Dispatcher.getIndex
  have hws : Ty.WFs [.uint D.idxBytes] := by simp [Ty.WFs, Ty.WF, hi]
  rw [readFrom_eq hP hs hws (by simp [LooseAll, Loose])]
  rw [show Ty.serSizes [.uint D.idxBytes] = D.idxBytes by simp [Ty.serSizes, Ty.serSize]]
  apply Eff.bind_congr
  intro w bs w' h
  have hl := (getN_length h).1
  rw [View.get_eq P (Tuple.self D.e D.s [.uint D.idxBytes]) (by simp [Tuple.self])]
  show (Eff.lift (readAs P D.e D.s (.uint D.idxBytes) bs 0) >>= _) w' = _
  rw [readAs, readUint_ok hP D.e (by omega), slice_all hl]
  rfl

/-- `dispatcher::operator()` once the index is known. -/
theorem run_eq {P : Platform} (hP : P.Valid) {D : Dispatcher σ} (hs : Supported P D.e D.s) (hi : 1 ≤ D.idxBytes)
    (L : Lens τ σ) (src : Eff τ Byte) (dest : Byte → Eff τ Unit) :
    D.run P L src dest = (do
      let bs ← getN src D.idxBytes
      if wireValue D.e bs < D.size then do
        let a ← Eff.lift (D.at (wireValue D.e bs))
        a.invoke P L src dest
        pure (wireValue D.e bs)
      else pure (wireValue D.e bs)) := by
  unfold Dispatcher.run
  rw [getIndex_eq hP hs hi, bind_assoc]
  simp only [pure_bind]

theorem at_eq {D : Dispatcher σ} {i : Nat} {a : Action σ} (h : D.acts[i]? = some a) : D.at i = .ok a := by
  unfold Dispatcher.at; rw [h]

theorem make_acts {K : Keyring} {f : Features} {defs : Nat → List Val → Eff σ (Option Val)} {i : Nat}
    (hi : i < K.decls.length) :
    (Dispatcher.make K f defs).acts[i]? =
      some (makeAction f K.e K.s ⟨K.decls[i].sig, defs K.decls[i].name⟩) := by
  simp [Dispatcher.make, hi]

/-- A dispatcher fed with a request. -/
theorem run_request {P : Platform} (hP : P.Valid) {D : Dispatcher σ} (hs : Supported P D.e D.s) (hi : 1 ≤ D.idxBytes)
    {i : Nat} (hi1 : i < D.size) (hi2 : i < 256 ^ D.idxBytes) {a : Action σ} (ha : D.acts[i]? = some a) {cb : Callback σ}
    (hh : a.Holds D.e D.s cb) (hg : SigOk cb.sig) (L : Lens τ σ) {src : Eff τ Byte} {dest : Byte → Eff τ Unit}
    {args : List Val} (hf : Val.FitsAll (Safe P D.s) cb.sig.params args) {w w1 : τ}
    (hy : Yields src w (request D.e D.s D.idxBytes i cb.sig.params args) w1) :
    D.run P L src dest w =
      (Eff.zoom L (cb.fn args) >>= fun r => respond P D.e D.s cb.sig.ret r dest >>= fun _ => pure i) w1 := by
  obtain ⟨w0, hy0, hy1⟩ := Yields.split hy
  have hl := wireBytes_length D.e D.idxBytes i
  have hg0 := getN_yields hy0
  rw [hl] at hg0
  rw [run_eq hP hs hi, Eff.bind_ret hg0, wireValue_wireBytes hi2, if_pos hi1, at_eq ha, Eff.lift_ok, pure_bind,
    hh.invoke P L src dest]
  have := call_args hP hs hg L (dest := dest) hf hy1
  show Eff.bind _ _ w0 = _
  unfold Eff.bind
  rw [this, ← bind_assoc]
  rfl

end Upd
