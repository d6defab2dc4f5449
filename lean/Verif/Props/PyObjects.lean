import Verif.Lemmas.PyObjects
import Verif.Props.Python
import Verif.Props.Replace
import Verif.Props.Throwing
import Verif.Props.BufferedIO

/-!
# Python objects given to keys and dispatchers (C91)
-/

namespace Upd
open Spec Py

variable {σ : Type} {P : Platform} {L : Nat} {k : Key}

/-! ## Keys -/

/-- C91, `encode` on objects which stand for arguments of the right types: the packet of these arguments. -/
theorem C91_encode (hP : P.Valid) (hs : Supported P k.e k.s) (hk : 1 ≤ k.idxBytes) (hi : k.index < 256 ^ k.idxBytes) (hg : SigOk k.sig)
    (hb : ∀ t ∈ k.sig.params, Bindable t) {objs : List Obj} {args : List Val} (hd : DenotesAll k.sig.params objs args)
    (hf : Val.FitsAll (Safe P k.s) k.sig.params args) (w : σ) :
    Py.encode P L k objs w = .ret (request k.e k.s k.idxBytes k.index k.sig.params args) w := by
  have h1 : loads L k.sig.params objs = some args := (loads_iff hb).2 hd
  unfold Py.encode
  rw [h1]
  refine (Eff.bind_ret (a := args) (w' := w) rfl).trans ?_
  rw [C54_encode_partial hP hs hk hi hg (fun t ht => builtin_sizeof t (bindable_builtin (hb t ht))) hf]
  rfl

/-- C91, `encode` on any other objects (out of range, of another type, too many or too few): an exception, and nothing is encoded. -/
theorem C91_encode_refused (hb : ∀ t ∈ k.sig.params, Bindable t) {objs : List Obj} (hd : ¬ ∃ args, DenotesAll k.sig.params objs args) (w : σ) :
    Py.encode P L k objs w = .threw w := by
  have h1 : loads L k.sig.params objs = none := by
    cases h : loads L k.sig.params objs with
    | none => rfl
    | some args => exact absurd ⟨args, (loads_iff hb).1 h⟩ hd
  unfold Py.encode
  rw [h1]
  exact Eff.bind_threw (w' := w) rfl

/-- C91: objects stand for one list of arguments at most. -/
theorem C91_encode_unique {ts : List Ty} (hb : ∀ t ∈ ts, Bindable t) {objs : List Obj} {args args' : List Val} (h : DenotesAll ts objs args)
    (h' : DenotesAll ts objs args') : args = args' :=
  Option.some.inj (((loads_iff (L := 8) hb).2 h).symm.trans ((loads_iff (L := 8) hb).2 h'))

/-- C91: what is sent is in the range of the types. -/
theorem C91_encode_range : ∀ {ts : List Ty} {objs : List Obj} {args : List Val}, DenotesAll ts objs args → Val.FitsAll InRange ts args
  | _, _, _, .nil => by simp [Val.FitsAll]
  | _, _, _, .cons h1 h2 => by
    simp only [Val.FitsAll]
    exact ⟨denotes_fits h1, C91_encode_range h2⟩

/-- C91, `decode` on an iterable object whose first elements are the bytes of a response: the object for the value which was returned. -/
theorem C91_decode (hP : P.Valid) (hs : Supported P k.e k.s) (hg : SigOk k.sig) {r : Option Val} (hr : RetOk P k.s k.sig.ret r) {os : List Obj}
    (hb : AreBytes os (response k.e k.s k.sig.ret r)) (rest : List Obj) {o : Obj} (ho : ShowsRet r o) (w : σ) :
    Py.decode P L k (os ++ rest) w = .ret o w := by
  unfold Py.decode
  rw [C31_read_value hP hs hg hr _ (objSrc_yields hb rest)]
  cases ho with
  | void => rfl
  | value h =>
    simp only
    rw [ofVal_iff.2 h]
    rfl

/-- C91, `decode` on an iterable object which is too short, or with an element which is not a byte before the end of the response: an exception. -/
theorem C91_decode_refused (hP : P.Valid) (hs : Supported P k.e k.s) (hg : SigOk k.sig) {os : List Obj}
    (h : os.length < retSize k.sig.ret ∨ ∃ (i : Nat) (hi : i < os.length), i < retSize k.sig.ret ∧ NoByte os[i]) (w : σ) :
    Py.decode P L k os w = .threw w := by
  unfold Py.decode Key.readFrom
  cases hr : k.sig.ret with
  | none =>
    rw [hr] at h
    simp only [retSize] at h
    rcases h with h | ⟨_, _, h, _⟩ <;> exact absurd h (Nat.not_lt_zero _)
  | some t =>
    rw [hr] at h
    obtain ⟨hw, hp⟩ := hg.2.2 t hr
    have hws : Ty.WFs [t] := by simp [Ty.WFs, hw]
    have hps : PackedAll [t] := by simp [PackedAll, hp]
    simp only
    rw [readFrom_eq hP hs hws (packedAll_loose _ hps), packedAll_serSizes _ hps]
    obtain ⟨os', h1⟩ := getN_objs_stop (L := L) (wireSizes [t]) os (by simpa [wireSizes, retSize] using h)
    rw [Eff.bind_threw h1]

/-! ## Python functions -/

/-- C91: a Python function used as a callback. It is called once, on objects for the arguments; what it returns has to stand for a value of the return
type, otherwise an exception is thrown (for `void`, it is ignored). -/
theorem C91_function {ret : Option Ty} (hb : ∀ t, ret = some t → Bindable t) (fn : List Obj → Eff σ Obj) {args : List Val} {objs : List Obj}
    (hs : ShowsAll args objs) (w : σ) :
    match fn objs w with
    | .ret o w' => (∀ r, DenotesRet ret o r → Py.makeAction L ret fn args w = .ret r w') ∧
        ((¬ ∃ r, DenotesRet ret o r) → Py.makeAction L ret fn args w = .threw w')
    | .threw w' => Py.makeAction L ret fn args w = .threw w'
    | .fault f => Py.makeAction L ret fn args w = .fault f := by
  unfold Py.makeAction
  rw [ofVals_iff.2 hs]
  have h0 : orRaise (σ := σ) (some objs) w = .ret objs w := rfl
  rw [Eff.bind_ret h0]
  cases hf : fn objs w with
  | fault e => exact Eff.bind_fault hf
  | threw w' => exact Eff.bind_threw hf
  | ret o w' =>
    rw [Eff.bind_ret hf]
    cases ret with
    | none =>
      refine ⟨fun r hr => ?_, fun h => absurd ⟨_, .void o⟩ h⟩
      cases hr
      rfl
    | some t =>
      have hbt := hb t rfl
      refine ⟨fun r hr => ?_, fun h => ?_⟩
      · cases hr with
        | value hd =>
          simp only
          rw [(load_iff hbt).2 hd]
          rfl
      · simp only
        cases hl : load L t o with
        | none => rfl
        | some v => exact absurd ⟨_, .value ((load_iff hbt).1 hl)⟩ h

/-- C91: whatever the Python function does, it is a callback of the right type for the library, if all the values of the return type can be encoded. -/
theorem C91_well_typed {s : Mode} {g : Sig} (hb : ∀ t, g.ret = some t → Bindable t ∧ Sends P s t) (fn : List Obj → Eff σ Obj) :
    WellTyped P s ⟨g, Py.makeAction L g.ret fn⟩ := by
  intro args w r w' _ hr
  simp only [Py.makeAction] at hr
  cases ho : Obj.ofVals args with
  | none =>
    have h0 : orRaise (σ := σ) (Obj.ofVals args) w = .threw w := by rw [ho]; rfl
    rw [Eff.bind_threw h0] at hr
    cases hr
  | some objs =>
    have h0 : orRaise (σ := σ) (Obj.ofVals args) w = .ret objs w := by rw [ho]; rfl
    rw [Eff.bind_ret h0] at hr
    cases hf : fn objs w with
    | fault e => rw [Eff.bind_fault hf] at hr; cases hr
    | threw w1 => rw [Eff.bind_threw hf] at hr; cases hr
    | ret o w1 =>
      rw [Eff.bind_ret hf] at hr
      cases hg : g.ret with
      | none =>
        rw [hg] at hr
        cases hr
        trivial
      | some t =>
        obtain ⟨hbt, hst⟩ := hb t hg
        rw [hg] at hr
        simp only at hr
        cases hl : load L t o with
        | none =>
          have h1 : orRaise (σ := σ) (load L t o) w1 = .threw w1 := by rw [hl]; rfl
          rw [Eff.bind_threw h1] at hr
          cases hr
        | some v =>
          have h1 : orRaise (σ := σ) (load L t o) w1 = .ret v w1 := by rw [hl]; rfl
          rw [Eff.bind_ret h1] at hr
          cases hr
          exact hst v (denotes_fits ((load_iff hbt).1 hl))

/-! ## Remote calls between Python programs -/

/-- C91, `Client.call`: an exception is raised before the request is sent if the objects do not stand for arguments of the right types. -/
theorem C91_call_refused (hb : ∀ t ∈ k.sig.params, Bindable t) {objs : List Obj} (hd : ¬ ∃ args, DenotesAll k.sig.params objs args)
    (newRequest : List Byte → Eff σ (Response Obj)) (w : σ) : Py.call P L k newRequest objs w = .threw w :=
  Eff.bind_threw (C91_encode_refused hb hd w)

/-- C91, `Client.call`, through a dispatcher of the same keyring on which the function `name` is a Python function: the latter is called once, on objects
for the arguments, and `call` gives the object for what it returned. -/
theorem C91_call {Q : Platform} {L' : Nat} (hP : P.Valid) (hQ : Q.Valid) {K : Keyring} (hK : KeyringOk K) (hsP : Supported P K.e K.s)
    (hsQ : Supported Q K.e K.s) (f : Features) (defs : Nat → List Val → Eff σ (Option Val)) {name : Nat}
    (hk : K.get11 name = some k ∨ K.get17 name = some k) (hb : ∀ t ∈ k.sig.params, Bindable t) (hbr : ∀ t, k.sig.ret = some t → Bindable t)
    {fn : List Obj → Eff σ Obj} (hdefs : defs name = Py.makeAction L' k.sig.ret fn) {objs objs' : List Obj} {args : List Val}
    (hd : DenotesAll k.sig.params objs args) (hs : ShowsAll args objs') (hfP : Val.FitsAll (Safe P K.s) k.sig.params args)
    (hfQ : Val.FitsAll (Safe Q K.s) k.sig.params args) {w w' : σ} {o o' : Obj} (hfn : fn objs' w = .ret o w') {r : Option Val}
    (hr : DenotesRet k.sig.ret o r) (ho : ShowsRet r o') (hrP : RetOk P K.s k.sig.ret r) (hrQ : RetOk Q K.s k.sig.ret r) :
    Py.call P L k (viaDispatcher Q K f defs) objs w = .ret o' w' := by
  have hdn : defs name args w = .ret r w' := by
    have := C91_function (L := L') hbr fn hs w
    rw [hfn] at this
    rw [hdefs]
    exact this.1 r hr
  have h1 := C54_client_partial (ρ := Obj) hP hQ hK hsP hsQ f defs hk (fun t ht => builtin_sizeof t (bindable_builtin (hb t ht))) hfP hfQ hdn hrP hrQ
  have hk' : K.get11 name = some k := hk.elim id get17_get11
  obtain ⟨i, hi, hn, rfl⟩ := K.get11_cases hK.1 hk'
  have hg := hK.2 K.decls[i] (List.getElem_mem _)
  have hib : i < 256 ^ K.idxBytes := Nat.lt_trans hi (idxBytes_pos hK.1).2
  have hib1 : 1 ≤ K.idxBytes := (idxBytes_pos hK.1).1
  have he := C54_encode_partial (k := ⟨K.e, K.s, K.idxBytes, i, K.decls[i].sig⟩) hP hsP hib1 hib hg
    (fun t ht => builtin_sizeof t (bindable_builtin (hb t ht))) hfP
  have he2 := C91_encode (L := L) (k := ⟨K.e, K.s, K.idxBytes, i, K.decls[i].sig⟩) hP hsP hib1 hib hg hb hd hfP w
  unfold Client.call at h1
  rw [he, Eff.lift_ok, pure_bind] at h1
  unfold Py.call
  rw [Eff.bind_ret he2]
  generalize viaDispatcher (ρ := Obj) Q K f defs = nr at h1 ⊢
  dsimp only at h1 ⊢
  cases hn : nr (request K.e K.s K.idxBytes i K.decls[i].sig.params args) w with
  | fault e => rw [Eff.bind_fault hn] at h1; cases h1
  | threw w1 => rw [Eff.bind_threw hn] at h1; cases h1
  | ret resp w1 =>
    rw [Eff.bind_ret hn] at h1 ⊢
    cases resp with
    | other o => cases h1
    | bytes l =>
      dsimp only at h1 ⊢
      cases hde : PyKey.decode P ⟨K.e, K.s, K.idxBytes, i, K.decls[i].sig⟩ l with
      | fault e => rw [hde] at h1; cases h1
      | threw u => rw [hde] at h1; cases h1
      | ret v u =>
        rw [hde] at h1
        injection h1 with h1 h2
        injection h1 with h1
        subst h1 h2
        unfold PyKey.decode at hde
        unfold Py.decode
        have h3 : ∃ l', Key.readFrom P ⟨K.e, K.s, K.idxBytes, i, K.decls[i].sig⟩ (objSrc L) (ofBytes l) = .ret v l' := by
          unfold Key.readFrom at hde ⊢
          cases hret : K.decls[i].sig.ret with
          | none =>
            simp only [hret] at hde ⊢
            cases hde
            exact ⟨_, rfl⟩
          | some t =>
            obtain ⟨hw, hp⟩ := hg.2.2 t hret
            have hws : Ty.WFs [t] := by simp [Ty.WFs, hw]
            have hps : PackedAll [t] := by simp [PackedAll, hp]
            simp only [hret] at hde ⊢
            rw [readFrom_eq hP hsP hws (packedAll_loose _ hps)] at hde ⊢
            cases hgn : getN pySrc (Ty.serSizes [t]) l with
            | fault e => rw [Eff.bind_fault hgn] at hde; cases hde
            | threw e => rw [Eff.bind_threw hgn] at hde; cases hde
            | ret bs l' =>
              rw [Eff.bind_ret hgn] at hde
              rw [Eff.bind_ret (getN_objs _ _ hgn)]
              cases hgt : (Tuple.self K.e K.s [t]).get P 0 bs with
              | error e => rw [hgt] at hde; cases hde
              | ok v' =>
                rw [hgt] at hde
                cases hde
                exact ⟨_, rfl⟩
        obtain ⟨l', h3⟩ := h3
        rw [h3]
        cases ho with
        | void => rfl
        | value h =>
          simp only
          rw [ofVal_iff.2 h]
          rfl

/-- C91, `Client.call` when `new_request` returns something else than `bytes` or raises (a response which will come later, say): `new_request` is called on
the request, and `call` returns the same object or raises. -/
theorem C91_call_other (hP : P.Valid) (hs : Supported P k.e k.s) (hk : 1 ≤ k.idxBytes) (hi : k.index < 256 ^ k.idxBytes) (hg : SigOk k.sig)
    (hb : ∀ t ∈ k.sig.params, Bindable t) {objs : List Obj} {args : List Val} (hd : DenotesAll k.sig.params objs args)
    (hf : Val.FitsAll (Safe P k.s) k.sig.params args) (newRequest : List Byte → Eff σ (Response Obj)) (w : σ) :
    (∀ o w', newRequest (request k.e k.s k.idxBytes k.index k.sig.params args) w = .ret (.other o) w' → Py.call P L k newRequest objs w = .ret o w') ∧
    (∀ w', newRequest (request k.e k.s k.idxBytes k.index k.sig.params args) w = .threw w' → Py.call P L k newRequest objs w = .threw w') := by
  have h1 := C91_encode (L := L) hP hs hk hi hg hb hd hf w
  constructor
  · intro o w' h
    exact (Eff.bind_ret h1).trans ((Eff.bind_ret h).trans rfl)
  · intro w' h
    exact (Eff.bind_ret h1).trans (Eff.bind_threw h)

/-- C91, `Client.call` on plain objects: integers in the range of the types, `bool` objects for `bool`, lists of the right length. The Python function
receives the very same objects, and the caller the very same object as the one which is returned. -/
theorem C91_call_same {Q : Platform} {L' : Nat} (hP : P.Valid) (hQ : Q.Valid) {K : Keyring} (hK : KeyringOk K) (hsP : Supported P K.e K.s)
    (hsQ : Supported Q K.e K.s) (f : Features) (defs : Nat → List Val → Eff σ (Option Val)) {name : Nat}
    (hk : K.get11 name = some k ∨ K.get17 name = some k) (hb : ∀ t ∈ k.sig.params, Bindable t) (hbr : ∀ t, k.sig.ret = some t → Bindable t)
    {fn : List Obj → Eff σ Obj} (hdefs : defs name = Py.makeAction L' k.sig.ret fn) {objs : List Obj} {args : List Val}
    (hs : ShowsAll args objs) (hr : Val.FitsAll InRange k.sig.params args) (hfP : Val.FitsAll (Safe P K.s) k.sig.params args)
    (hfQ : Val.FitsAll (Safe Q K.s) k.sig.params args) {w w' : σ} {o : Obj} (hfn : fn objs w = .ret o w') {t : Ty} (ht : k.sig.ret = some t) {v : Val}
    (ho : Shows v o) (hv : v.Fits InRange t) (hvP : v.Fits (Safe P K.s) t) (hvQ : v.Fits (Safe Q K.s) t) :
    Py.call P L k (viaDispatcher Q K f defs) objs w = .ret o w' :=
  C91_call hP hQ hK hsP hsQ f defs hk hb hbr hdefs (denotesAll_of_showsAll hr hs) hs hfP hfQ hfn (r := some v)
    (by rw [ht]; exact .value (denotes_of_shows t hv ho)) (.value ho) (by rw [ht]; exact hvP) (by rw [ht]; exact hvQ)

/-! ## Dispatchers -/

/-- C91, `put` on an object which is not an integer from 0 to 255: an exception, and the dispatcher is left as it was. -/
theorem C91_put_refused {o : Obj} (ho : NoByte o) (st : BState σ) : Py.put P L o st = .threw st := by
  unfold Py.put
  rw [loadByte_none ho]
  exact Eff.bind_threw (w' := st) rfl

/-- C91, `put` on a byte. -/
theorem C91_put {o : Obj} {x : Byte} (ho : IsNumber o x.toNat) (st : BState σ) : Py.put P L o st = Buf.put P x st := by
  unfold Py.put
  rw [loadByte_iff.2 ho]
  exact Eff.bind_ret (a := x) (w' := st) rfl

/-- C91, `get`: the next byte as an `int`. -/
theorem C91_get {b : Buf σ} {x : Byte} {out : List Byte} (hu : Unread b (x :: out)) (w : σ) :
    ∃ b', Py.get (b, w) = .ret (.int x.toNat) (b', w) ∧ Unread b' out := by
  obtain ⟨_, h1, h2, _⟩ := get_cons hu w
  exact ⟨_, (Eff.bind_ret h1).trans rfl, h2⟩

variable {K : Keyring} {f : Features} {defs : Nat → List Val → Eff σ (Option Val)} {shared : Bool}

/-- C91, `read_from` on a Python function which returns the bytes of a request one after the other. -/
theorem C91_read_from (h : Setting P K f defs) {b : Buf σ} {w w1 : σ} (hr : Reachable P K f defs shared (b, w)) (hp : Pending b [])
    {i : Nat} (hi : i < K.decls.length) {args : List Val} (hf : Val.FitsAll (Safe P K.s) K.decls[i].sig.params args)
    (ho : retSize K.decls[i].sig.ret ≤ outRoom K shared) {fn : Eff σ Obj} {os : List Obj} (hfn : Returns fn w os w1)
    (hb : AreBytes os (request K.e K.s K.idxBytes i K.decls[i].sig.params args)) :
    match defs K.decls[i].name args w1 with
    | .ret r w' => ∃ b', Py.readFrom P L fn (b, w) = .ret .resolved (b', w') ∧ Pending b' [] ∧ Unread b' (response K.e K.s K.decls[i].sig.ret r)
    | .threw w' => ∃ b', Py.readFrom P L fn (b, w) = .threw (b', w')
    | .fault flt => Py.readFrom P L fn (b, w) = .fault flt :=
  C44_request h hr hp hi hf ho (getter_yields hfn hb)

/-- C91, `read_from` on a Python function which returns an object which is no byte in the middle of a packet: an exception; the bytes received so far are
kept, and a later `read_from` may complete the packet (see C52). -/
theorem C91_read_from_refused (h : Setting P K f defs) {b : Buf σ} {w w1 w2 : σ} (hr : Reachable P K f defs shared (b, w)) {l bs : List Byte}
    (hp : Pending b l) (hi : Incomplete (protoOf K defs) (l ++ bs)) {fn : Eff σ Obj} {os : List Obj} (hfn : Returns fn w os w1) (hb : AreBytes os bs)
    {o : Obj} (ho : fn w1 = .ret o w2) (hn : NoByte o) :
    ∃ b', Py.readFrom P L fn (b, w) = .threw (b', w2) ∧ Pending b' (l ++ bs) := by
  obtain ⟨b', h1, h2, _⟩ := C52_resume h hr hp hi (getter_yields (L := L) hfn hb) (getter_stop ho hn)
  exact ⟨b', h1, h2⟩

/-- C91, `write_to` on a Python function: it is called on each byte of the response; what it returns is ignored. -/
theorem C91_write_to {b : Buf σ} {out : List Byte} (hu : Unread b out) {fn : Obj → Eff σ Obj} {w w' : σ} (hh : Hears fn w out w') :
    ∃ b', Py.writeTo fn (b, w) = .ret () (b', w') ∧ Unread b' [] ∧ b'.isLoaded = false := by
  refine C45_write_to hu ?_
  clear hu
  induction hh with
  | nil w => exact .nil _
  | cons h1 _ ih =>
    refine .cons ?_ ih
    unfold putter
    rw [Eff.bind_ret h1]
    rfl

theorem pyReplace_eq {n : Nat} {b : Buf σ} {p : Proto σ} {m : Machine} (ht : Tracks P K .any shared n b p m) {i : Nat} (hi : i < K.decls.length)
    (hib : i < 256 ^ K.idxBytes) (fn : List Val → Eff σ (Option Val)) :
    b.pyReplace ⟨K.e, K.s, K.idxBytes, i, K.decls[i].sig⟩ fn = .ok (b.replaceStatic i ⟨K.decls[i].sig, fn⟩) := by
  have h1 : i % 256 ^ b.disp.idxBytes = i := by
    rw [ht.ok.serves.idx, ht.idx]
    exact Nat.mod_eq_of_lt hib
  unfold Buf.pyReplace Buf.assign Buf.replaceStatic Dispatcher.replaceStatic makeAction
  simp only [h1]
  rw [if_pos (by rw [ht.len]; exact hi), ht.feat, ht.ok.serves.e, ht.ok.serves.s, ht.e, ht.s]

theorem replace_put (b : Buf σ) (w : σ) (i : Nat) (cb : Callback σ) (x : Byte) :
    runAll (Call.run P) [.replaceStatic i cb, .io (.put x)] (b, w) =
      match Buf.put P x (b.replaceStatic i cb, w) with
      | .ret st t => .ret [.unit, .status st] t
      | .threw t => .threw t
      | .fault f => .fault f := by
  have h0 : (Call.replaceStatic i cb).run P (b, w) = .ret .unit (b.replaceStatic i cb, w) := rfl
  refine (Eff.bind_ret h0).trans ?_
  cases hr : Buf.put P x (b.replaceStatic i cb, w) with
  | ret st t =>
    have h1 : (Call.io (σ := σ) (.put x)).run P (b.replaceStatic i cb, w) = .ret (.status st) t := Eff.bind_ret hr
    have h2 : runAll (Call.run P) [.io (.put x)] (b.replaceStatic i cb, w) = .ret [.status st] t := (Eff.bind_ret h1).trans rfl
    exact (Eff.bind_ret h2).trans rfl
  | threw t =>
    have h1 : (Call.io (σ := σ) (.put x)).run P (b.replaceStatic i cb, w) = .threw t := Eff.bind_threw hr
    have h2 : runAll (Call.run P) [.io (.put x)] (b.replaceStatic i cb, w) = .threw t := Eff.bind_threw h1
    exact Eff.bind_threw h2
  | fault f =>
    have h1 : (Call.io (σ := σ) (.put x)).run P (b.replaceStatic i cb, w) = .fault f := Eff.bind_fault hr
    have h2 : runAll (Call.run P) [.io (.put x)] (b.replaceStatic i cb, w) = .fault f := Eff.bind_fault h1
    exact Eff.bind_fault h2

/-- C91, `replace` by a Python function, even in the middle of a request: when the last byte of the request is put, the function is called on objects
for the arguments. The response is what it returned; if this does not stand for a value of the return type, or if the function raises an exception,
`put` throws. -/
theorem C91_replace (h : Setting P K .any defs) {b : Buf σ} {w : σ} (hr : Reachable P K .any defs shared (b, w)) {name : Nat}
    (hk : K.get11 name = some k) (hbr : ∀ t, k.sig.ret = some t → Bindable t ∧ Sends P K.s t) (ho : retSize k.sig.ret ≤ outRoom K shared)
    {args : List Val} (hf : Val.FitsAll (Safe P K.s) k.sig.params args) {objs : List Obj} (hs : ShowsAll args objs) {l : List Byte} {x : Byte}
    (hl : request K.e K.s K.idxBytes k.index k.sig.params args = l ++ [x]) (hp : Pending b l) (fn : List Obj → Eff σ Obj) :
    ∃ b1, Py.replace L b k fn = .ok b1 ∧ Pending b1 l ∧
      match fn objs w with
      | .ret o w' => (∀ r, DenotesRet k.sig.ret o r → ∃ b', Buf.put P x (b1, w) = .ret .resolved (b', w') ∧ Pending b' [] ∧
            Unread b' (response K.e K.s k.sig.ret r)) ∧
          ((¬ ∃ r, DenotesRet k.sig.ret o r) → ∃ b', Buf.put P x (b1, w) = .threw (b', w'))
      | .threw w' => ∃ b', Buf.put P x (b1, w) = .threw (b', w')
      | .fault flt => Buf.put P x (b1, w) = .fault flt := by
  obtain ⟨i, hi, hn, rfl⟩ := K.get11_cases h.ring.1 hk
  have hwt := C91_well_typed (P := P) (L := L) (s := K.s) (g := K.decls[i].sig) hbr fn
  have hc : Suits P K i (⟨K.decls[i].sig, Py.makeAction L K.decls[i].sig.ret fn⟩ : Callback σ) :=
    ⟨⟨K.decls[i], List.getElem?_eq_getElem hi, rfl⟩, hwt⟩
  obtain ⟨_, _, _, out, hm⟩ := reachable_pending h hr hp
  have ht := reachable_tracks h hr hp hm.outp
  have hrep := pyReplace_eq ht hi (Nat.lt_trans hi (idxBytes_pos h.ring.1).2) (Py.makeAction L K.decls[i].sig.ret fn)
  refine ⟨_, hrep, ⟨hp.next, hp.bytes⟩, ?_⟩
  have h1 := C59_midway h hr hc ho hf hl hp
  rw [replace_put] at h1
  have h2 := C91_function (L := L) (fun t ht => (hbr t ht).1) fn hs w
  dsimp only at h1
  have h3 : ∀ {w'}, Py.makeAction L K.decls[i].sig.ret fn args w = .threw w' →
      ∃ b', Buf.put P x (b.replaceStatic i ⟨K.decls[i].sig, Py.makeAction L K.decls[i].sig.ret fn⟩, w) = .threw (b', w') := by
    intro w' h4
    rw [h4] at h1
    obtain ⟨b', h1⟩ := h1
    cases hq : Buf.put P x (b.replaceStatic i ⟨K.decls[i].sig, Py.makeAction L K.decls[i].sig.ret fn⟩, w) with
    | ret a st => rw [hq] at h1; cases h1
    | fault e => rw [hq] at h1; cases h1
    | threw st => rw [hq] at h1; cases h1; exact ⟨_, rfl⟩
  cases hfn : fn objs w with
  | fault e =>
    rw [hfn] at h2
    rw [h2] at h1
    cases hq : Buf.put P x (b.replaceStatic i ⟨K.decls[i].sig, Py.makeAction L K.decls[i].sig.ret fn⟩, w) with
    | ret a st => rw [hq] at h1; cases h1
    | fault e => rw [hq] at h1; cases h1; rfl
    | threw st => rw [hq] at h1; cases h1
  | threw w' =>
    rw [hfn] at h2
    exact h3 h2
  | ret o w' =>
    rw [hfn] at h2
    refine ⟨fun r hr => ?_, fun hn => h3 (h2.2 hn)⟩
    rw [h2.1 r hr] at h1
    obtain ⟨b', h1, h4⟩ := h1
    cases hq : Buf.put P x (b.replaceStatic i ⟨K.decls[i].sig, Py.makeAction L K.decls[i].sig.ret fn⟩, w) with
    | ret a st => rw [hq] at h1; cases h1; exact ⟨_, rfl, h4⟩
    | fault e => rw [hq] at h1; cases h1
    | threw st => rw [hq] at h1; cases h1

/-- C91, a Python function which returns an object which does not stand for a value of the return type: no response is offered, and the dispatcher does
not process the next request; the bytes which follow are ignored as long as they fit in the input buffer, then written out of bounds (see C51). -/
theorem C91_jam (h : Setting P K f defs) {b : Buf σ} {w w' : σ} (hr : Reachable P K f defs shared (b, w)) {name : Nat}
    (hk : K.get11 name = some k) (hb : ∀ t, k.sig.ret = some t → Bindable t) {fn : List Obj → Eff σ Obj}
    (hdefs : defs name = Py.makeAction L k.sig.ret fn) {args : List Val} (hf : Val.FitsAll (Safe P K.s) k.sig.params args) {objs : List Obj}
    (hs : ShowsAll args objs) {l : List Byte} {x : Byte} (hl : request K.e K.s K.idxBytes k.index k.sig.params args = l ++ [x]) (hp : Pending b l)
    (ho : retSize k.sig.ret ≤ outRoom K shared) {o : Obj} (hfn : fn objs w = .ret o w') (hn : ¬ ∃ r, DenotesRet k.sig.ret o r) :
    ∃ b', Buf.put P x (b, w) = .threw (b', w') ∧ Unread b' [] ∧
      (neededInput K ≤ b'.sizeMax → ∀ xs : List Byte,
        (l.length + 1 + xs.length ≤ neededInput K → ∃ b'', puts P xs (b', w') = .ret (List.replicate xs.length .loading) (b'', w')) ∧
        (neededInput K < l.length + 1 + xs.length → puts P xs (b', w') = .fault .ibufOverrun)) := by
  obtain ⟨i, hi, hname, rfl⟩ := K.get11_cases h.ring.1 hk
  have h1 := C91_function (L := L) hb fn hs w
  rw [hfn] at h1
  have h2 : defs K.decls[i].name args w = .threw w' := by rw [hname, hdefs]; exact h1.2 hn
  have h3 := C39_resolved h hr hi hf ho hl hp
  rw [h2] at h3
  obtain ⟨b', h3⟩ := h3
  exact ⟨b', h3, (C51_throw_partial h hr h3).2, fun hm xs => C51_stuck h hr hp h3 hm xs⟩

/-! ## Examples -/

section

/-- `double: (std::uint8_t) -> std::uint16_t`, `blink: (bool, std::array<std::int16_t, 2>) -> bool`, `halt: () -> void`. -/
def pyRing : Keyring := ⟨.big, .twosComplement, [⟨10, [.uint 1], some (.uint 2)⟩, ⟨20, [.bool, .arr (.sint 2) 2], some .bool⟩, ⟨30, [], none⟩]⟩

def doubleKey : Key := ⟨.big, .twosComplement, 1, 0, ⟨[.uint 1], some (.uint 2)⟩⟩

def blinkKey : Key := ⟨.big, .twosComplement, 1, 1, ⟨[.bool, .arr (.sint 2) 2], some .bool⟩⟩

/-- `def double(x): return 2 * x`, and counts the calls. -/
def pyDouble : List Obj → Eff Nat Obj
  | [.int z], n => .ret (.int (2 * z)) (n + 1)
  | _, n => .threw n

/-- `def blink(on, times): return times`: a list is no `bool`. -/
def pyBlink : List Obj → Eff Nat Obj
  | [_, o], n => .ret o (n + 1)
  | _, n => .threw n

def pyDefs : Nat → List Val → Eff Nat (Option Val)
  | 10 => Py.makeAction 8 (some (.uint 2)) pyDouble
  | 20 => Py.makeAction 8 (some .bool) pyBlink
  | _ => Py.makeAction 8 none fun _ n => .ret (.list []) n

theorem doubleKey_sig : SigOk doubleKey.sig := by simp [doubleKey, SigOk, Ty.WFs, Ty.WF, PackedAll, Packed]

theorem blinkKey_sig : SigOk blinkKey.sig := by simp [blinkKey, SigOk, Ty.WFs, Ty.WF, PackedAll, Packed, Ty.sizeof, wireSize]

theorem pyRing_ok : KeyringOk pyRing :=
  ⟨by decide, by simp [pyRing, SigOk, Ty.WFs, Ty.WF, PackedAll, Packed, Ty.sizeof, wireSize]⟩

theorem sends_uint (n : Nat) : Sends pc .twosComplement (.uint n) := by
  intro v hv
  cases v <;> simp_all [Val.Fits]

theorem sends_bool : Sends pc .twosComplement .bool := by
  intro v hv
  cases v <;> simp_all [Val.Fits]

theorem py_setting : Setting pc pyRing .any pyDefs where
  valid := pc_valid
  ring := pyRing_ok
  sup := pc_supported _ _
  sizes := by simp [pyRing, Ty.sizeof, wireSize]
  typed := by
    intro d hd
    simp only [pyRing, List.mem_cons, List.not_mem_nil, or_false] at hd
    rcases hd with rfl | rfl | rfl
    · exact C91_well_typed (g := ⟨[.uint 1], some (.uint 2)⟩) (by intro t h; cases h; exact ⟨by simp [Bindable], sends_uint 2⟩) _
    · exact C91_well_typed (g := ⟨[.bool, .arr (.sint 2) 2], some .bool⟩) (by intro t h; cases h; exact ⟨trivial, sends_bool⟩) _
    · exact C91_well_typed (L := 8) (g := ⟨[], none⟩) (by intro t h; cases h) _

theorem blink_bindable : ∀ t ∈ blinkKey.sig.params, Bindable t := by simp [blinkKey, Bindable]

theorem double_bindable : ∀ t ∈ doubleKey.sig.params, Bindable t := by simp [doubleKey, Bindable]

/-- `1` for a `bool`, the tuple `(-2, True)` for an array of integers. -/
theorem blink_denotes : DenotesAll blinkKey.sig.params [.int 1, .list [.int (-2), .bool true]] [.bool true, .arr [.int (-2), .int 1]] :=
  .cons (.bool (.int (by decide))) (.cons (.arr (.cons (.sint (.int _) (by unfold InRange; decide)) (.cons (.sint .yes (by unfold InRange; decide)) .nil))) .nil)

example : Py.encode pc 8 blinkKey [.int 1, .list [.int (-2), .bool true]] () = .ret [1#8, 1#8, 0xff#8, 0xfe#8, 0#8, 1#8] () :=
  C91_encode pc_valid (pc_supported _ _) (Nat.le_refl 1) (by decide) blinkKey_sig blink_bindable blink_denotes
    (by simp [blinkKey, pyRing, Val.FitsAll, Val.Fits, Safe, Representable, InRange]) ()

/-- 256 is not in the range of `std::uint8_t`. -/
example : Py.encode pc 8 doubleKey [.int 256] () = .threw () :=
  C91_encode_refused double_bindable (by rintro ⟨_, h⟩; cases h with | cons h _ => cases h with | uint h _ h2 => cases h; exact absurd h2 (by decide)) ()

/-- A `float` is refused for an integer. -/
example : Py.encode pc 8 doubleKey [.float false] () = .threw () :=
  C91_encode_refused double_bindable (by rintro ⟨_, h⟩; cases h with | cons h _ => cases h with | uint h _ h2 => cases h) ()

/-- Too few arguments. -/
example : Py.encode pc 8 doubleKey [] () = .threw () :=
  C91_encode_refused double_bindable (by rintro ⟨_, h⟩; cases h) ()

example {args : List Val} (h : DenotesAll blinkKey.sig.params [.int 1, .list [.int (-2), .bool true]] args) :
    args = [.bool true, .arr [.int (-2), .int 1]] := C91_encode_unique blink_bindable h blink_denotes

example : Val.FitsAll InRange blinkKey.sig.params [.bool true, .arr [.int (-2), .int 1]] := C91_encode_range blink_denotes

example : Py.decode pc 8 doubleKey [.bool true, .int 4, .none] () = .ret (.int 260) () :=
  C91_decode pc_valid (pc_supported _ _) doubleKey_sig (r := some (.int 260)) (by simp [doubleKey, RetOk, Val.Fits])
    (os := [.bool true, .int 4]) (.cons (b := 1#8) .yes (.cons (b := 4#8) (.int 4) .nil)) [.none] (.value (.int 260)) ()

theorem large_noByte : NoByte (.int 256) := by
  intro b h
  generalize hz : (b.toNat : Int) = z at h
  cases h
  have := b.isLt
  omega

theorem none_noByte : NoByte .none := by
  intro b h
  generalize (b.toNat : Int) = z at h
  cases h

example : Py.decode pc 8 doubleKey [.int 1] () = .threw () := C91_decode_refused pc_valid (pc_supported _ _) doubleKey_sig (.inl (by decide)) ()

example : Py.decode pc 8 doubleKey [.int 1, .int 256] () = .threw () :=
  C91_decode_refused pc_valid (pc_supported _ _) doubleKey_sig (.inr ⟨1, by decide, by decide, large_noByte⟩) ()

example : Py.makeAction 8 (some (.uint 2)) pyDouble [.int 21] 5 = .ret (some (.int 42)) 6 :=
  (C91_function (by intro t h; cases h; simp [Bindable]) pyDouble (.cons (.int 21) .nil) 5).1 _
    (.value (.uint (.int 42) (by decide) (by decide)))

theorem blink_wrong : ¬ ∃ r, DenotesRet (some .bool) (.list [.int (-2), .int 1]) r := by
  rintro ⟨_, h⟩
  cases h with | value h => cases h with | bool h => cases h

example : Py.makeAction 8 (some .bool) pyBlink [.bool true, .arr [.int (-2), .int 1]] 5 = .threw 6 :=
  (C91_function (by intro t h; cases h; trivial) pyBlink (.cons (.bool true) (.cons (.arr (.cons (.int (-2)) (.cons (.int 1) .nil))) .nil)) 5).2 blink_wrong

example : Py.call pc 8 doubleKey (fun _ w => .ret (.bytes [0#8, 0#8]) (w + 1)) [.int (-1)] 0 = .threw 0 :=
  C91_call_refused double_bindable (by rintro ⟨_, h⟩; cases h with | cons h _ => cases h with | uint h h2 _ => cases h; exact absurd h2 (by decide)) _ 0

/-- `new_request` sends the request, and returns an object which stands for the response to come. -/
example : Py.call pc 8 doubleKey (fun l w => .ret (.other (.list [.int w.length])) (w ++ l)) [.int 7] [] = .ret (.list [.int 0]) [0#8, 7#8] :=
  (C91_call_other pc_valid (pc_supported _ _) (Nat.le_refl 1) (by decide) doubleKey_sig double_bindable (args := [.int 7])
    (.cons (.uint (.int 7) (by decide) (by decide)) .nil) (by simp [doubleKey, Val.FitsAll, Val.Fits]) _ _).1 _ _ rfl

theorem double_get : pyRing.get11 10 = some doubleKey := rfl

theorem blink_get : pyRing.get11 20 = some blinkKey := rfl

/-- From a computer where `long` has 8 bytes to one where it has 4. -/
example : Py.call pc 8 doubleKey (viaDispatcher pc pyRing .any fun _ => Py.makeAction 4 (some (.uint 2)) pyDouble) [.bool true] 0 = .ret (.int 2) 1 :=
  C91_call (L' := 4) pc_valid pc_valid pyRing_ok (pc_supported _ _) (pc_supported _ _) .any _ (name := 10) (.inl double_get) double_bindable
    (by intro t h; cases h; simp [Bindable]) (fn := pyDouble) rfl (objs' := [.int 1]) (args := [.int 1]) (.cons (.uint .yes (by decide) (by decide)) .nil)
    (.cons (.int 1) .nil) (by simp [doubleKey, Val.FitsAll, Val.Fits]) (by simp [doubleKey, Val.FitsAll, Val.Fits]) (o := .int 2) rfl (r := some (.int 2))
    (.value (.uint (.int 2) (by decide) (by decide))) (.value (.int 2)) (by simp [doubleKey, RetOk, Val.Fits]) (by simp [doubleKey, RetOk, Val.Fits])

example : Py.call pc 8 doubleKey (viaDispatcher pc pyRing .any pyDefs) [.int 200] 0 = .ret (.int 400) 1 :=
  C91_call_same (L' := 8) pc_valid pc_valid pyRing_ok (pc_supported _ _) (pc_supported _ _) .any _ (name := 10) (.inl double_get) double_bindable
    (by intro t h; cases h; simp [Bindable]) (fn := pyDouble) rfl (.cons (.int 200) .nil) (by simp [doubleKey, Val.FitsAll, Val.Fits])
    (by simp [doubleKey, Val.FitsAll, Val.Fits]) (by simp [doubleKey, Val.FitsAll, Val.Fits]) (o := .int 400) rfl (t := .uint 2) rfl
    (.int 400) (by simp [Val.Fits]) (by simp [Val.Fits]) (by simp [Val.Fits])

example (st : BState Nat) : Py.put pc 8 (.int 256) st = .threw st := C91_put_refused large_noByte st

example (st : BState Nat) : Py.put pc 8 (.bool true) st = Buf.put pc 1#8 st := C91_put .yes st

/-- The bytes of a request for `double(7)`, popped from a list; then `None`, for ever. -/
def popObj : Eff (List Obj) Obj
  | [] => .ret .none []
  | o :: l => .ret o l

theorem popObj_returns : ∀ os l : List Obj, Returns popObj (os ++ l) os l
  | [], l => .nil l
  | _ :: os, l => .cons rfl (popObj_returns os l)

/-- The same functions, in a world which is a list of objects. -/
def popDefs : Nat → List Val → Eff (List Obj) (Option Val)
  | 10 => Py.makeAction 8 (some (.uint 2)) fun objs w => match objs with | [.int z] => .ret (.int (2 * z)) w | _ => .threw w
  | 20 => Py.makeAction 8 (some .bool) fun _ w => .ret .none w
  | _ => Py.makeAction 8 none fun _ w => .ret (.list []) w

theorem pop_setting : Setting pc pyRing .any popDefs where
  valid := pc_valid
  ring := pyRing_ok
  sup := pc_supported _ _
  sizes := by simp [pyRing, Ty.sizeof, wireSize]
  typed := by
    intro d hd
    simp only [pyRing, List.mem_cons, List.not_mem_nil, or_false] at hd
    rcases hd with rfl | rfl | rfl
    · exact C91_well_typed (g := ⟨[.uint 1], some (.uint 2)⟩) (by intro t h; cases h; exact ⟨by simp [Bindable], sends_uint 2⟩) _
    · exact C91_well_typed (g := ⟨[.bool, .arr (.sint 2) 2], some .bool⟩) (by intro t h; cases h; exact ⟨trivial, sends_bool⟩) _
    · exact C91_well_typed (L := 8) (g := ⟨[], none⟩) (by intro t h; cases h) _

example : ∃ b', Py.readFrom pc 8 popObj (fresh pc pyRing .any popDefs 65535 false, [.int 0, .int 7, .int 30]) = .ret .resolved (b', [.int 30]) ∧
    Pending b' [] ∧ Unread b' [0#8, 14#8] :=
  C91_read_from (shared := false) (L := 8) pop_setting (w := [.int 0, .int 7, .int 30]) (w1 := [.int 30]) ⟨65535, _, .start⟩ (fresh_pending _ _ _ _ _ _)
    (i := 0) (by decide) (args := [.int 7]) (by simp [pyRing, Val.FitsAll, Val.Fits]) (by decide) (popObj_returns [.int 0, .int 7] [.int 30])
    (.cons (b := 0#8) (.int 0) (.cons (b := 7#8) (.int 7) .nil))

example : ∃ b', Py.readFrom pc 8 popObj (fresh pc pyRing .any popDefs 65535 false, [.int 0]) = .threw (b', []) ∧ Pending b' [0#8] :=
  C91_read_from_refused (shared := false) (L := 8) pop_setting (w := [.int 0]) (w1 := []) (l := []) (bs := [0#8]) ⟨65535, _, .start⟩
    (fresh_pending _ _ _ _ _ _) (Or.inr ⟨⟨⟨[.uint 1], some (.uint 2)⟩, popDefs 10⟩, rfl, (by decide : 1 < 1 + 1)⟩) (popObj_returns [.int 0] []) (.cons (b := 0#8) (.int 0) .nil) rfl none_noByte

example (b : Buf Nat) (h : Unread b [0x33#8, 0x01#8]) : ∃ b', Py.get (b, 0) = .ret (.int 0x33) (b', 0) ∧ Unread b' [0x01#8] := C91_get h 0

/-- `l.append` -/
def appendObj (o : Obj) : Eff (List Obj) Obj := fun l => .ret .none (l ++ [o])

example (b : Buf (List Obj)) (h : Unread b [0x33#8, 0x01#8]) :
    ∃ b', Py.writeTo appendObj (b, [.none]) = .ret () (b', [.none, .int 0x33, .int 1]) ∧ Unread b' [] ∧ b'.isLoaded = false :=
  C91_write_to h (.cons rfl (.cons rfl (.nil _)))

/-- A request for `double(7)` has begun; then `double` is replaced by a function which returns its argument, then the request ends. -/
example (b : Buf Nat) (hr : Reachable pc pyRing .any pyDefs false (b, 5)) (hp : Pending b [0#8]) :
    ∃ b1, Py.replace 8 b doubleKey (fun objs n => .ret (objs.headD .none) (n + 10)) = .ok b1 ∧ Pending b1 [0#8] ∧
      ∃ b', Buf.put pc 7#8 (b1, 5) = .ret .resolved (b', 15) ∧ Pending b' [] ∧ Unread b' [0#8, 7#8] := by
  obtain ⟨b1, h1, h2, h3⟩ := C91_replace (L := 8) py_setting hr (name := 10) double_get
    (by intro t h; cases h; exact ⟨by simp [Bindable], sends_uint 2⟩) (by decide) (args := [.int 7]) (by simp [doubleKey, Val.FitsAll, Val.Fits])
    (.cons (.int 7) .nil) (l := [0#8]) (x := 7#8) rfl hp (fun objs n => .ret (objs.headD .none) (n + 10))
  exact ⟨b1, h1, h2, h3.1 (some (.int 7)) (.value (.uint (.int 7) (by decide) (by decide)))⟩

/-- `blink` returns a list. The next byte is written out of bounds. -/
example (b : Buf Nat) (hr : Reachable pc pyRing .any pyDefs false (b, 5)) (hp : Pending b [1#8, 1#8, 0xff#8, 0xfe#8, 0#8]) :
    ∃ b', Buf.put pc 1#8 (b, 5) = .threw (b', 6) ∧ Unread b' [] ∧ (6 ≤ b'.sizeMax → puts pc [0#8] (b', 6) = .fault .ibufOverrun) := by
  obtain ⟨b', h1, h2, h3⟩ := C91_jam (L := 8) py_setting hr (name := 20) blink_get (by intro t h; cases h; trivial) (fn := pyBlink) rfl
    (args := [.bool true, .arr [.int (-2), .int 1]]) (by simp [blinkKey, pyRing, Val.FitsAll, Val.Fits, Safe, Representable, InRange])
    (.cons (.bool true) (.cons (.arr (.cons (.int (-2)) (.cons (.int 1) .nil))) .nil)) (l := [1#8, 1#8, 0xff#8, 0xfe#8, 0#8]) (x := 1#8) rfl hp (by decide)
    (o := .list [.int (-2), .int 1]) rfl blink_wrong
  exact ⟨b', h1, h2, fun hm => (h3 hm [0#8]).2 (by decide)⟩

end

example (fn : List Obj → Eff Nat Obj) : WellTyped pc .twosComplement ⟨⟨[.bool], some (.uint 2)⟩, Py.makeAction 8 (some (.uint 2)) fn⟩ :=
  C91_well_typed (by intro t h; cases h; exact ⟨by simp [Bindable], sends_uint 2⟩) fn

end Upd
