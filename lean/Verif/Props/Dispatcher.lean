import Verif.Props.Action

/-!
# Dispatchers (C35, C36, C37, C38)

`D.run P (Lens.whole σ) src dest` is `d(src, dest)` on the platform `P`: see `Verif.Props.Action` for how to read it.
-/

namespace Upd
open Spec TypeList

variable {σ τ : Type}

/-! ## C35 -/

/-- A key found by the C++17 implementation is the one found by the other one. -/
theorem get17_get11 {K : Keyring} {name : Nat} {k : Key} (h : K.get17 name = some k) : K.get11 name = some k := by
  unfold Keyring.get17 at h
  unfold Keyring.get11
  cases hf : find17 (K.decls.map (·.name)) name with
  | none => rw [hf] at h; cases h
  | some i =>
    rw [hf] at h
    have h17 := (find17_spec _ _ _).1 hf
    have : find11 name 0 (K.decls.map (·.name)) = some i :=
      (find11_spec _ _ _ _).2 ⟨i, by omega, h17.1, fun j hj => h17.2 j (by omega)⟩
    rw [this]; exact h

/-- C35. `P` is the platform of the caller and `Q` the one of the dispatcher. The key of the function `name` produces the packet `m`
from the arguments `args`. When the byte source of a dispatcher of the same keyring (of either kind) yields `m`, after which the
function called on `args` returns `r`, then there is a sequence of bytes `out` such that: the dispatcher calls the function on
`args`, outputs `out` and returns the index of the key; the key, reading `out` on the side of the caller, returns `r`.
The world `w2` left by the function being the one from which `out` is output, the function is called once. -/
theorem C35_end_to_end {P Q : Platform} (hP : P.Valid) (hQ : Q.Valid) {K : Keyring} (hK : KeyringOk K)
    (hsP : Supported P K.e K.s) (hsQ : Supported Q K.e K.s) (f : Features) (defs : Nat → List Val → Eff σ (Option Val))
    {name : Nat} {k : Key} (hk : K.get11 name = some k ∨ K.get17 name = some k) {args : List Val}
    (hfP : Val.FitsAll (Safe P K.s) k.sig.params args) (hfQ : Val.FitsAll (Safe Q K.s) k.sig.params args) :
    ∃ m, k.message P args = .ok m ∧
      ∀ (src : Eff σ Byte) (w w1 w2 : σ) (r : Option Val), Yields src w m w1 → defs name args w1 = .ret r w2 →
        RetOk P K.s k.sig.ret r → RetOk Q K.s k.sig.ret r →
        ∃ out : List Byte,
          (∀ (dest : Byte → Eff σ Unit) (w3 : σ), Accepts dest w2 out w3 →
            (Dispatcher.make K f defs).run Q (Lens.whole σ) src dest w = .ret k.index w3) ∧
          (∀ (src' : Eff τ Byte) (u u' : τ), Yields src' u out u' → k.readFrom P src' u = .ret r u') := by
  have hk : K.get11 name = some k := hk.elim id get17_get11
  obtain ⟨i, hi, rfl, rfl⟩ := K.get11_cases hK.1 hk
  have hg := hK.2 K.decls[i] (List.getElem_mem _)
  have hib : i < 256 ^ K.idxBytes := Nat.lt_trans hi (idxBytes_pos hK.1).2
  refine ⟨_, message_eq hP hsP (idxBytes_pos hK.1).1 hib hg hfP, ?_⟩
  intro src w w1 w2 r hy hr hrP hrQ
  refine ⟨response K.e K.s K.decls[i].sig.ret r, ?_, ?_⟩
  · intro dest w3 hd
    have h := run_request hQ (D := Dispatcher.make K f defs) hsQ (idxBytes_pos hK.1).1 (i := i)
      (by show i < K.size; rw [K.size_eq hK.1]; exact hi) hib (make_acts hi) (makeAction_holds f K.e K.s _) hg (Lens.whole σ)
      (dest := dest) hfQ hy
    rw [h, zoom_whole]
    show (defs K.decls[i].name args >>= _) w1 = _
    rw [Eff.bind_ret hr]
    show (respond Q K.e K.s K.decls[i].sig.ret r dest >>= _) w2 = _
    rw [respond_eq hQ hsQ hg.2.2 hrQ, Eff.bind_ret (putAll_accepts hd)]
    rfl
  · intro src' u u' hy'
    exact C31_read_value hP hsP hg hrP src' hy'

/-- C35, a callback which throws: nothing is output, the exception propagates. -/
theorem C35_throw {P Q : Platform} (hP : P.Valid) (hQ : Q.Valid) {K : Keyring} (hK : KeyringOk K)
    (hsP : Supported P K.e K.s) (hsQ : Supported Q K.e K.s) (f : Features) (defs : Nat → List Val → Eff σ (Option Val))
    {name : Nat} {k : Key} (hk : K.get11 name = some k ∨ K.get17 name = some k) {args : List Val}
    (hfP : Val.FitsAll (Safe P K.s) k.sig.params args) (hfQ : Val.FitsAll (Safe Q K.s) k.sig.params args) {m : Mem}
    (hm : k.message P args = .ok m) {src : Eff σ Byte} (dest : Byte → Eff σ Unit) {w w1 w2 : σ} (hy : Yields src w m w1)
    (ht : defs name args w1 = .threw w2) :
    (Dispatcher.make K f defs).run Q (Lens.whole σ) src dest w = .threw w2 := by
  have hk : K.get11 name = some k := hk.elim id get17_get11
  obtain ⟨i, hi, rfl, rfl⟩ := K.get11_cases hK.1 hk
  have hg := hK.2 K.decls[i] (List.getElem_mem _)
  have hib : i < 256 ^ K.idxBytes := Nat.lt_trans hi (idxBytes_pos hK.1).2
  rw [message_eq hP hsP (idxBytes_pos hK.1).1 hib hg hfP] at hm
  have hm := Except.ok.inj hm
  subst hm
  have h := run_request hQ (D := Dispatcher.make K f defs) hsQ (idxBytes_pos hK.1).1 (i := i)
    (by show i < K.size; rw [K.size_eq hK.1]; exact hi) hib (make_acts hi) (makeAction_holds f K.e K.s _) hg (Lens.whole σ)
    (dest := dest) hfQ hy
  rw [h, zoom_whole]
  show (defs K.decls[i].name args >>= _) w1 = _
  rw [Eff.bind_threw ht]

/-- Definitions of the functions of `demoRing`: they log their name and arguments. -/
def demoDefs : Nat → List Val → Eff (List Byte × List (List Val) × List Byte) (Option Val) := fun name args w =>
  match name, args with
  | 10, [.int x, .int y] => .ret (some (.int (x + y))) (w.1, w.2.1 ++ [.int 10 :: args], w.2.2)
  | 20, [] => .ret none (w.1, w.2.1 ++ [[.int 20]], w.2.2)
  | _, _ => .threw w

example (rest : List Byte) : ∃ m, demoKey.message ppc [.int (-2), .int 7] = .ok m ∧ ∃ out : List Byte,
    (Dispatcher.make demoRing .any demoDefs).run avr (Lens.whole _) demoSrc demoDest (m ++ rest, [], []) =
      .ret 0 (rest, [[.int 10, .int (-2), .int 7]], out) ∧
    demoKey.readFrom ppc listSrc (out ++ [1#8]) = .ret (some (.int 5)) [1#8] := by
  have hy : ∀ (m : List Byte) l o, Yields demoSrc (m ++ rest, l, o) m (rest, l, o) := by
    intro m l o
    induction m with
    | nil => exact .nil _
    | cons b m ih => exact .cons rfl ih
  have hd : ∀ (m : List Byte) i l o, Accepts demoDest (i, l, o) m (i, l, o ++ m) := by
    intro m i l
    induction m with
    | nil => intro o; rw [List.append_nil]; exact .nil _
    | cons b m ih => intro o; exact .cons rfl (by have := ih (o ++ [b]); rwa [List.append_assoc] at this)
  obtain ⟨m, hm, h⟩ := C35_end_to_end (τ := List Byte) (k := demoKey) ppc_valid avr_valid demoRing_ok (ppc_supported _ _)
    (avr_supported _ _) .any demoDefs (name := 10) (Or.inl rfl) (args := [.int (-2), .int 7])
    (by simp [demoKey, demoRing, Val.FitsAll, Val.Fits, Safe, MinSafe, Representable, InRange])
    (by simp [demoKey, demoRing, Val.FitsAll, Val.Fits, Safe, MinSafe, Representable, InRange])
  refine ⟨m, hm, ?_⟩
  obtain ⟨out, h1, h2⟩ := h demoSrc (m ++ rest, [], []) (rest, [], []) (rest, [[.int 10, .int (-2), .int 7]], [])
    (some (.int 5)) (hy m _ _) rfl
    (by simp [demoKey, demoRing, RetOk, Val.Fits, Safe, MinSafe, Representable, InRange])
    (by simp [demoKey, demoRing, RetOk, Val.Fits, Safe, MinSafe, Representable, InRange])
  exact ⟨out, h1 _ _ (hd out _ _ []), h2 listSrc _ _ (listSrc_yields out [1#8])⟩

/-! ## C36 -/

/-- C36. When the source yields the bytes of an index which is not below the size of the dispatcher, only these bytes are consumed, the
destination and the callbacks are not called (the world is the one left by the source) and the index is returned. -/
theorem C36_unknown_index {P : Platform} (hP : P.Valid) {D : Dispatcher σ} (hs : Supported P D.e D.s) (hi : 1 ≤ D.idxBytes)
    {bs : List Byte} (hl : bs.length = D.idxBytes) (hbad : D.size ≤ wireValue D.e bs) {src : Eff σ Byte}
    (dest : Byte → Eff σ Unit) {w w1 : σ} (hy : Yields src w bs w1) :
    D.run P (Lens.whole σ) src dest w = .ret (wireValue D.e bs) w1 := by
  have hg := getN_yields hy
  rw [hl] at hg
  rw [run_eq hP hs hi, Eff.bind_ret hg, if_neg (by omega)]
  rfl

/-- C36, for the dispatcher of a keyring: every index which does not belong to a callback of the keyring. -/
theorem C36_unknown_index_keyring {P : Platform} (hP : P.Valid) {K : Keyring} (hK : KeyringOk K) (hs : Supported P K.e K.s)
    (f : Features) (defs : Nat → List Val → Eff σ (Option Val)) {i : Nat} (h1 : K.decls.length ≤ i)
    (h2 : i < 256 ^ K.idxBytes) {src : Eff σ Byte} (dest : Byte → Eff σ Unit) {w w1 : σ}
    (hy : Yields src w (wireBytes K.e K.idxBytes i) w1) :
    (Dispatcher.make K f defs).run P (Lens.whole σ) src dest w = .ret i w1 := by
  have hv := wireValue_wireBytes (e := K.e) h2
  have := C36_unknown_index hP (D := Dispatcher.make K f defs) hs (idxBytes_pos hK.1).1 (wireBytes_length _ _ _)
    (by show K.size ≤ wireValue K.e (wireBytes K.e K.idxBytes i); rw [hv, K.size_eq hK.1]; exact h1) dest hy
  rw [this]
  show Res.ret (wireValue K.e (wireBytes K.e K.idxBytes i)) w1 = _
  rw [hv]

example (rest : List Byte) : (Dispatcher.make demoRing .weakReference demoDefs).run pc (Lens.whole _) demoSrc demoDest
    (3#8 :: rest, [], []) = .ret 3 (rest, [], []) :=
  C36_unknown_index_keyring pc_valid demoRing_ok (pc_supported _ _) _ _ (by decide) (by decide) demoDest (.cons rfl (.nil _))

/-! ## C37 -/

/-- A dispatcher on which the callback of index `i` has been replaced by `cb`, by any of the two member functions. -/
def Replaced (D D' : Dispatcher σ) (i : Nat) (cb : Callback σ) : Prop := D' = D.replace i cb ∨ D' = D.replaceStatic i cb

theorem Replaced.acts {D D' : Dispatcher σ} {i : Nat} {cb : Callback σ} (h : Replaced D D' i cb) :
    D'.e = D.e ∧ D'.s = D.s ∧ D'.idxBytes = D.idxBytes ∧ D'.size = D.size ∧
    (∃ a, a.Holds D.e D.s cb ∧ D'.acts = D.acts.set i a) := by
  rcases h with rfl | rfl
  · exact ⟨rfl, rfl, rfl, rfl, _, Or.inl rfl, rfl⟩
  · exact ⟨rfl, rfl, rfl, rfl, _, makeAction_holds _ _ _ _, rfl⟩

/-- C37, other indices. If the source yields the bytes of an index other than `i`, the dispatcher has the same effect as before the
replacement (whatever follows on the stream, valid request or not). -/
theorem C37_other_index {P : Platform} (hP : P.Valid) {D D' : Dispatcher σ} (hs : Supported P D.e D.s) (hn : 1 ≤ D.idxBytes)
    {i : Nat} {cb : Callback σ} (hr : Replaced D D' i cb) {bs : List Byte} (hl : bs.length = D.idxBytes)
    (hne : wireValue D.e bs ≠ i) {src : Eff σ Byte} (dest : Byte → Eff σ Unit) {w w1 : σ} (hy : Yields src w bs w1) :
    D'.run P (Lens.whole σ) src dest w = D.run P (Lens.whole σ) src dest w := by
  obtain ⟨h1, h2, h3, h4, a, _, h5⟩ := hr.acts
  have hg := getN_yields hy
  rw [hl] at hg
  have hat : D'.at (wireValue D.e bs) = D.at (wireValue D.e bs) := by
    unfold Dispatcher.at
    rw [h5, List.getElem?_set_ne (fun h => hne h.symm)]
  rw [run_eq hP hs hn, run_eq hP (by rw [h1, h2]; exact hs) (by rw [h3]; exact hn), h1, h3, h4, Eff.bind_ret hg,
    Eff.bind_ret hg, hat]

/-- C37, the replaced index. A request for `i` calls the new callback on its arguments, and what it returns is output. -/
theorem C37_replaced_index {P : Platform} (hP : P.Valid) {D D' : Dispatcher σ} (hs : Supported P D.e D.s) (hn : 1 ≤ D.idxBytes)
    {i : Nat} {cb : Callback σ} (hr : Replaced D D' i cb) (hi : i < D.size) (hb : i < 256 ^ D.idxBytes)
    (hacts : D.acts.length = D.size) (hg : SigOk cb.sig) {args : List Val}
    (hf : Val.FitsAll (Safe P D.s) cb.sig.params args) {src : Eff σ Byte} {dest : Byte → Eff σ Unit} {w w1 : σ}
    (hy : Yields src w (request D.e D.s D.idxBytes i cb.sig.params args) w1) :
    (∀ r w2 w3, cb.fn args w1 = .ret r w2 → RetOk P D.s cb.sig.ret r → Accepts dest w2 (response D.e D.s cb.sig.ret r) w3 →
      D'.run P (Lens.whole σ) src dest w = .ret i w3) ∧
    (∀ w2, cb.fn args w1 = .threw w2 → D'.run P (Lens.whole σ) src dest w = .threw w2) := by
  obtain ⟨h1, h2, h3, h4, a, ha, h5⟩ := hr.acts
  have hrun := run_request hP (D := D') (by rw [h1, h2]; exact hs) (by rw [h3]; exact hn) (i := i) (by rw [h4]; exact hi)
    (by rw [h3]; exact hb) (a := a) (by rw [h5, List.getElem?_set_self (by omega)]) (cb := cb) (by rw [h1, h2]; exact ha) hg
    (Lens.whole σ) (dest := dest) (args := args) (by rw [h2]; exact hf) (w := w) (w1 := w1) (by rw [h1, h2, h3]; exact hy)
  rw [zoom_whole, h1, h2] at hrun
  rw [hrun]
  constructor
  · intro r w2 w3 hcb hro hd
    rw [Eff.bind_ret hcb, respond_eq hP hs hg.2.2 hro, Eff.bind_ret (putAll_accepts hd)]
    rfl
  · intro w2 hcb
    rw [Eff.bind_threw hcb]

/-- The dispatcher of a keyring meets the hypotheses of C37. -/
theorem C37_keyring {K : Keyring} (hK : KeyringOk K) (f : Features) (defs : Nat → List Val → Eff σ (Option Val)) :
    (Dispatcher.make K f defs).acts.length = (Dispatcher.make K f defs).size ∧
    1 ≤ (Dispatcher.make K f defs).idxBytes ∧
    ∀ i, i < (Dispatcher.make K f defs).size → i < 256 ^ (Dispatcher.make K f defs).idxBytes := by
  refine ⟨?_, (idxBytes_pos hK.1).1, ?_⟩
  · show (K.decls.map _).length = K.size
    rw [K.size_eq hK.1, List.length_map]
  · intro i hi
    have hi : i < K.decls.length := by rw [← K.size_eq hK.1]; exact hi
    exact Nat.lt_trans hi (idxBytes_pos hK.1).2

example (rest : List Byte) :
    ((Dispatcher.make demoRing .any demoDefs).replace 0 demoCb).run pc (Lens.whole _) demoSrc demoDest
      ([0#8, 0xff#8, 0xfe#8, 7#8] ++ rest, [], []) = .ret 0 (rest, [[.int (-2), .int 7]], [0#8, 0#8, 0#8, 5#8]) :=
  (C37_replaced_index (D := Dispatcher.make demoRing .any demoDefs) pc_valid (pc_supported _ _) (by decide)
    (i := 0) (cb := demoCb) (Or.inl rfl) (by decide) (by decide) rfl demoKey_ok (args := [.int (-2), .int 7]) demoKey_args
    (src := demoSrc) (dest := demoDest) (w := ([0#8, 0xff#8, 0xfe#8, 7#8] ++ rest, [], [])) (w1 := (rest, [], [])) (.cons rfl (.cons rfl (.cons rfl (.cons rfl (.nil _)))))).1 (some (.int 5))
    (rest, [[.int (-2), .int 7]], []) _ rfl
    (by simp [Dispatcher.make, demoRing, demoCb, demoKey, RetOk, Val.Fits, Safe, MinSafe, Representable, InRange])
    (.cons rfl (.cons rfl (.cons rfl (.cons rfl (.nil _)))))

example (w : List Byte × List (List Val) × List Byte) (rest : List Byte) :
    ((Dispatcher.make demoRing .any demoDefs).replace 0 demoCb).run pc (Lens.whole _) demoSrc demoDest (1#8 :: rest, w.2) =
    (Dispatcher.make demoRing .any demoDefs).run pc (Lens.whole _) demoSrc demoDest (1#8 :: rest, w.2) :=
  C37_other_index (D := Dispatcher.make demoRing .any demoDefs) pc_valid (pc_supported _ _) (by decide) (i := 0)
    (cb := demoCb) (Or.inl rfl) (bs := [1#8]) rfl (by decide) demoDest (.cons rfl (.nil (rest, w.2)))

/-! ## C38 -/

/-- C38. For every stream: `operator()` has the same effect as `get_action` followed by the invocation of the action it returns, if
any. (A null result means that nothing else is done.) -/
theorem C38_get_action (P : Platform) (D : Dispatcher σ) (src : Eff σ Byte) (dest : Byte → Eff σ Unit) :
    (do let _ ← D.run P (Lens.whole σ) src dest; pure ()) = (do
      let o ← D.getAction P src
      match o with
      | none => pure ()
      | some i => do
        let a ← Eff.lift (D.at i)
        a.invoke P (Lens.whole σ) src dest) := by
  unfold Dispatcher.run Dispatcher.getAction
  simp only [bind_assoc, pure_bind]
  congr 1
  funext i
  by_cases h : i < D.size <;> simp [h]

/-- C38, which action: if the source yields the bytes of an index, the result is the action of this index when it exists (which is then
in the array), null otherwise, and only these bytes are consumed. -/
theorem C38_which_action {P : Platform} (hP : P.Valid) {D : Dispatcher σ} (hs : Supported P D.e D.s) (hi : 1 ≤ D.idxBytes)
    {bs : List Byte} (hl : bs.length = D.idxBytes) {src : Eff σ Byte} {w w1 : σ} (hy : Yields src w bs w1) :
    (wireValue D.e bs < D.size → D.getAction P src w = .ret (some (wireValue D.e bs)) w1) ∧
    (D.size ≤ wireValue D.e bs → D.getAction P src w = .ret none w1) := by
  have hg := getN_yields hy
  rw [hl] at hg
  have : D.getAction P src w = .ret (if wireValue D.e bs < D.size then some (wireValue D.e bs) else none) w1 := by
    unfold Dispatcher.getAction
    rw [getIndex_eq hP hs hi, bind_assoc, Eff.bind_ret hg]
    rfl
  rw [this]
  exact ⟨fun h => by rw [if_pos h], fun h => by rw [if_neg (by omega)]⟩

example (rest : List Byte) :
    (Dispatcher.make demoRing .any demoDefs).getAction pc demoSrc (2#8 :: rest, [], []) = .ret (some 2) (rest, [], []) :=
  (C38_which_action (D := Dispatcher.make demoRing .any demoDefs) pc_valid (pc_supported _ _) (by decide) (bs := [2#8]) rfl
    (.cons rfl (.nil (rest, [], [])))).1 (by decide)

/-! ## Further uses -/

/-- `demoDefs` defines no function of name 30: it throws. -/
example (rest : List Byte) :
    (Dispatcher.make demoRing .any demoDefs).run avr (Lens.whole _) demoSrc demoDest ([2#8, 1#8, 0#8] ++ rest, [], []) = .threw (rest, [], []) :=
  C35_throw pc_valid avr_valid demoRing_ok (pc_supported _ _) (avr_supported _ _) .any demoDefs (name := 30)
    (k := ⟨.big, .twosComplement, 1, 2, [.arr .bool 2], some (.uint 1)⟩) (Or.inl rfl) (args := [.arr [.bool true, .bool false]])
    (by simp [Val.FitsAll, Val.Fits]) (by simp [Val.FitsAll, Val.Fits]) rfl demoDest (w1 := (rest, [], []))
    (.cons rfl (.cons rfl (.cons rfl (.nil _)))) rfl

example (rest : List Byte) : (Dispatcher.make demoRing .any demoDefs).run pc (Lens.whole _) demoSrc demoDest (200#8 :: rest, [], []) =
    .ret 200 (rest, [], []) :=
  C36_unknown_index (D := Dispatcher.make demoRing .any demoDefs) pc_valid (pc_supported _ _) (by decide) (bs := [200#8]) rfl (by decide)
    demoDest (.cons rfl (.nil (rest, [], [])))

example : (Dispatcher.make demoRing .any demoDefs).acts.length = 3 ∧ 2 < 256 ^ (Dispatcher.make demoRing .any demoDefs).idxBytes :=
  ⟨(C37_keyring demoRing_ok .any demoDefs).1, (C37_keyring demoRing_ok .any demoDefs).2.2 2 (by decide)⟩

/-- The bytes run out before the index. -/
example : ((do let _ ← (Dispatcher.make demoRing .any demoDefs).run pc (Lens.whole _) demoSrc demoDest; pure ()) : Eff _ Unit) ([], [], []) =
    .threw ([], [], []) := by
  rw [C38_get_action]
  rfl

end Upd
