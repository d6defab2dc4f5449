import Verif.Model.Live
import Verif.Props.Dispatcher

/-!
# C68, C69: actions replaced while a request is being processed
-/

namespace Upd
open Spec TypeList

variable {σ : Type}

/-- An effect on the part of the state other than the actions. -/
def aside {α : Type} (x : Eff σ α) : Eff (Slots × σ) α := Eff.zoom ⟨Prod.snd, fun v w => (w.1, v)⟩ x

theorem aside_yields {src : Eff σ Byte} {w w1 : σ} {bs : List Byte} (h : Yields src w bs w1) (t : Slots) :
    Yields (aside src) (t, w) bs (t, w1) := by
  induction h with
  | nil w => exact .nil _
  | cons h1 _ ih => exact .cons (zoom_ret (L := ⟨Prod.snd, fun v w => (w.1, v)⟩) (w := (t, _)) h1) ih

theorem alive_of_get {t : Slots} {i : Nat} {x : Slot} (h : t.content[i]? = some x) : t.alive x.obj = true := by
  rw [Slots.alive, List.any_eq_true]
  exact ⟨x, List.mem_of_getElem? h, by simp⟩

/-- The byte source may do anything to the actions: the callback called is the one which is in place once the index has been read. If it is an
object which the action owns, it must not have been destroyed when the arguments have been read. -/
theorem C69_replaced_by_source_partial {P : Platform} (hP : P.Valid) {K : Keyring} (hK : KeyringOk K) (hs : Supported P K.e K.s) (f : Features)
    {body : Nat → Eff (Slots × σ) Unit → List Val → Eff (Slots × σ) (Option Val)} {src : Eff (Slots × σ) Byte} {dest : Byte → Eff (Slots × σ) Unit}
    {i : Nat} {d : Decl} (hd : K.decls[i]? = some d) {args : List Val} (hf : Val.FitsAll (Safe P K.s) d.sig.params args)
    {w w0 w1 w2 w3 : Slots × σ} (hy0 : Yields src w (wireBytes K.e K.idxBytes i) w0) (hy1 : Yields src w0 (wires K.e K.s d.sig.params args) w1)
    {x : Slot} (hc : w0.1.content[i]? = some x) (ha : f = .any → x.own = true → w1.1.alive x.obj = true) {r : Option Val} (hb : body x.cb (Slots.touch f x) args w1 = .ret r w2)
    (hr : RetOk P K.s d.sig.ret r) (hw : Accepts dest w2 (response K.e K.s d.sig.ret r) w3) :
    Slots.run P K f body src dest w = .ret i w3 := by
  have hi : i < K.decls.length := (List.getElem?_eq_some_iff.1 hd).1
  have hg : SigOk d.sig := hK.2 d (List.mem_of_getElem? hd)
  have hpos : 1 ≤ K.idxBytes ∧ K.decls.length < 256 ^ K.idxBytes := idxBytes_pos hK.1
  have hl := wireBytes_length K.e K.idxBytes i
  have hg0 := getN_yields hy0
  rw [hl] at hg0
  have hg1 := getN_yields hy1
  rw [wires_length hg.2.1 hf] at hg1
  have hpick : Slots.pick i w0 = .ret x w0 := by unfold Slots.pick; rw [hc]
  unfold Slots.run
  rw [getIndex_eq hP hs hpos.1]
  show ((getN src K.idxBytes >>= fun bs => pure (wireValue K.e bs)) >>= _) w = _
  rw [bind_assoc, Eff.bind_ret hg0, pure_bind, wireValue_wireBytes (Nat.lt_trans hi hpos.2), if_pos (by rw [K.size_eq hK.1]; exact hi),
    Eff.bind_ret hpick, hd, Eff.lift_ok, pure_bind]
  have hinv : Slots.invoke P f K.e K.s d.sig body x src dest w0 = .ret () w3 := by
    unfold Slots.invoke
    have ht : Slots.touch f x w1 = .ret () w1 := by
      cases f with
      | weakReference => rfl
      | any => exact if_neg fun h => by rw [ha rfl h.1] at h; cases h.2
    rw [readFrom_eq hP hs hg.1 (packedAll_loose _ hg.2.1), packedAll_serSizes _ hg.2.1, Eff.bind_ret hg1, invoke_eq,
      readAll_wires hP hs hg.1 hg.2.1 hf]
    show ((pure (body x.cb (Slots.touch f x) args) : Eff (Slots × σ) _) >>= _) w1 = _
    rw [pure_bind, Eff.bind_ret ht, Eff.bind_ret hb]
    show respond P K.e K.s d.sig.ret r dest w2 = _
    rw [respond_eq hP hs hg.2.2 hr]
    exact putAll_accepts hw
  rw [Eff.bind_ret hinv]
  rfl

/-- C69, any outcome: the callback may throw, and so may `dest` during the response; nothing else is then done. -/
theorem C69_outcome_partial {P : Platform} (hP : P.Valid) {K : Keyring} (hK : KeyringOk K) (hs : Supported P K.e K.s) (f : Features)
    {body : Nat → Eff (Slots × σ) Unit → List Val → Eff (Slots × σ) (Option Val)} {src : Eff (Slots × σ) Byte} (dest : Byte → Eff (Slots × σ) Unit)
    {i : Nat} {d : Decl} (hd : K.decls[i]? = some d) {args : List Val} (hf : Val.FitsAll (Safe P K.s) d.sig.params args)
    {w w0 w1 : Slots × σ} (hy0 : Yields src w (wireBytes K.e K.idxBytes i) w0) (hy1 : Yields src w0 (wires K.e K.s d.sig.params args) w1)
    {x : Slot} (hc : w0.1.content[i]? = some x) (ha : f = .any → x.own = true → w1.1.alive x.obj = true)
    (hr : ∀ r w2, body x.cb (Slots.touch f x) args w1 = .ret r w2 → RetOk P K.s d.sig.ret r) :
    Slots.run P K f body src dest w =
      match body x.cb (Slots.touch f x) args w1 with
      | .ret r w2 =>
        match putAll dest (response K.e K.s d.sig.ret r) w2 with
        | .ret _ w3 => .ret i w3
        | .threw w3 => .threw w3
        | .fault g => .fault g
      | .threw w2 => .threw w2
      | .fault g => .fault g := by
  have hi : i < K.decls.length := (List.getElem?_eq_some_iff.1 hd).1
  have hg : SigOk d.sig := hK.2 d (List.mem_of_getElem? hd)
  have hpos : 1 ≤ K.idxBytes ∧ K.decls.length < 256 ^ K.idxBytes := idxBytes_pos hK.1
  have hl := wireBytes_length K.e K.idxBytes i
  have hg0 := getN_yields hy0
  rw [hl] at hg0
  have hg1 := getN_yields hy1
  rw [wires_length hg.2.1 hf] at hg1
  have hpick : Slots.pick i w0 = .ret x w0 := by unfold Slots.pick; rw [hc]
  unfold Slots.run
  rw [getIndex_eq hP hs hpos.1]
  show ((getN src K.idxBytes >>= fun bs => pure (wireValue K.e bs)) >>= _) w = _
  rw [bind_assoc, Eff.bind_ret hg0, pure_bind, wireValue_wireBytes (Nat.lt_trans hi hpos.2), if_pos (by rw [K.size_eq hK.1]; exact hi),
    Eff.bind_ret hpick, hd, Eff.lift_ok, pure_bind]
  have hinv : Slots.invoke P f K.e K.s d.sig body x src dest w0 = (body x.cb (Slots.touch f x) args >>= fun r => respond P K.e K.s d.sig.ret r dest) w1 := by
    unfold Slots.invoke
    have ht : Slots.touch f x w1 = .ret () w1 := by
      cases f with
      | weakReference => rfl
      | any => exact if_neg fun h => by rw [ha rfl h.1] at h; cases h.2
    rw [readFrom_eq hP hs hg.1 (packedAll_loose _ hg.2.1), packedAll_serSizes _ hg.2.1, Eff.bind_ret hg1, invoke_eq,
      readAll_wires hP hs hg.1 hg.2.1 hf]
    show ((pure (body x.cb (Slots.touch f x) args) : Eff (Slots × σ) _) >>= _) w1 = _
    rw [pure_bind, Eff.bind_ret ht]
    rfl
  cases hb : body x.cb (Slots.touch f x) args w1 with
  | fault g => rw [Eff.bind_fault (hinv.trans (Eff.bind_fault hb))]
  | threw w2 => rw [Eff.bind_threw (hinv.trans (Eff.bind_threw hb))]
  | ret r w2 =>
    rw [Eff.bind_ret hb, respond_eq hP hs hg.2.2 (hr r w2 hb)] at hinv
    dsimp only
    cases hput : putAll dest (response K.e K.s d.sig.ret r) w2 with
    | fault g => rw [Eff.bind_fault (hinv.trans hput)]
    | threw w3 => rw [Eff.bind_threw (hinv.trans hput)]
    | ret u w3 =>
      rw [Eff.bind_ret (hinv.trans hput)]
      rfl

/-- The exact limit: when the action picked owns its callback and has been destroyed while the arguments were being read, the behaviour is undefined,
whatever the callbacks are and whatever `dest` does. -/
theorem C69_destroyed {P : Platform} (hP : P.Valid) {K : Keyring} (hK : KeyringOk K) (hs : Supported P K.e K.s)
    (body : Nat → Eff (Slots × σ) Unit → List Val → Eff (Slots × σ) (Option Val)) {src : Eff (Slots × σ) Byte} (dest : Byte → Eff (Slots × σ) Unit)
    {i : Nat} {d : Decl} (hd : K.decls[i]? = some d) {args : List Val} (hf : Val.FitsAll (Safe P K.s) d.sig.params args)
    {w w0 w1 : Slots × σ} (hy0 : Yields src w (wireBytes K.e K.idxBytes i) w0) (hy1 : Yields src w0 (wires K.e K.s d.sig.params args) w1)
    {x : Slot} (hc : w0.1.content[i]? = some x) (ho : x.own = true) (ha : w1.1.alive x.obj = false) :
    Slots.run P K .any body src dest w = .fault .dangling := by
  have hi : i < K.decls.length := (List.getElem?_eq_some_iff.1 hd).1
  have hg : SigOk d.sig := hK.2 d (List.mem_of_getElem? hd)
  have hpos : 1 ≤ K.idxBytes ∧ K.decls.length < 256 ^ K.idxBytes := idxBytes_pos hK.1
  have hl := wireBytes_length K.e K.idxBytes i
  have hg0 := getN_yields hy0
  rw [hl] at hg0
  have hg1 := getN_yields hy1
  rw [wires_length hg.2.1 hf] at hg1
  have hpick : Slots.pick i w0 = .ret x w0 := by unfold Slots.pick; rw [hc]
  unfold Slots.run
  rw [getIndex_eq hP hs hpos.1]
  show ((getN src K.idxBytes >>= fun bs => pure (wireValue K.e bs)) >>= _) w = _
  rw [bind_assoc, Eff.bind_ret hg0, pure_bind, wireValue_wireBytes (Nat.lt_trans hi hpos.2), if_pos (by rw [K.size_eq hK.1]; exact hi),
    Eff.bind_ret hpick, hd, Eff.lift_ok, pure_bind]
  have hinv : Slots.invoke P .any K.e K.s d.sig body x src dest w0 = .fault .dangling := by
    unfold Slots.invoke
    have ht : Slots.touch .any x w1 = .fault .dangling := if_pos ⟨ho, ha⟩
    rw [readFrom_eq hP hs hg.1 (packedAll_loose _ hg.2.1), packedAll_serSizes _ hg.2.1, Eff.bind_ret hg1, invoke_eq,
      readAll_wires hP hs hg.1 hg.2.1 hf]
    show ((pure (body x.cb (Slots.touch .any x) args) : Eff (Slots × σ) _) >>= _) w1 = _
    rw [pure_bind, Eff.bind_fault ht]
  rw [Eff.bind_fault hinv]

/-- C68. A callback may replace any action, its own included, while it runs: its response is sent all the same. `t2`, the actions after the call, is
whatever the callback makes of them. The uses of its captures must be valid when they happen (`C68_captures`). -/
theorem C68_request {P : Platform} (hP : P.Valid) {K : Keyring} (hK : KeyringOk K) (hs : Supported P K.e K.s) (f : Features)
    {body : Nat → Eff (Slots × σ) Unit → List Val → Eff (Slots × σ) (Option Val)} {src : Eff σ Byte} {dest : Byte → Eff (Slots × σ) Unit}
    {i : Nat} {d : Decl} (hd : K.decls[i]? = some d) {args : List Val} (hf : Val.FitsAll (Safe P K.s) d.sig.params args)
    {t t2 : Slots} {w w1 w2 : σ} (hy : Yields src w (request K.e K.s K.idxBytes i d.sig.params args) w1) {x : Slot} (hx : t.content[i]? = some x)
    {r : Option Val} (hb : body x.cb (Slots.touch f x) args (t, w1) = .ret r (t2, w2)) (hr : RetOk P K.s d.sig.ret r) {w3 : Slots × σ}
    (hw : Accepts dest (t2, w2) (response K.e K.s d.sig.ret r) w3) :
    Slots.run P K f body (aside src) dest (t, w) = .ret i w3 := by
  obtain ⟨w0, hy0, hy1⟩ := Yields.split hy
  exact C69_replaced_by_source_partial hP hK hs f hd hf (aside_yields hy0 t) (aside_yields hy1 t) hx (fun _ _ => alive_of_get hx) hb hr hw

/-- C68, any outcome: a callback which has replaced actions may throw; what it has replaced stays so. -/
theorem C68_outcome {P : Platform} (hP : P.Valid) {K : Keyring} (hK : KeyringOk K) (hs : Supported P K.e K.s) (f : Features)
    {body : Nat → Eff (Slots × σ) Unit → List Val → Eff (Slots × σ) (Option Val)} {src : Eff σ Byte} (dest : Byte → Eff (Slots × σ) Unit)
    {i : Nat} {d : Decl} (hd : K.decls[i]? = some d) {args : List Val} (hf : Val.FitsAll (Safe P K.s) d.sig.params args)
    {t : Slots} {w w1 : σ} (hy : Yields src w (request K.e K.s K.idxBytes i d.sig.params args) w1) {x : Slot} (hx : t.content[i]? = some x)
    (hr : ∀ r w2, body x.cb (Slots.touch f x) args (t, w1) = .ret r w2 → RetOk P K.s d.sig.ret r) :
    Slots.run P K f body (aside src) dest (t, w) =
      match body x.cb (Slots.touch f x) args (t, w1) with
      | .ret r w2 =>
        match putAll dest (response K.e K.s d.sig.ret r) w2 with
        | .ret _ w3 => .ret i w3
        | .threw w3 => .threw w3
        | .fault g => .fault g
      | .threw w2 => .threw w2
      | .fault g => .fault g := by
  obtain ⟨w0, hy0, hy1⟩ := Yields.split hy
  exact C69_outcome_partial hP hK hs f dest hd hf (aside_yields hy0 t) (aside_yields hy1 t) hx (fun _ _ => alive_of_get hx) hr

/-- What `replace` does to the actions. -/
theorem C68_replace (t : Slots) (i : Nat) (own : Bool) (c j : Nat) (hi : i < t.content.length) :
    (t.replace i own c).callback j = if j = i then some c else t.callback j := by
  unfold Slots.callback Slots.replace
  by_cases h : j = i
  · subst h; simp [hi]
  · rw [if_neg h]; simp only; rw [List.getElem?_set_ne (Ne.symm h)]

/-- The bytes to read and the bytes written. -/
abbrev Tape := List Byte × List Byte

/-- Takes the next byte; throws if there is none. -/
def Tape.src : Eff Tape Byte := fun io =>
  match io.1 with
  | [] => .threw io
  | b :: bs => .ret b (bs, io.2)

/-- Writes a byte. -/
def Tape.dest (b : Byte) : Eff Tape Unit := fun io => .ret () (io.1, io.2 ++ [b])

/-- Runs the dispatcher `n` times in a row; gives the indices returned. -/
def Slots.runTimes (P : Platform) (K : Keyring) (f : Features) (body : Nat → Eff (Slots × Tape) Unit → List Val → Eff (Slots × Tape) (Option Val)) :
    Nat → Eff (Slots × Tape) (List Nat)
  | 0 => pure []
  | n + 1 => do
    let i ← Slots.run P K f body (aside Tape.src) (fun b => aside (Tape.dest b))
    let is ← Slots.runTimes P K f body n
    pure (i :: is)

/-- A served request: the function called, the arguments, the action which is in place at that moment, the value returned, and the actions after the
call. -/
structure Served where
  i : Nat
  d : Decl
  args : List Val
  x : Slot
  r : Option Val
  t : Slots

/-- The calls are possible one after the other, from the actions `t`. -/
def Served.chain (P : Platform) (K : Keyring) (f : Features) (body : Nat → Eff (Slots × Tape) Unit → List Val → Eff (Slots × Tape) (Option Val)) (t : Slots) : List Served → Prop
  | [] => True
  | x :: xs =>
    K.decls[x.i]? = some x.d ∧ Val.FitsAll (Safe P K.s) x.d.sig.params x.args ∧ RetOk P K.s x.d.sig.ret x.r ∧ t.content[x.i]? = some x.x ∧
      (∀ io, body x.x.cb (Slots.touch f x.x) x.args (t, io) = .ret x.r (x.t, io)) ∧ Served.chain P K f body x.t xs

theorem tape_yields (bs inp out : List Byte) : Yields Tape.src (bs ++ inp, out) bs (inp, out) := by
  induction bs with
  | nil => exact .nil _
  | cons b bs ih => exact .cons rfl ih

theorem tape_accepts (t : Slots) (bs inp : List Byte) : ∀ out : List Byte,
    Accepts (fun b => aside (Tape.dest b)) (t, (inp, out)) bs (t, (inp, out ++ bs)) := by
  induction bs with
  | nil => intro out; rw [List.append_nil]; exact .nil _
  | cons b bs ih => intro out; exact .cons rfl (by have := ih (out ++ [b]); rwa [List.append_assoc] at this)

/-- C68, any number of requests: each one is served by the callback which the previous calls left in place. -/
theorem C68_sequence {P : Platform} (hP : P.Valid) {K : Keyring} (hK : KeyringOk K) (hs : Supported P K.e K.s) (f : Features)
    {body : Nat → Eff (Slots × Tape) Unit → List Val → Eff (Slots × Tape) (Option Val)} (calls : List Served) : ∀ (t : Slots) (inp out : List Byte),
    Served.chain P K f body t calls →
    Slots.runTimes P K f body calls.length
        (t, ((calls.map fun x => request K.e K.s K.idxBytes x.i x.d.sig.params x.args).flatten ++ inp, out)) =
      .ret (calls.map (·.i)) ((t :: calls.map (·.t)).getLast (by simp),
        (inp, out ++ (calls.map fun x => response K.e K.s x.d.sig.ret x.r).flatten)) := by
  induction calls with
  | nil => intro t inp out _; simp [Slots.runTimes]
  | cons x xs ih =>
    intro t inp out ⟨h1, h2, h3, h4, h5, h6⟩
    simp only [List.length_cons, Slots.runTimes, List.map_cons, List.flatten_cons, List.append_assoc]
    have h := C68_request hP hK hs f h1 h2 (tape_yields _ ((xs.map fun x => request K.e K.s K.idxBytes x.i x.d.sig.params x.args).flatten ++ inp) out)
      h4 (h5 _) h3 (tape_accepts _ _ _ _)
    rw [Eff.bind_ret h, Eff.bind_ret (ih x.t inp _ h6)]
    simp [List.getLast_cons]

/-! ## Histories of replacements -/

/-- `replace<i>(c)`, with `c` an rvalue if `own`. -/
structure Replacement where
  i : Nat
  own : Bool
  c : Nat

/-- The actions after some replacements. -/
def Slots.after (t : Slots) : List Replacement → Slots
  | [] => t
  | o :: os => (t.replace o.i o.own o.c).after os

/-- The actions made by the constructor of a dispatcher of `n` functions, which are held by reference. -/
def Slots.initial (n : Nat) : Slots := ⟨(List.range n).map fun i => ⟨i, false, i⟩, n⟩

/-- The last replacement of the action `i`, if any. -/
def lastOn (i : Nat) : List Replacement → Option Replacement
  | [] => none
  | o :: os => (lastOn i os).or (if o.i = i then some o else none)

/-- The objects of the actions are distinct, and the next one is another. -/
def Slots.Good (t : Slots) : Prop :=
  (∀ x ∈ t.content, x.obj < t.next) ∧ ∀ (i j : Nat) (x y : Slot), t.content[i]? = some x → t.content[j]? = some y → x.obj = y.obj → i = j

theorem initial_good (n : Nat) : (Slots.initial n).Good := by
  refine ⟨by simp [Slots.initial], ?_⟩
  intro i j x y hx hy h
  simp only [Slots.initial, List.getElem?_map] at hx hy
  cases hi : (List.range n)[i]? with
  | none => rw [hi] at hx; cases hx
  | some a =>
    cases hj : (List.range n)[j]? with
    | none => rw [hj] at hy; cases hy
    | some b =>
      rw [hi] at hx; rw [hj] at hy
      simp only [Option.map_some, Option.some.injEq] at hx hy
      subst hx hy
      simp only at h
      have ha := List.getElem?_eq_some_iff.1 hi
      have hb := List.getElem?_eq_some_iff.1 hj
      have ha := ha.2
      have hb := hb.2
      simp only [List.getElem_range] at ha hb
      omega

theorem replace_good {t : Slots} (h : t.Good) (i : Nat) (own : Bool) (c : Nat) : (t.replace i own c).Good := by
  have hb : ∀ (j : Nat) (y : Slot), t.content[j]? = some y → y.obj < t.next := fun j y hy => h.1 y (List.mem_of_getElem? hy)
  refine ⟨?_, ?_⟩
  · intro x hx
    rcases List.mem_or_eq_of_mem_set hx with hx | hx
    · exact Nat.lt_succ_of_lt (h.1 x hx)
    · subst hx; exact Nat.lt_succ_self _
  · intro a b x y hx hy he
    simp only [Slots.replace, List.getElem?_set] at hx hy
    split at hx <;> split at hy
    · omega
    · split at hx
      · injection hx with hx
        subst hx
        have := hb b y hy
        simp only at he; omega
      · cases hx
    · split at hy
      · injection hy with hy
        subst hy
        have := hb a x hx
        simp only at he; omega
      · cases hy
    · exact h.2 a b x y hx hy he

theorem after_good {t : Slots} (h : t.Good) (os : List Replacement) : (t.after os).Good := by
  induction os generalizing t with
  | nil => exact h
  | cons o os ih => exact ih (replace_good h _ _ _)

theorem after_length (t : Slots) (os : List Replacement) : (t.after os).content.length = t.content.length := by
  induction os generalizing t with
  | nil => rfl
  | cons o os ih => rw [Slots.after, ih]; simp [Slots.replace]

/-- The action `i` after some replacements. -/
theorem after_get {t : Slots} {i : Nat} (hi : i < t.content.length) (os : List Replacement) :
    match lastOn i os with
    | some o => ∃ n, (t.after os).content[i]? = some ⟨n, o.own, o.c⟩
    | none => (t.after os).content[i]? = t.content[i]? := by
  induction os generalizing t with
  | nil => rfl
  | cons o os ih =>
    have h := ih (t := t.replace o.i o.own o.c) (by simpa [Slots.replace] using hi)
    cases hl : lastOn i os with
    | some o' => rw [hl] at h; simp only [lastOn, hl]; exact h
    | none =>
      rw [hl] at h
      by_cases ho : o.i = i
      · simp only [lastOn, hl, ho, if_true, Option.none_or]
        refine ⟨t.next, ?_⟩
        rw [Slots.after]
        refine h.trans ?_
        simp [Slots.replace, ho, hi]
      · simp only [lastOn, hl, ho, if_false, Option.none_or]
        rw [Slots.after]
        refine h.trans ?_
        simp [Slots.replace, ho]

/-- The object of the action `i` is destroyed by the first replacement of this action. -/
theorem after_alive {t : Slots} (h : t.Good) {i : Nat} {x : Slot} (hx : t.content[i]? = some x) (os : List Replacement) :
    (t.after os).alive x.obj = true ↔ ∀ o ∈ os, o.i ≠ i := by
  have dead : ∀ (os : List Replacement) (t : Slots), x.obj < t.next → t.alive x.obj = false → (t.after os).alive x.obj = false := by
    intro os
    induction os with
    | nil => intro t _ h; exact h
    | cons o os ih =>
      intro t hn h
      refine ih _ (Nat.lt_succ_of_lt hn) ?_
      rw [Slots.alive, List.any_eq_false] at h ⊢
      intro y hy
      rcases List.mem_or_eq_of_mem_set hy with hy | hy
      · exact h y hy
      · subst hy; simp only [beq_iff_eq]; omega
  induction os generalizing t with
  | nil => simp [Slots.after, alive_of_get hx]
  | cons o os ih =>
    rw [Slots.after]
    by_cases ho : o.i = i
    · have hlt := h.1 x (List.mem_of_getElem? hx)
      have : (t.replace o.i o.own o.c).alive x.obj = false := by
        rw [Slots.alive, List.any_eq_false]
        intro y hy
        obtain ⟨j, hj, hy⟩ := List.getElem_of_mem hy
        have hy' : (t.replace o.i o.own o.c).content[j]? = some y := by rw [List.getElem?_eq_getElem hj, hy]
        simp only [Slots.replace, List.getElem?_set] at hy'
        simp only [beq_iff_eq]
        split at hy'
        · split at hy'
          · injection hy' with hy'
            subst hy'
            simp only; omega
          · cases hy'
        · rename_i hne
          intro he
          exact hne (ho.trans (h.2 j i y x hy' hx he).symm)
      rw [dead os _ (Nat.lt_succ_of_lt hlt) this]
      constructor
      · intro h; cases h
      · intro h; exact absurd ho (h o (by simp))
    · have hx' : (t.replace o.i o.own o.c).content[i]? = some x := by simp [Slots.replace, ho, hx]
      refine (ih (replace_good h _ _ _) hx').trans ?_
      simp [ho]

/-- C68, the captures: the callback of the action `i` may use its captures, whatever it has replaced, unless it is a member of its action (`ANY`, given to
`replace` as an rvalue) and this action is among those which it has replaced. -/
theorem C68_captures (n : Nat) (before during : List Replacement) {i : Nat} {x : Slot} (hx : ((Slots.initial n).after before).content[i]? = some x)
    (f : Features) (w : σ) :
    Slots.touch f x (((Slots.initial n).after before).after during, w) =
      if f = .any ∧ (∃ o, lastOn i before = some o ∧ o.own = true) ∧ (∃ o ∈ during, o.i = i) then .fault .dangling
      else .ret () (((Slots.initial n).after before).after during, w) := by
  have hi : i < (Slots.initial n).content.length := by
    have := (List.getElem?_eq_some_iff.1 hx).1
    rwa [after_length] at this
  have hown : x.own = true ↔ ∃ o, lastOn i before = some o ∧ o.own = true := by
    have h := after_get hi before
    cases hl : lastOn i before with
    | some o =>
      rw [hl] at h
      obtain ⟨m, h⟩ := h
      rw [hx] at h
      injection h with h
      subst h
      simp
    | none =>
      rw [hl] at h
      have h : _ = (Slots.initial n).content[i]? := h
      rw [hx] at h
      simp only [Slots.initial, List.getElem?_map] at h
      cases hr : (List.range n)[i]? with
      | none => rw [hr] at h; cases h
      | some a =>
        rw [hr] at h
        simp only [Option.map_some, Option.some.injEq] at h
        subst h
        simp
  have hal := after_alive (after_good (initial_good n) before) hx during
  cases f with
  | weakReference => rw [if_neg (fun h => by cases h.1)]; rfl
  | any =>
    show (if x.own = true ∧ (((Slots.initial n).after before).after during).alive x.obj = false then _ else _) = _
    by_cases hc : (∃ o, lastOn i before = some o ∧ o.own = true) ∧ ∃ o ∈ during, o.i = i
    · rw [if_pos, if_pos ⟨rfl, hc⟩]
      refine ⟨hown.2 hc.1, ?_⟩
      rw [← Bool.not_eq_true, hal]
      intro h
      obtain ⟨o, ho, he⟩ := hc.2
      exact h o ho he
    · rw [if_neg, if_neg fun h => hc h.2]
      rintro ⟨h1, h2⟩
      refine hc ⟨hown.1 h1, ?_⟩
      rw [← Bool.not_eq_true, hal] at h2
      simpa using h2

/-! ## Byte sources which replace actions -/

theorem touch_dangling {x : Slot} {w : Slots × σ} (h : Slots.touch .any x w = .fault .dangling) : x.own = true ∧ w.1.alive x.obj = false := by
  simp only [Slots.touch] at h
  split at h
  · assumption
  · cases h

/-- C69, exactly: after the replacements `before` the index of a request is read, then the source makes the replacements `during` while it gives the arguments. The
callback called is the one which is in place once the index has been read, unless it is a member of its action (`ANY`, given to `replace` as an rvalue) and
this action is replaced in the meantime, in which case the behaviour is undefined. -/
theorem C69_history_partial {P : Platform} (hP : P.Valid) {K : Keyring} (hK : KeyringOk K) (hs : Supported P K.e K.s) (f : Features)
    {body : Nat → Eff (Slots × σ) Unit → List Val → Eff (Slots × σ) (Option Val)} {src : Eff (Slots × σ) Byte} {dest : Byte → Eff (Slots × σ) Unit}
    {i : Nat} {d : Decl} (hd : K.decls[i]? = some d) {args : List Val} (hf : Val.FitsAll (Safe P K.s) d.sig.params args) (before during : List Replacement)
    {w : Slots × σ} {v0 v1 : σ} (hy0 : Yields src w (wireBytes K.e K.idxBytes i) ((Slots.initial K.decls.length).after before, v0))
    (hy1 : Yields src ((Slots.initial K.decls.length).after before, v0) (wires K.e K.s d.sig.params args)
      (((Slots.initial K.decls.length).after before).after during, v1)) :
    ∃ x : Slot, ((Slots.initial K.decls.length).after before).content[i]? = some x ∧ x.cb = (match lastOn i before with | some o => o.c | none => i) ∧
      if f = .any ∧ (∃ o, lastOn i before = some o ∧ o.own = true) ∧ ∃ o ∈ during, o.i = i then Slots.run P K f body src dest w = .fault .dangling
      else ∀ (r : Option Val) (w2 w3 : Slots × σ),
        body x.cb (Slots.touch f x) args (((Slots.initial K.decls.length).after before).after during, v1) = .ret r w2 → RetOk P K.s d.sig.ret r →
        Accepts dest w2 (response K.e K.s d.sig.ret r) w3 → Slots.run P K f body src dest w = .ret i w3 := by
  have hi : i < (Slots.initial K.decls.length).content.length := by
    simpa [Slots.initial] using (List.getElem?_eq_some_iff.1 hd).1
  have hi' : i < ((Slots.initial K.decls.length).after before).content.length := by rw [after_length]; exact hi
  refine ⟨((Slots.initial K.decls.length).after before).content[i], List.getElem?_eq_getElem hi', ?_, ?_⟩
  · have h := after_get hi before
    rw [List.getElem?_eq_getElem hi'] at h
    cases hl : lastOn i before with
    | some o =>
      rw [hl] at h
      obtain ⟨m, h⟩ := h
      injection h with h
      rw [h]
    | none =>
      rw [hl] at h
      have h : some _ = (Slots.initial K.decls.length).content[i]? := h
      rw [List.getElem?_eq_getElem hi] at h
      injection h with h
      rw [h]
      simp [Slots.initial]
  · have hx := List.getElem?_eq_getElem hi'
    have ht := C68_captures K.decls.length before during hx f v1
    split
    · rename_i hc
      rw [if_pos hc] at ht
      obtain ⟨rfl, -, -⟩ := hc
      have hc := touch_dangling ht
      exact C69_destroyed hP hK hs body dest hd hf hy0 hy1 hx hc.1 hc.2
    · rename_i hc
      rw [if_neg hc] at ht
      intro r w2 w3 hb hr hw
      refine C69_replaced_by_source_partial hP hK hs f hd hf hy0 hy1 hx ?_ hb hr hw
      rintro rfl ho
      cases hal : (((Slots.initial K.decls.length).after before).after during).alive _ with
      | true => rfl
      | false => exact absurd ((if_pos ⟨ho, hal⟩).symm.trans ht) (by simp)

/-- C69, full statement: the byte source may replace actions while it gives a request; the callback called is the one which is in place once the index
has been read, and it can use its captures. -/
def C69_Statement : Prop :=
  ∀ (σ : Type) (P : Platform), P.Valid → ∀ (K : Keyring), KeyringOk K → Supported P K.e K.s → ∀ (f : Features)
    (body : Nat → Eff (Slots × σ) Unit → List Val → Eff (Slots × σ) (Option Val)) (src : Eff (Slots × σ) Byte) (dest : Byte → Eff (Slots × σ) Unit)
    (i : Nat) (d : Decl), K.decls[i]? = some d → ∀ (args : List Val), Val.FitsAll (Safe P K.s) d.sig.params args →
    ∀ (w w0 w1 w2 w3 : Slots × σ), Yields src w (wireBytes K.e K.idxBytes i) w0 → Yields src w0 (wires K.e K.s d.sig.params args) w1 →
    ∀ (x : Slot), w0.1.content[i]? = some x → ∀ (r : Option Val), body x.cb (pure ()) args w1 = .ret r w2 → RetOk P K.s d.sig.ret r →
    Accepts dest w2 (response K.e K.s d.sig.ret r) w3 → Slots.run P K f body src dest w = .ret i w3

/-- `uint8_t f(uint8_t)`. -/
def incRing : Keyring := ⟨.little, .twosComplement, [⟨0, ⟨[.uint 1], some (.uint 1)⟩⟩]⟩

theorem incRing_ok : KeyringOk incRing :=
  ⟨by decide, by intro d hd; simp [incRing] at hd; subst hd; simp [SigOk, Ty.WFs, Ty.WF, PackedAll, Packed]⟩

/-- The callback `c` is `[c](uint8_t x) -> uint8_t { return x + c; }`, given to `replace`. -/
def addBody (c : Nat) (captures : Eff (Slots × Tape) Unit) (args : List Val) : Eff (Slots × Tape) (Option Val) := do
  captures
  match args with
  | [.int x] => pure (some (.int ((x + c) % 256)))
  | _ => Eff.lift (.error .illTyped)

/-- A byte source which replaces the action 0 by the callback 5, a temporary, each time it gives a byte equal to 7. -/
def meddlingSrc : Eff (Slots × Tape) Byte := fun w =>
  match w.2.1 with
  | [] => .threw w
  | b :: bs => .ret b (if b = 7#8 then w.1.replace 0 true 5 else w.1, (bs, w.2.2))

/-- C69 is false: the arguments are read before the callback is, from an action which no longer exists. -/
theorem C69_full_statement_is_false : ¬ C69_Statement := by
  intro h
  have := h Tape pc pc_valid incRing incRing_ok (pc_supported _ _) .any addBody meddlingSrc (fun b => aside (Tape.dest b)) 0
    ⟨0, ⟨[.uint 1], some (.uint 1)⟩⟩ rfl [.int 7]
    (by simp [Val.FitsAll, Val.Fits])
    (⟨[⟨0, true, 1⟩], 1⟩, ([0#8, 7#8], [])) (⟨[⟨0, true, 1⟩], 1⟩, ([7#8], [])) (⟨[⟨1, true, 5⟩], 2⟩, ([], [])) (⟨[⟨1, true, 5⟩], 2⟩, ([], []))
    (⟨[⟨1, true, 5⟩], 2⟩, ([], [8#8])) (Yields.cons (b := 0#8) (bs := []) rfl (.nil _)) (Yields.cons (b := 7#8) (bs := []) rfl (.nil _)) ⟨0, true, 1⟩ rfl
    (some (.int 8)) rfl (by simp [RetOk, Val.Fits]) (Accepts.cons (b := 8#8) (bs := []) rfl (.nil _))
  have h2 : Slots.run pc incRing .any addBody meddlingSrc (fun b => aside (Tape.dest b)) (⟨[⟨0, true, 1⟩], 1⟩, ([0#8, 7#8], [])) = .fault .dangling := rfl
  rw [h2] at this
  cases this

/-! ## Examples -/

/-- The callback 1 returns `x + 1` and replaces itself by the callback 2, which returns `2 * x`. -/
def onceBody (c : Nat) (_ : Eff (Slots × Tape) Unit) (args : List Val) : Eff (Slots × Tape) (Option Val) := fun w =>
  match c, args with
  | 1, [.int x] => .ret (some (.int ((x + 1) % 256))) (w.1.replace 0 true 2, w.2)
  | _, [.int x] => .ret (some (.int ((2 * x) % 256))) w
  | _, _ => .fault .illTyped

example (inp : List Byte) : Slots.runTimes pc incRing .any onceBody 2 (⟨[⟨0, true, 1⟩], 1⟩, (0#8 :: 9#8 :: 0#8 :: 9#8 :: inp, [])) =
    .ret [0, 0] (⟨[⟨1, true, 2⟩], 2⟩, (inp, [10#8, 18#8])) :=
  C68_sequence pc_valid incRing_ok (pc_supported _ _) .any
    [⟨0, ⟨0, ⟨[.uint 1], some (.uint 1)⟩⟩, [.int 9], ⟨0, true, 1⟩, some (.int 10), ⟨[⟨1, true, 2⟩], 2⟩⟩,
      ⟨0, ⟨0, ⟨[.uint 1], some (.uint 1)⟩⟩, [.int 9], ⟨1, true, 2⟩, some (.int 18), ⟨[⟨1, true, 2⟩], 2⟩⟩] ⟨[⟨0, true, 1⟩], 1⟩ inp []
    ⟨rfl, by simp [Val.FitsAll, Val.Fits],
      by simp [RetOk, Val.Fits], rfl, fun _ => rfl,
      rfl, by simp [Val.FitsAll, Val.Fits],
      by simp [RetOk, Val.Fits], rfl, fun _ => rfl, trivial⟩

example : Slots.run pc incRing .weakReference onceBody (aside Tape.src) (fun b => aside (Tape.dest b)) (⟨[⟨0, true, 1⟩], 1⟩, ([0#8, 9#8], [])) =
    .ret 0 (⟨[⟨1, true, 2⟩], 2⟩, ([], [10#8])) :=
  C68_request pc_valid incRing_ok (pc_supported _ _) .weakReference (i := 0) (d := ⟨0, ⟨[.uint 1], some (.uint 1)⟩⟩) rfl (args := [.int 9])
    (by simp [Val.FitsAll, Val.Fits]) (tape_yields [0#8, 9#8] [] []) (x := ⟨0, true, 1⟩) rfl (r := some (.int 10)) rfl
    (by simp [RetOk, Val.Fits]) (.cons rfl (.nil _))

example : ((⟨[⟨0, true, 1⟩, ⟨1, false, 4⟩], 2⟩ : Slots).replace 0 true 2).callback 1 = some 4 := C68_replace ⟨[⟨0, true, 1⟩, ⟨1, false, 4⟩], 2⟩ 0 true 2 1 (by decide)

/-- With actions which do not own their callbacks, the source may replace the action. -/
example : Slots.run pc incRing .weakReference addBody meddlingSrc (fun b => aside (Tape.dest b)) (⟨[⟨0, true, 1⟩], 1⟩, ([0#8, 7#8], [])) =
    .ret 0 (⟨[⟨1, true, 5⟩], 2⟩, ([], [8#8])) :=
  C69_replaced_by_source_partial pc_valid incRing_ok (pc_supported _ _) .weakReference (i := 0) (d := ⟨0, ⟨[.uint 1], some (.uint 1)⟩⟩) rfl (args := [.int 7])
    (by simp [Val.FitsAll, Val.Fits])
    (w0 := (⟨[⟨0, true, 1⟩], 1⟩, ([7#8], []))) (w1 := (⟨[⟨1, true, 5⟩], 2⟩, ([], []))) (.cons rfl (.nil _)) (.cons rfl (.nil _)) rfl
    (by intro h; cases h) (r := some (.int 8)) rfl (by simp [RetOk, Val.Fits]) (.cons rfl (.nil _))

/-- Likewise when the action is the one made by the constructor of the dispatcher, a reference to a function. -/
example : Slots.run pc incRing .any addBody meddlingSrc (fun b => aside (Tape.dest b)) (⟨[⟨0, false, 1⟩], 1⟩, ([0#8, 7#8], [])) =
    .ret 0 (⟨[⟨1, true, 5⟩], 2⟩, ([], [8#8])) :=
  C69_replaced_by_source_partial pc_valid incRing_ok (pc_supported _ _) .any (i := 0) (d := ⟨0, ⟨[.uint 1], some (.uint 1)⟩⟩) rfl (args := [.int 7])
    (by simp [Val.FitsAll, Val.Fits])
    (w0 := (⟨[⟨0, false, 1⟩], 1⟩, ([7#8], []))) (w1 := (⟨[⟨1, true, 5⟩], 2⟩, ([], []))) (.cons rfl (.nil _)) (.cons rfl (.nil _)) rfl
    (by intro _ h; cases h) (r := some (.int 8)) rfl (by simp [RetOk, Val.Fits]) (.cons rfl (.nil _))

/-- With actions which own them, it may not, even if the new callback would be the right one. -/
example : Slots.run pc incRing .any addBody meddlingSrc (fun b => aside (Tape.dest b)) (⟨[⟨0, true, 1⟩], 1⟩, ([0#8, 7#8], [])) = .fault .dangling :=
  C69_destroyed pc_valid incRing_ok (pc_supported _ _) addBody (fun b => aside (Tape.dest b)) (i := 0) (d := ⟨0, ⟨[.uint 1], some (.uint 1)⟩⟩) rfl
    (args := [.int 7]) (by simp [Val.FitsAll, Val.Fits])
    (w0 := (⟨[⟨0, true, 1⟩], 1⟩, ([7#8], []))) (w1 := (⟨[⟨1, true, 5⟩], 2⟩, ([], []))) (.cons rfl (.nil _)) (.cons rfl (.nil _)) rfl rfl rfl

/-- A callback which replaces its own action by the callback 5, a temporary, and then uses its captures. -/
def selfBody (c : Nat) (captures : Eff (Slots × Tape) Unit) (args : List Val) : Eff (Slots × Tape) (Option Val) := do
  (fun w => .ret () (w.1.replace 0 true 5, w.2) : Eff (Slots × Tape) Unit)
  addBody c captures args

/-- It may do so if it is not a member of its action. -/
example : Slots.run pc incRing .any selfBody (aside Tape.src) (fun b => aside (Tape.dest b)) (⟨[⟨1, false, 3⟩], 2⟩, ([0#8, 9#8], [])) =
    .ret 0 (⟨[⟨2, true, 5⟩], 3⟩, ([], [12#8])) :=
  C68_request pc_valid incRing_ok (pc_supported _ _) .any (i := 0) (d := ⟨0, ⟨[.uint 1], some (.uint 1)⟩⟩) rfl (args := [.int 9])
    (by simp [Val.FitsAll, Val.Fits]) (tape_yields [0#8, 9#8] [] []) (x := ⟨1, false, 3⟩) rfl (r := some (.int 12)) rfl
    (by simp [RetOk, Val.Fits]) (.cons rfl (.nil _))

example : Slots.run pc incRing .any selfBody (aside Tape.src) (fun b => aside (Tape.dest b)) (⟨[⟨1, true, 3⟩], 2⟩, ([0#8, 9#8], [])) = .fault .dangling := rfl

example (w : Tape) : Slots.touch .any ⟨1, true, 3⟩ (⟨[⟨2, true, 5⟩], 3⟩, w) = .fault .dangling :=
  (C68_captures 1 [⟨0, true, 3⟩] [⟨0, true, 5⟩] rfl .any w).trans (if_pos ⟨rfl, ⟨_, rfl, rfl⟩, _, List.mem_singleton.2 rfl, rfl⟩)

example (w : Tape) : Slots.touch .any ⟨1, false, 3⟩ (⟨[⟨2, true, 5⟩], 3⟩, w) = .ret () (⟨[⟨2, true, 5⟩], 3⟩, w) :=
  (C68_captures 1 [⟨0, false, 3⟩] [⟨0, true, 5⟩] (i := 0) rfl .any w).trans (if_neg (by rintro ⟨-, ⟨o, h, h'⟩, -⟩; cases h; cases h'))

/-- The source replaces the action 0, which holds a reference to the callback 3, while it gives the argument. -/
example : Slots.run pc incRing .any addBody meddlingSrc (fun b => aside (Tape.dest b)) ((Slots.initial 1).after [⟨0, true, 2⟩, ⟨0, false, 3⟩], ([0#8, 7#8], [])) =
    .ret 0 ((Slots.initial 1).after [⟨0, true, 2⟩, ⟨0, false, 3⟩, ⟨0, true, 5⟩], ([], [10#8])) := by
  obtain ⟨x, hx, _, h⟩ := C69_history_partial pc_valid incRing_ok (pc_supported _ _) .any (body := addBody) (src := meddlingSrc)
    (dest := fun b => aside (Tape.dest b)) (i := 0) (d := ⟨0, ⟨[.uint 1], some (.uint 1)⟩⟩) rfl (args := [.int 7])
    (by simp [Val.FitsAll, Val.Fits]) [⟨0, true, 2⟩, ⟨0, false, 3⟩] [⟨0, true, 5⟩]
    (w := ((Slots.initial 1).after [⟨0, true, 2⟩, ⟨0, false, 3⟩], ([0#8, 7#8], []))) (v0 := ([7#8], [])) (v1 := ([], []))
    (Yields.cons (b := 0#8) (bs := []) rfl (.nil _)) (Yields.cons (b := 7#8) (bs := []) rfl (.nil _))
  cases hx
  rw [if_neg (by rintro ⟨-, ⟨o, h, h'⟩, -⟩; cases h; cases h')] at h
  exact h (some (.int 10)) _ _ rfl (by simp [RetOk, Val.Fits]) (Accepts.cons (b := 10#8) (bs := []) rfl (.nil _))

/-- A callback which replaces its own action, then throws: the action stays replaced, nothing is written. -/
example (rest : List Byte) : Slots.run pc incRing .any (fun _ _ _ w => .threw (w.1.replace 0 true 5, w.2)) (aside Tape.src) (fun b => aside (Tape.dest b))
      (⟨[⟨1, true, 3⟩], 2⟩, ([0#8, 9#8] ++ rest, [])) = .threw (⟨[⟨2, true, 5⟩], 3⟩, (rest, [])) :=
  C68_outcome (body := fun _ _ _ w => .threw (w.1.replace 0 true 5, w.2)) pc_valid incRing_ok (pc_supported _ _) .any (fun b => aside (Tape.dest b))
    (i := 0) (d := ⟨0, ⟨[.uint 1], some (.uint 1)⟩⟩) rfl (args := [.int 9]) (by simp [Val.FitsAll, Val.Fits]) (tape_yields [0#8, 9#8] rest [])
    (x := ⟨1, true, 3⟩) rfl (by intro r w2 h; cases h)

/-- The source replaces the action, which does not own its callback, and then `dest` throws on the byte of the response. -/
example : Slots.run pc incRing .weakReference addBody meddlingSrc (fun _ w => .threw w) (⟨[⟨0, true, 1⟩], 1⟩, ([0#8, 7#8], [])) =
    .threw (⟨[⟨1, true, 5⟩], 2⟩, ([], [])) :=
  C69_outcome_partial (body := addBody) (src := meddlingSrc) pc_valid incRing_ok (pc_supported _ _) .weakReference (fun _ w => .threw w) (i := 0) (d := ⟨0, ⟨[.uint 1], some (.uint 1)⟩⟩) rfl
    (args := [.int 7]) (by simp [Val.FitsAll, Val.Fits])
    (w0 := (⟨[⟨0, true, 1⟩], 1⟩, ([7#8], []))) (w1 := (⟨[⟨1, true, 5⟩], 2⟩, ([], []))) (.cons rfl (.nil _)) (.cons rfl (.nil _)) rfl
    (by intro h; cases h) (by intro r w2 h; cases h; simp [RetOk, Val.Fits])

end Upd
