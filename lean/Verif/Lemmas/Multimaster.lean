import Verif.Lemmas.Net
import Verif.Lemmas.Deferred
import Verif.Spec.Multimaster

/-! # Two devices which both initiate requests -/

namespace Upd
open Spec TypeList

variable {σ : Type}

theorem atSide_same {α : Type} (g : Bool → α) (s : Bool) (a : α) : atSide g s a s = a := if_pos rfl

theorem atSide_other {α : Type} (g : Bool → α) {s t : Bool} (h : t ≠ s) (a : α) : atSide g s a t = g t := if_neg h

theorem atSide_twice {α : Type} (g : Bool → α) (s : Bool) (a b : α) : atSide (atSide g s a) s b = atSide g s b := by
  funext t; unfold atSide; split <;> rfl

theorem accepts_send (s : Bool) : ∀ (m : List Byte) (w : Bus σ), Accepts (Bus.send s) w m { w with sent := atSide w.sent s (w.sent s ++ m) }
  | [], w => by
    have : (⟨atSide w.sent s (w.sent s ++ []), w.hooks, w.rest⟩ : Bus σ) = w := by
      have h : atSide w.sent s (w.sent s ++ []) = w.sent := by
        funext t
        unfold atSide
        split
        · rename_i h; rw [List.append_nil, h]
        · rfl
      rw [h]
    rw [this]
    exact .nil _
  | x :: m, w => by
    have ih := accepts_send s m { w with sent := atSide w.sent s (w.sent s ++ [x]) }
    simp only [atSide_same, atSide_twice, List.append_assoc, List.singleton_append] at ih
    exact .cons rfl ih

/-- A call to make: a call of a function of the keyring, and a callback. -/
structure Job (K : Keyring) (σ : Type) where
  req : Req K
  hook : Callback σ

namespace Job
variable {K : Keyring}

def call (c : Job K σ) : Call σ := (c.req.decl.name, c.req.args, c.hook)

/-- The function returns something. -/
def waits (c : Job K σ) : Bool := c.req.decl.sig.ret.isSome

def action (c : Job K σ) : Action σ := c.req.key.withHook c.hook

/-- Usable by the device `A`. -/
structure Ok (A B : Station σ) (c : Job B.K σ) : Prop where
  ok : c.req.Ok A.P B.P
  ne : c.req.decl.name ≠ B.reply
  hook : c.waits = true → Hookable A.P B.K.s c.req.decl.sig.ret c.hook
  total : ∀ args w, ∃ x w', c.hook.fn args w = .ret x w'

end Job

/-- The function which receives the replies. -/
structure Rep (A : Station σ) where
  j : Nat
  hj : j < A.K.decls.length
  name : A.K.decls[j].name = A.reply
  get : A.K.get11 A.reply = some ⟨A.K.e, A.K.s, A.K.idxBytes, j, A.K.decls[j].sig⟩

/-- A reply. -/
def Rep.req {A : Station σ} (ρ : Rep A) (bs : List Byte) : Req A.K := ⟨ρ.j, ρ.hj, [.arr (bs.map fun x => .int x.toNat)]⟩

/-- What the device `A` sends to the device `B`: a call, or the reply to a call. -/
inductive Msg (A B : Station σ) where
  | ask (c : Job B.K σ)
  | answer (c : Job A.K σ) (v : Option Val) (junk : List Byte)

namespace Msg
variable {A B : Station σ}

def req (ρ : Rep B) : Msg A B → Req B.K
  | ask c => c.req
  | answer c v junk => ρ.req (response A.K.e A.K.s c.req.decl.sig.ret v ++ junk)

def Ok : Msg A B → Prop
  | ask c => c.Ok A B
  | answer c v junk => c.Ok B A ∧ c.waits = true ∧ RetOk B.P A.K.s c.req.decl.sig.ret v ∧
      (response A.K.e A.K.s c.req.decl.sig.ret v ++ junk).length = B.n

def ask? : Msg A B → Option (Job B.K σ)
  | ask c => some c
  | answer .. => none

def answer? : Msg A B → Option (Job A.K σ × Option Val)
  | ask _ => none
  | answer c v _ => some (c, v)

end Msg

section
variable {A B : Station σ}

def asks (M : List (Msg A B)) : List (Job B.K σ) := M.filterMap Msg.ask?

def answers (M : List (Msg A B)) : List (Job A.K σ × Option Val) := M.filterMap Msg.answer?

/-- What is in transit to a dispatcher. -/
structure Dir (A : Station σ) {B : Station σ} (ρ : Rep B) (t : Bool) (M : List (Msg A B)) (b : Buf (Bus σ)) (sent : List Byte) : Prop where
  reach : ∀ w, Reachable B.P B.K B.f (B.table t) B.shared (b, w)
  unread : Unread b []
  ok : ∀ m ∈ M, m.Ok
  ex : ∃ p, Pending b p ∧ p ++ sent = flat (M.map (Msg.req ρ)) ∧ (∀ m M', M = m :: M' → p.length < (m.req ρ).bytes.length) ∧ (M = [] → p = [])

/-- The calls of a device: `es` is what has happened, `ts` what is not begun. -/
structure Half (s : Bool) (A : Station σ) {B : Station σ} (calls : List (Call σ)) (M : List (Msg A B)) (M' : List (Msg B A)) (todo : List (Call σ))
    (hooks : List (Action σ)) (es : List (Event σ)) (ts : List (Job B.K σ)) : Prop where
  ok : ∀ c ∈ ts, c.Ok A B
  todo_eq : todo = ts.map Job.call
  hooks_eq : hooks = (answers M').map (fun x => x.1.action) ++ ((asks M).filter Job.waits).map Job.action
  calls_eq : calls = (servedOf s es).map Prod.fst ++ (asks M).map Job.call ++ todo
  hooked_eq : hookedOf s es ++ (answers M').map (fun x => (x.1.call, x.2)) = withValue (servedOf s es)

/-- Each callback is called after the function which it is hooked to. -/
def Orderly (es : List (Event σ)) : Prop := ∀ es', es' <+: es → ∀ s, hookedOf s es' <+: withValue (servedOf s es')

/-- Size of a reply to `A`. -/
def replySize (A : Station σ) : Nat := A.K.idxBytes + A.n

/-- Bytes of the replies to come. -/
def owed (A : Station σ) {B : Station σ} (cs : List (Job B.K σ)) : Nat := replySize A * (cs.filter Job.waits).length

/-- Steps which the calls not begun will take. -/
def dues (A : Station σ) {B : Station σ} (ts : List (Job B.K σ)) : Nat := (ts.map fun c => 1 + c.req.bytes.length).sum + owed A ts

/-- Invariant, where `n` steps are left. -/
def MInv (Φ : Bool → Station σ) (calls : Bool → List (Call σ)) (w : σ) (s t : Bool) (ρs : Rep (Φ s)) (ρt : Rep (Φ t)) (S : Masters σ) (n : Nat)
    (es : List (Event σ)) : Prop :=
  ∃ (M : List (Msg (Φ s) (Φ t))) (M' : List (Msg (Φ t) (Φ s))) (ts : List (Job (Φ t).K σ)) (ts' : List (Job (Φ s).K σ)),
    Dir (Φ s) ρt t M (S.disp t) (S.bus.sent s) ∧ Dir (Φ t) ρs s M' (S.disp s) (S.bus.sent t) ∧
    Half s (Φ s) (calls s) M M' (S.todo s) (S.bus.hooks s) es ts ∧ Half t (Φ t) (calls t) M' M (S.todo t) (S.bus.hooks t) es ts' ∧
    Happen Φ es w S.bus.rest ∧ Orderly es ∧
    n = ((S.bus.sent s).length + owed (Φ s) (asks M) + dues (Φ s) ts) + ((S.bus.sent t).length + owed (Φ t) (asks M') + dues (Φ t) ts')

theorem MInv.swap {Φ : Bool → Station σ} {calls : Bool → List (Call σ)} {w : σ} {s t : Bool} {ρs : Rep (Φ s)} {ρt : Rep (Φ t)} {S : Masters σ} {n : Nat}
    {es : List (Event σ)} (h : MInv Φ calls w s t ρs ρt S n es) : MInv Φ calls w t s ρt ρs S n es := by
  obtain ⟨M, M', ts, ts', h1, h2, h3, h4, h5, h6, h7⟩ := h
  exact ⟨M', M, ts', ts, h2, h1, h4, h3, h5, h6, by omega⟩

/-! ## The dispatchers -/

theorem station_setting (h : StationOk A B) (s : Bool) : Setting A.P A.K A.f (A.table s) where
  valid := h.valid
  ring := h.ring
  sup := h.sup
  sizes := h.sizes
  typed := by
    intro d hd args w r w' hf hr
    have hr : A.table s d.name args w = .ret r w' := hr
    unfold Station.table at hr
    split at hr
    · rename_i hn
      have hsig := h.replySig d hd hn
      show RetOk A.P A.K.s d.sig.ret r
      rw [hsig]
      have : r = none := by
        unfold onReply at hr
        split at hr
        · cases hr; rfl
        · obtain ⟨v, h1, _⟩ := zoom_eq_ret hr
          unfold replyFn at h1
          split at h1
          · split at h1
            · cases h1; rfl
            · cases h1
            · cases h1
          · cases h1
      rw [this]
      trivial
    · rename_i hn
      obtain ⟨v, h1, _⟩ := zoom_eq_ret hr
      exact h.typed d hd hn _ _ _ _ hf h1

theorem rep_exists (h : StationOk A B) : Nonempty (Rep A) := by
  obtain ⟨i, hi, h1, h2⟩ := A.K.get11_isSome h.ring.1 h.reply
  exact ⟨⟨i, hi, h1, h2⟩⟩

theorem Rep.sig (h : StationOk A B) (ρ : Rep A) : (A.K.decls[ρ.j]'ρ.hj).sig = ⟨[.arr (.uint 1) A.n], none⟩ :=
  h.replySig _ (List.getElem_mem ρ.hj) ρ.name

theorem Rep.fits (h : StationOk A B) (ρ : Rep A) (P : Platform) {bs : List Byte} (hl : bs.length = A.n) :
    Val.FitsAll (Safe P A.K.s) (ρ.req bs).decl.sig.params (ρ.req bs).args := by
  show Val.FitsAll _ (A.K.decls[ρ.j]'ρ.hj).sig.params _
  rw [ρ.sig h]
  exact bytes_fit hl

theorem Rep.bytes_length (h : StationOk A B) (ρ : Rep A) {bs : List Byte} (hl : bs.length = A.n) : (ρ.req bs).bytes.length = replySize A := by
  obtain ⟨h1, _, h3⟩ := request_parts (station_setting h true) ρ.hj (ρ.fits h A.P hl)
  show (request A.K.e A.K.s A.K.idxBytes ρ.j (A.K.decls[ρ.j]'ρ.hj).sig.params (ρ.req bs).args).length = _
  rw [request, List.length_append, h3]
  have h1 : (wireBytes A.K.e A.K.idxBytes ρ.j).length = A.K.idxBytes := h1
  rw [h1]
  show A.K.idxBytes + wireSizes (A.K.decls[ρ.j]'ρ.hj).sig.params = _
  rw [ρ.sig h]
  simp [wireSizes, wireSize, replySize]

theorem Msg.fits (hB : StationOk B A) (ρ : Rep B) {m : Msg A B} (h : m.Ok) :
    Val.FitsAll (Safe B.P B.K.s) (m.req ρ).decl.sig.params (m.req ρ).args := by
  cases m with
  | ask c => exact h.ok.fitsQ
  | answer c v junk => exact ρ.fits hB _ h.2.2.2

theorem Dir.push {ρ : Rep B} {t : Bool} {M : List (Msg A B)} {b : Buf (Bus σ)} {sent : List Byte} (hB : StationOk B A) (h : Dir A ρ t M b sent)
    {m : Msg A B} (hm : m.Ok) : Dir A ρ t (M ++ [m]) b (sent ++ (m.req ρ).bytes) where
  reach := h.reach
  unread := h.unread
  ok := by
    intro m' h'
    rcases List.mem_append.1 h' with h' | h'
    · exact h.ok m' h'
    · rw [List.mem_singleton.1 h']; exact hm
  ex := by
    obtain ⟨p, h1, h2, h3, h4⟩ := h.ex
    refine ⟨p, h1, ?_, ?_, by simp⟩
    · rw [List.map_append, flat_append, ← h2]; simp [flat]
    · intro m' M' he
      cases M with
      | nil =>
        rw [h4 rfl]
        exact Req.bytes_pos hB.ring _
      | cons m1 M1 =>
        obtain ⟨rfl, _⟩ := List.cons.inj he
        exact h3 _ _ rfl

/-- A byte is received. -/
theorem Dir.put {ρ : Rep B} {t : Bool} {M : List (Msg A B)} {b : Buf (Bus σ)} {x : Byte} {sent : List Byte} (hB : StationOk B A)
    (h : Dir A ρ t M b (x :: sent)) (w : Bus σ) :
    (∃ b', Buf.put B.P x (b, w) = .ret .loading (b', w) ∧ Dir A ρ t M b' sent) ∨
    ∃ m M', M = m :: M' ∧ sent = flat (M'.map (Msg.req ρ)) ∧ m.Ok ∧
      match B.table t (m.req ρ).decl.name (m.req ρ).args w with
      | .ret r w' => ∃ b', Buf.put B.P x (b, w) = .ret .resolved (b', w') ∧ Pending b' [] ∧ b'.obufNext = 0 ∧
          Unread b' (response B.K.e B.K.s (m.req ρ).decl.sig.ret r) ∧ ∀ w, Reachable B.P B.K B.f (B.table t) B.shared (b', w)
      | .threw w' => ∃ b', Buf.put B.P x (b, w) = .threw (b', w')
      | .fault f => Buf.put B.P x (b, w) = .fault f := by
  obtain ⟨p, h1, h2, h3, h4⟩ := h.ex
  cases M with
  | nil => exact absurd h2 (by simp [flat])
  | cons m M' =>
    have hm := h.ok m (by simp)
    have hfit := m.fits hB ρ hm
    have hset := station_setting hB t
    obtain ⟨rest, h5, h6⟩ := append_split h2 (h3 m M' rfl)
    by_cases hrest : rest = []
    · right
      subst hrest
      refine ⟨m, M', rfl, h6, hm, ?_⟩
      have h7 := C39_resolved hset (h.reach w) (m.req ρ).hi hfit (hB.room _ (Req.mem _)) h5 h1
      cases hd : B.table t (m.req ρ).decl.name (m.req ρ).args w with
      | fault e => rw [show B.table t (B.K.decls[(m.req ρ).i]'(m.req ρ).hi).name _ w = _ from hd] at h7; exact h7
      | threw w' => rw [show B.table t (B.K.decls[(m.req ρ).i]'(m.req ρ).hi).name _ w = _ from hd] at h7; exact h7
      | ret r w' =>
        rw [show B.table t (B.K.decls[(m.req ρ).i]'(m.req ρ).hi).name _ w = _ from hd] at h7
        obtain ⟨b', h8, h9, h10, h11⟩ := h7
        exact ⟨b', h8, h9, h10, h11, fun w1 => reachable_world (reachable_op (h.reach w) (.put x) trivial (Eff.bind_ret h8)) w1⟩
    · left
      obtain ⟨b', h7, h8, h9⟩ := C39_loading hset (h.reach w) (m.req ρ).hi hfit h5 hrest h1
      refine ⟨b', h7, ⟨fun w1 => reachable_world (reachable_op (h.reach w) (.put x) trivial (Eff.bind_ret h7)) w1, h9 [] h.unread fun _ => rfl, h.ok,
        p ++ [x], h8, by rw [← h2]; simp, ?_, by simp⟩⟩
      intro m1 M1 he
      obtain ⟨rfl, _⟩ := List.cons.inj he
      have : 0 < rest.length := List.length_pos_iff.2 hrest
      rw [h5]
      simp
      omega

/-- Once a packet is resolved. -/
theorem Dir.pop {ρ : Rep B} {t : Bool} {m : Msg A B} {M : List (Msg A B)} {b b' : Buf (Bus σ)} {sent sent' : List Byte} (hB : StationOk B A)
    (h : Dir A ρ t (m :: M) b sent) (hp : Pending b' []) (hu : Unread b' []) (hr : ∀ w, Reachable B.P B.K B.f (B.table t) B.shared (b', w))
    (hs : sent' = flat (M.map (Msg.req ρ))) : Dir A ρ t M b' sent' where
  reach := hr
  unread := hu
  ok := fun m' h' => h.ok m' (List.mem_cons_of_mem _ h')
  ex := ⟨[], hp, hs, fun _ _ _ => Req.bytes_pos hB.ring _, fun _ => rfl⟩

theorem Dir.sent_nil {ρ : Rep B} {t : Bool} {M : List (Msg A B)} {b : Buf (Bus σ)} (h : Dir A ρ t M b []) : M = [] := by
  obtain ⟨p, _, h2, h3, _⟩ := h.ex
  cases M with
  | nil => rfl
  | cons m M =>
    have h4 := h3 m M rfl
    rw [List.append_nil] at h2
    rw [h2, List.map_cons, flat_cons, List.length_append] at h4
    omega

/-! ## The events -/

theorem servedOf_append (s : Bool) : ∀ (es es' : List (Event σ)), servedOf s (es ++ es') = servedOf s es ++ servedOf s es'
  | [], _ => rfl
  | .served t c r :: es, es' => by
    simp only [List.cons_append, servedOf]
    split
    · rw [servedOf_append s es es']; rfl
    · exact servedOf_append s es es'
  | .hooked t c r :: es, es' => servedOf_append s es es'

theorem hookedOf_append (s : Bool) : ∀ (es es' : List (Event σ)), hookedOf s (es ++ es') = hookedOf s es ++ hookedOf s es'
  | [], _ => rfl
  | .hooked t c r :: es, es' => by
    simp only [List.cons_append, hookedOf]
    split
    · rw [hookedOf_append s es es']; rfl
    · exact hookedOf_append s es es'
  | .served t c r :: es, es' => hookedOf_append s es es'

theorem Orderly.snoc {es : List (Event σ)} (h : Orderly es) {e : Event σ} (he : ∀ s, hookedOf s (es ++ [e]) <+: withValue (servedOf s (es ++ [e]))) :
    Orderly (es ++ [e]) := by
  intro es' h' s
  rcases (List.prefix_concat_iff).1 h' with rfl | h'
  · exact he s
  · exact h es' h' s

/-! ## The steps -/

theorem asks_ask (c : Job B.K σ) (M : List (Msg A B)) : asks (.ask c :: M) = c :: asks M := rfl

theorem asks_answer (c : Job A.K σ) (v : Option Val) (junk : List Byte) (M : List (Msg A B)) : asks (.answer c v junk :: M) = asks M := rfl

theorem answers_ask (c : Job B.K σ) (M : List (Msg A B)) : answers (.ask c :: M) = answers M := rfl

theorem answers_answer (c : Job A.K σ) (v : Option Val) (junk : List Byte) (M : List (Msg A B)) :
    answers (.answer c v junk :: M) = (c, v) :: answers M := rfl

theorem asks_append (M N : List (Msg A B)) : asks (M ++ N) = asks M ++ asks N := List.filterMap_append

theorem answers_append (M N : List (Msg A B)) : answers (M ++ N) = answers M ++ answers N := List.filterMap_append

variable {Φ : Bool → Station σ} {calls : Bool → List (Call σ)} {w : σ} {s t : Bool} {ρs : Rep (Φ s)} {ρt : Rep (Φ t)} {S : Masters σ} {n : Nat}
  {es : List (Event σ)} {g : Buf (Bus σ) → Bool}

/-- A device begins a call. -/
theorem masters_call (hst : (!s) = t) (hA : StationOk (Φ s) (Φ t)) (hB : StationOk (Φ t) (Φ s)) (h : MInv Φ calls w s t ρs ρt S n es)
    {r : Res (Masters σ) Unit} (hr : Masters.step Φ g (.call s) S = some r) :
    ∃ S' n', r = .ret () S' ∧ MInv Φ calls w s t ρs ρt S' n' es ∧ n = n' + 1 := by
  obtain ⟨M, M', ts, ts', h1, h2, h3, h4, h5, h6, h7⟩ := h
  have hne : t ≠ s := by rw [← hst]; cases s <;> simp
  cases ts with
  | nil =>
    have : Masters.step Φ g (.call s) S = none := by
      unfold Masters.step
      simp only [h3.todo_eq, List.map_nil]
    rw [this] at hr
    cases hr
  | cons c ts =>
    have hc := h3.ok c (by simp)
    have hw := C29_request_format hA.valid (k := c.req.key) hB.peer (idxBytes_pos hB.ring.1).1
      (Nat.lt_trans c.req.hi (idxBytes_pos hB.ring.1).2) (hB.ring.2 _ c.req.mem) hc.ok.fitsP (Bus.send (σ := σ) s)
    have hw : c.req.key.writeTo (Φ s).P c.req.args (Bus.send s) S.bus =
        .ret () { S.bus with sent := atSide S.bus.sent s (S.bus.sent s ++ c.req.bytes) } := by
      rw [hw]; exact putAll_accepts (accepts_send s _ _)
    have hstep : Masters.step Φ g (.call s) S = some (.ret () { S with
        todo := atSide S.todo s (ts.map Job.call),
        bus := if c.waits then { S.bus with
            sent := atSide S.bus.sent s (S.bus.sent s ++ c.req.bytes), hooks := atSide S.bus.hooks s (S.bus.hooks s ++ [c.action]) }
          else { S.bus with sent := atSide S.bus.sent s (S.bus.sent s ++ c.req.bytes) } }) := by
      unfold Masters.step
      simp only [h3.todo_eq, List.map_cons, Job.call, hst, hc.ok.get, hw]
      rfl
    rw [hstep] at hr
    cases hr
    refine ⟨_, ((S.bus.sent s ++ c.req.bytes).length + owed (Φ s) (asks (M ++ [.ask c])) + dues (Φ s) ts) +
      ((S.bus.sent t).length + owed (Φ t) (asks M') + dues (Φ t) ts'), rfl, ⟨M ++ [.ask c], M', ts, ts', ?_, ?_, ?_, ?_, ?_, h6, ?_⟩, ?_⟩
    · have : Dir (Φ s) ρt t (M ++ [.ask c]) (S.disp t) (S.bus.sent s ++ c.req.bytes) := h1.push hB (m := .ask c) hc
      split <;> simpa only [atSide_same] using this
    · split <;> simpa only [atSide_other _ hne] using h2
    · have hwaits : (if c.waits = true then S.bus.hooks s ++ [c.action] else S.bus.hooks s) =
          (answers M').map (fun x => x.1.action) ++ ((asks (M ++ [.ask c])).filter Job.waits).map Job.action := by
        rw [asks_append, h3.hooks_eq]
        show _ = _ ++ ((asks M ++ [c]).filter Job.waits).map Job.action
        rw [List.filter_append]
        split
        · rename_i hw; simp [hw]
        · rename_i hw; simp [hw]
      refine ⟨fun c' h' => h3.ok c' (List.mem_cons_of_mem _ h'), atSide_same .., ?_, ?_, h3.hooked_eq⟩
      · rw [← hwaits]
        split <;> simp [atSide_same]
      · rw [h3.calls_eq, h3.todo_eq, asks_append]
        simp only [atSide_same]
        show _ = _ ++ (asks M ++ [c]).map Job.call ++ _
        simp
    · refine ⟨h4.ok, by simp only [atSide_other _ hne]; exact h4.todo_eq, ?_, ?_, ?_⟩
      · rw [answers_append]
        show _ = (answers M ++ []).map _ ++ _
        rw [List.append_nil, ← h4.hooks_eq]
        split <;> simp [atSide_other _ hne]
      · simp only [atSide_other _ hne]; exact h4.calls_eq
      · rw [answers_append]
        show _ ++ (answers M ++ []).map _ = _
        rw [List.append_nil]; exact h4.hooked_eq
    · split <;> exact h5
    · have e1 : ∀ x : Bus σ, (x = if c.waits then { S.bus with
            sent := atSide S.bus.sent s (S.bus.sent s ++ c.req.bytes), hooks := atSide S.bus.hooks s (S.bus.hooks s ++ [c.action]) }
          else { S.bus with sent := atSide S.bus.sent s (S.bus.sent s ++ c.req.bytes) }) → x.sent s = S.bus.sent s ++ c.req.bytes ∧
            x.sent t = S.bus.sent t := by
        intro x hx
        subst hx
        split <;> simp [atSide_same, atSide_other _ hne]
      obtain ⟨e2, e3⟩ := e1 _ rfl
      simp only [e2, e3]
    · rw [h7, asks_append]
      show _ = _ + owed (Φ s) (asks M ++ [c]) + _ + _ + 1
      simp only [dues, owed, List.map_cons, List.sum_cons, List.filter_append, List.length_append, List.filter_cons, List.filter_nil]
      split
      · simp only [List.length_cons, List.length_nil, Nat.mul_add, Nat.mul_one]; omega
      · simp only [List.length_nil, Nat.mul_add, Nat.mul_zero]; omega

/-- The device `t` receives a byte. -/
theorem masters_receive (hst : (!s) = t) (hts : (!t) = s) (hA : StationOk (Φ s) (Φ t)) (hB : StationOk (Φ t) (Φ s))
    (h : MInv Φ calls w s t ρs ρt S n es) {r : Res (Masters σ) Unit} (hr : Masters.step Φ Buf.isLoaded (.receive t) S = some r) :
    ∃ S' n' es', r = .ret () S' ∧ MInv Φ calls w s t ρs ρt S' n' es' ∧ n = n' + 1 := by
  obtain ⟨M, M', ts, ts', h1, h2, h3, h4, h5, h6, h7⟩ := h
  have hne : t ≠ s := by rw [← hst]; cases s <;> simp
  cases hsent : S.bus.sent s with
  | nil =>
    have : Masters.step Φ Buf.isLoaded (.receive t) S = none := by
      unfold Masters.step
      simp only [hts, hsent]
    rw [this] at hr
    cases hr
  | cons x sent =>
    have hstep : Masters.step Φ Buf.isLoaded (.receive t) S =
      match Buf.put (Φ t).P x (S.disp t, { S.bus with sent := atSide S.bus.sent s sent }) with
      | .fault f => some (.fault f)
      | .threw (b, w) => some (.threw { S with disp := atSide S.disp t b, bus := w })
      | .ret status (b, w) =>
        if status = .resolved ∧ Buf.isLoaded b = true then
          match (Φ s).K.get11 (Φ s).reply with
          | none => some (.fault .illTyped)
          | some kR =>
            match Buf.reply (Φ t).P kR (Φ s).n (Bus.send t) (b, w) with
            | .fault f => some (.fault f)
            | .threw (b, w) => some (.threw { S with disp := atSide S.disp t b, bus := w })
            | .ret _ (b, w) => some (.ret () { S with disp := atSide S.disp t b, bus := w })
        else some (.ret () { S with disp := atSide S.disp t b, bus := w }) := by
      simp only [Masters.step, hts, hsent]
      rfl
    rw [hsent] at h1
    rw [hstep] at hr
    rcases h1.put hB { S.bus with sent := atSide S.bus.sent s sent } with ⟨b', h8, h9⟩ | ⟨m, M1, rfl, h8, h9, h10⟩
    · -- in the middle of a packet
      rw [h8] at hr
      simp only [reduceCtorEq, false_and, if_false] at hr
      cases hr
      refine ⟨_, (sent.length + owed (Φ s) (asks M) + dues (Φ s) ts) + ((S.bus.sent t).length + owed (Φ t) (asks M') + dues (Φ t) ts'), es, rfl,
        ⟨M, M', ts, ts', ?_, ?_, h3, h4, h5, h6, ?_⟩, ?_⟩
      · simpa only [atSide_same] using h9
      · simpa only [atSide_other _ hne, atSide_other _ hne.symm] using h2
      · simp only [atSide_same, atSide_other _ hne]
      · rw [h7, hsent, List.length_cons]; omega
    · cases m with
      | ask c =>
        have hc : c.Ok (Φ s) (Φ t) := h9
        obtain ⟨v, w1, hd⟩ := hB.total _ c.req.mem hc.ne c.req.args S.bus.rest
        have hv := hB.typedPeer _ c.req.mem hc.ne _ _ _ _ hc.ok.fitsP hd
        have hvB := hB.typed _ c.req.mem hc.ne _ _ _ _ hc.ok.fitsQ hd
        have htab : (Φ t).table t c.req.decl.name c.req.args { S.bus with sent := atSide S.bus.sent s sent } =
            .ret v { S.bus with sent := atSide S.bus.sent s sent, rest := w1 } := by
          unfold Station.table
          rw [if_neg hc.ne]
          exact zoom_ret hd
        have h10 : (match (Φ t).table t c.req.decl.name c.req.args { S.bus with sent := atSide S.bus.sent s sent } with
            | .ret r w' => _ | .threw w' => _ | .fault f => _ : Prop) := h10
        rw [htab] at h10
        obtain ⟨b', h11, h12, h13, h14, h15⟩ := h10
        have h14 : Unread b' (response (Φ t).K.e (Φ t).K.s c.req.decl.sig.ret v) := h14
        rw [h11] at hr
        simp only [true_and] at hr
        have hlen : (response (Φ t).K.e (Φ t).K.s c.req.decl.sig.ret v).length = retSize c.req.decl.sig.ret :=
          response_length (hB.ring.2 _ c.req.mem) hv
        have hhap : Happen Φ (es ++ [.served s c.call v]) w w1 := .served h5 (by rw [hst]; exact hd)
        have hserv : servedOf s (es ++ [.served s c.call v]) = servedOf s es ++ [(c.call, v)] := by
          rw [servedOf_append]; simp [servedOf]
        have hserv' : servedOf t (es ++ [.served s c.call v]) = servedOf t es := by
          rw [servedOf_append]; simp [servedOf, hne.symm]
        have hhook : ∀ u, hookedOf u (es ++ [.served s c.call v]) = hookedOf u es := by
          intro u; rw [hookedOf_append]; simp [hookedOf]
        have hord : Orderly (es ++ [.served s c.call v]) := by
          refine h6.snoc fun u => ?_
          rw [hhook, servedOf_append, withValue, List.filter_append]
          exact List.IsPrefix.trans (h6 es (List.prefix_refl _) u) (List.prefix_append _ _)
        by_cases hwait : c.waits = true
        · -- a function which returns something
          obtain ⟨ty, hty⟩ := Option.isSome_iff_exists.1 hwait
          have hpos : 1 ≤ (response (Φ t).K.e (Φ t).K.s c.req.decl.sig.ret v).length := by
            rw [hlen, hty]; exact hB.bytes _ c.req.mem ty hty
          have hsome : v.isSome = true := by
            rw [hty] at hv
            cases v with
            | none => exact absurd hv (by simp [RetOk])
            | some _ => rfl
          have hload : b'.isLoaded = true := by
            rw [unread_isLoaded h14]
            cases hh : response (Φ t).K.e (Φ t).K.s c.req.decl.sig.ret v with
            | nil => rw [hh] at hpos; simp at hpos
            | cons _ _ => rfl
          rw [if_pos hload, ρs.get] at hr
          have hkR : ReplyKey (Φ t).P ⟨(Φ s).K.e, (Φ s).K.s, (Φ s).K.idxBytes, ρs.j, ((Φ s).K.decls[ρs.j]'ρs.hj).sig⟩ (Φ s).n :=
            ⟨hA.peer, (idxBytes_pos hA.ring.1).1, Nat.lt_trans ρs.hj (idxBytes_pos hA.ring.1).2, by rw [ρs.sig hA], hA.replyPos⟩
          have hfit : (response (Φ t).K.e (Φ t).K.s c.req.decl.sig.ret v).length ≤ (Φ s).n := by
            rw [hlen]; exact hA.replyRoom _ c.req.mem
          obtain ⟨junk, h16, h17⟩ := C49_reply hB.valid hkR h14 h13 hfit
          obtain ⟨b2, h18, h19, h20⟩ := h17 (Bus.send t) { S.bus with sent := atSide S.bus.sent s sent, rest := w1 } _ (accepts_send t _ _)
          have hreach := fun w2 => reachable_world (reachable_op (h15 _) (.reply _ _ (Bus.send t)) hkR (Eff.bind_ret h18)) w2
          simp only [h18] at hr
          cases hr
          have hj : (response (Φ t).K.e (Φ t).K.s c.req.decl.sig.ret v ++ junk).length = (Φ s).n := by
            rw [List.length_append]; omega
          have hm : Msg.Ok (A := Φ t) (B := Φ s) (.answer c v junk) := ⟨hc, hwait, hv, hj⟩
          have hbl := ρs.bytes_length hA hj
          refine ⟨_, (sent.length + owed (Φ s) (asks M1) + dues (Φ s) ts) + ((S.bus.sent t).length + replySize (Φ s) + owed (Φ t) (asks M') +
              dues (Φ t) ts'), es ++ [.served s c.call v], rfl,
            ⟨M1, M' ++ [.answer c v junk], ts, ts', ?_, ?_, ⟨h3.ok, h3.todo_eq, ?_, ?_, ?_⟩, ⟨h4.ok, h4.todo_eq, ?_, ?_, ?_⟩, hhap, hord, ?_⟩, ?_⟩
          · simp only [atSide_same, atSide_other _ hne.symm]
            exact h1.pop hB (h20 [] h12) h19 hreach h8
          · simp only [atSide_same, atSide_other _ hne, atSide_other _ hne.symm]
            exact h2.push hA hm
          · rw [answers_append]
            show _ = (answers M' ++ [(c, v)]).map _ ++ _
            rw [h3.hooks_eq, asks_ask, List.filter_cons, if_pos hwait]
            simp
          · rw [hserv, h3.calls_eq, asks_ask]; simp
          · rw [hserv, hhook, answers_append]
            show _ ++ (answers M' ++ [(c, v)]).map _ = _
            unfold withValue
            rw [List.filter_append, ← withValue, ← h3.hooked_eq]
            simp [hsome]
          · rw [asks_append]
            show _ = _ ++ ((asks M' ++ []).filter _).map _
            rw [List.append_nil]; exact h4.hooks_eq
          · rw [hserv', asks_append]
            show _ = _ ++ (asks M' ++ []).map _ ++ _
            rw [List.append_nil]; exact h4.calls_eq
          · rw [hserv', hhook]; exact h4.hooked_eq
          · simp only [atSide_same, atSide_other _ hne, atSide_other _ hne.symm]
            rw [asks_append]
            show _ = _ + (_ + owed (Φ t) (asks M' ++ []) + _)
            rw [List.append_nil, List.length_append]
            have : (request (Φ s).K.e (Φ s).K.s (Φ s).K.idxBytes ρs.j ((Φ s).K.decls[ρs.j]'ρs.hj).sig.params
              [.arr ((response (Φ t).K.e (Φ t).K.s c.req.decl.sig.ret v ++ junk).map fun x => .int x.toNat)]).length = replySize (Φ s) := hbl
            rw [this]
          · rw [h7, hsent, asks_ask, List.length_cons]
            simp only [owed, List.filter_cons, hwait, if_true, List.length_cons, Nat.mul_add, Nat.mul_one]
            omega
        · -- a function which returns nothing
          have hret : c.req.decl.sig.ret = none := by
            cases hh : c.req.decl.sig.ret with
            | none => rfl
            | some ty => exact absurd (by unfold Job.waits; rw [hh]; rfl) hwait
          have hnone : v = none := by
            rw [hret] at hv
            cases v with
            | none => rfl
            | some _ => exact absurd hv (by simp [RetOk])
          have hnil : response (Φ t).K.e (Φ t).K.s c.req.decl.sig.ret v = [] := by rw [hret]; rfl
          rw [hnil] at h14
          have hload : b'.isLoaded = false := by rw [unread_isLoaded h14]; rfl
          simp only [hload, Bool.false_eq_true, if_false] at hr
          cases hr
          refine ⟨_, (sent.length + owed (Φ s) (asks M1) + dues (Φ s) ts) + ((S.bus.sent t).length + owed (Φ t) (asks M') + dues (Φ t) ts'),
            es ++ [.served s c.call v], rfl,
            ⟨M1, M', ts, ts', ?_, ?_, ⟨h3.ok, h3.todo_eq, ?_, ?_, ?_⟩, ⟨h4.ok, h4.todo_eq, h4.hooks_eq, ?_, ?_⟩, hhap, hord, ?_⟩, ?_⟩
          · simp only [atSide_same]
            exact h1.pop hB h12 h14 h15 h8
          · simp only [atSide_other _ hne, atSide_other _ hne.symm]
            exact h2
          · rw [h3.hooks_eq, asks_ask, List.filter_cons, if_neg hwait]
          · rw [hserv, h3.calls_eq, asks_ask]; simp
          · rw [hserv, hhook]
            unfold withValue
            rw [List.filter_append, ← withValue, ← h3.hooked_eq, hnone]
            simp
          · rw [hserv']; exact h4.calls_eq
          · rw [hserv', hhook]; exact h4.hooked_eq
          · simp only [atSide_same, atSide_other _ hne]
          · rw [h7, hsent, asks_ask, List.length_cons]
            simp only [owed, List.filter_cons, hwait]
            simp
            omega
      | answer c v junk =>
        obtain ⟨hc, hwait, hv, hj⟩ : c.Ok (Φ t) (Φ s) ∧ c.waits = true ∧ RetOk (Φ t).P (Φ s).K.s c.req.decl.sig.ret v ∧
          (response (Φ s).K.e (Φ s).K.s c.req.decl.sig.ret v ++ junk).length = (Φ t).n := h9
        have hhooks : S.bus.hooks t = c.action :: ((answers M1).map (fun x => x.1.action) ++ ((asks M').filter Job.waits).map Job.action) := by
          rw [h4.hooks_eq, answers_answer]; rfl
        obtain ⟨y, w1, hd⟩ := hc.total v.toList S.bus.rest
        have hfn := replyFn_eq hB.valid (k := c.req.key) hA.peer (hc.hook hwait) hv junk S.bus.rest
        rw [hd] at hfn
        have htab : (Φ t).table t (Φ t).reply
            [.arr ((response (Φ s).K.e (Φ s).K.s c.req.decl.sig.ret v ++ junk).map fun x => .int x.toNat)]
            { S.bus with sent := atSide S.bus.sent s sent } =
            .ret none ⟨atSide S.bus.sent s sent,
              atSide S.bus.hooks t ((answers M1).map (fun x => x.1.action) ++ ((asks M').filter Job.waits).map Job.action), w1⟩ := by
          have h16 : (Φ t).table t (Φ t).reply = onReply (Φ t).P t := by
            funext args; exact if_pos rfl
          rw [h16]
          show (match S.bus.hooks t with | [] => _ | a :: as => _) = _
          rw [hhooks]
          exact zoom_ret (L := Bus.user) hfn
        have hname : (Msg.req ρt (.answer c v junk : Msg (Φ s) (Φ t))).decl.name = (Φ t).reply := ρt.name
        rw [hname] at h10
        have h10 : (match (Φ t).table t (Φ t).reply
            [.arr ((response (Φ s).K.e (Φ s).K.s c.req.decl.sig.ret v ++ junk).map fun x => .int x.toNat)]
            { S.bus with sent := atSide S.bus.sent s sent } with
            | .ret r w' => _ | .threw w' => _ | .fault f => _ : Prop) := h10
        rw [htab] at h10
        obtain ⟨b', h11, h12, h13, h14, h15⟩ := h10
        have hret : (Msg.req ρt (.answer c v junk : Msg (Φ s) (Φ t))).decl.sig.ret = none := by
          show ((Φ t).K.decls[ρt.j]'ρt.hj).sig.ret = none
          rw [ρt.sig hB]
        rw [hret] at h14
        have h14 : Unread b' [] := h14
        have hload : b'.isLoaded = false := by rw [unread_isLoaded h14]; rfl
        rw [h11] at hr
        simp only [hload, Bool.false_eq_true, and_false, if_false] at hr
        cases hr
        have hhap : Happen Φ (es ++ [.hooked t c.call v]) w w1 := .hooked h5 hd
        have hhook : hookedOf t (es ++ [.hooked t c.call v]) = hookedOf t es ++ [(c.call, v)] := by
          rw [hookedOf_append]; simp [hookedOf]
        have hhook' : hookedOf s (es ++ [.hooked t c.call v]) = hookedOf s es := by
          rw [hookedOf_append]; simp [hookedOf, hne]
        have hserv : ∀ u, servedOf u (es ++ [.hooked t c.call v]) = servedOf u es := by
          intro u; rw [servedOf_append]; simp [servedOf]
        have hnext : hookedOf t es ++ [(c.call, v)] ++ (answers M1).map (fun x => (x.1.call, x.2)) = withValue (servedOf t es) := by
          rw [← h4.hooked_eq, answers_answer]; simp
        have hord : Orderly (es ++ [.hooked t c.call v]) := by
          refine h6.snoc fun u => ?_
          rw [hserv]
          have hu : u = t ∨ u = s := by rw [← hst]; cases u <;> cases s <;> simp
          rcases hu with rfl | rfl
          · rw [hhook, ← hnext]; exact List.prefix_append _ _
          · rw [hhook']; exact h6 es (List.prefix_refl _) _
        refine ⟨_, (sent.length + owed (Φ s) (asks M1) + dues (Φ s) ts) + ((S.bus.sent t).length + owed (Φ t) (asks M') + dues (Φ t) ts'),
          es ++ [.hooked t c.call v], rfl,
          ⟨M1, M', ts, ts', ?_, ?_, ⟨h3.ok, h3.todo_eq, ?_, ?_, ?_⟩, ⟨h4.ok, h4.todo_eq, ?_, ?_, ?_⟩, hhap, hord, ?_⟩, ?_⟩
        · simp only [atSide_same]
          exact h1.pop hB h12 h14 h15 h8
        · simp only [atSide_other _ hne, atSide_other _ hne.symm]
          exact h2
        · simp only [atSide_other _ hne.symm]; exact h3.hooks_eq
        · rw [hserv]; exact h3.calls_eq
        · rw [hserv, hhook']; exact h3.hooked_eq
        · simp only [atSide_same]
        · rw [hserv]; exact h4.calls_eq
        · rw [hserv, hhook]; exact hnext
        · simp only [atSide_same, atSide_other _ hne]
        · rw [h7, hsent, asks_answer, List.length_cons]; omega

/-- Any step. -/
theorem masters_step (hst : (!s) = t) (hts : (!t) = s) (hA : StationOk (Φ s) (Φ t)) (hB : StationOk (Φ t) (Φ s))
    (h : MInv Φ calls w s t ρs ρt S n es) {a : MasterStep} {r : Res (Masters σ) Unit} (hr : Masters.step Φ Buf.isLoaded a S = some r) :
    ∃ S' n' es', r = .ret () S' ∧ MInv Φ calls w s t ρs ρt S' n' es' ∧ n = n' + 1 := by
  have side : ∀ u, u = s ∨ u = t := by intro u; rw [← hst]; cases u <;> cases s <;> simp
  cases a with
  | call u =>
    rcases side u with rfl | rfl
    · obtain ⟨S', n', h1, h2, h3⟩ := masters_call hst hA hB h hr
      exact ⟨S', n', es, h1, h2, h3⟩
    · obtain ⟨S', n', h1, h2, h3⟩ := masters_call hts hB hA h.swap hr
      exact ⟨S', n', es, h1, h2.swap, h3⟩
  | receive u =>
    rcases side u with rfl | rfl
    · obtain ⟨S', n', es', h1, h2, h3⟩ := masters_receive hts hst hB hA h.swap hr
      exact ⟨S', n', es', h1, h2.swap, h3⟩
    · exact masters_receive hst hts hA hB h hr

/-- Either nothing is left to do, or a step is possible. -/
theorem masters_rest (hst : (!s) = t) (hts : (!t) = s) (h : MInv Φ calls w s t ρs ρt S n es) : MastersRest Φ g S ↔ n = 0 := by
  obtain ⟨M, M', ts, ts', h1, h2, h3, h4, h5, h6, h7⟩ := h
  have side : ∀ u, u = s ∨ u = t := by intro u; rw [← hst]; cases u <;> cases s <;> simp
  have todo : ∀ u, Masters.step Φ g (.call u) S = none ↔ S.todo u = [] := by
    intro u
    cases hu : S.todo u with
    | nil => simp only [Masters.step, hu]
    | cons c cs =>
      obtain ⟨name, args, hook⟩ := c
      simp only [Masters.step, hu, reduceCtorEq, iff_false]
      repeat' split
      all_goals simp
  have sent : ∀ u, Masters.step Φ g (.receive u) S = none ↔ S.bus.sent (!u) = [] := by
    intro u
    cases hu : S.bus.sent (!u) with
    | nil => simp only [Masters.step, hu]
    | cons c cs =>
      simp only [Masters.step, hu, reduceCtorEq, iff_false]
      repeat' split
      all_goals simp
  constructor
  · intro hrest
    have e1 := (todo s).1 (hrest _)
    have e2 := (todo t).1 (hrest _)
    have e3 := (sent t).1 (hrest _)
    have e4 := (sent s).1 (hrest _)
    rw [hts] at e3
    rw [hst] at e4
    rw [e3] at h1
    rw [e4] at h2
    rw [h3.todo_eq, List.map_eq_nil_iff] at e1
    rw [h4.todo_eq, List.map_eq_nil_iff] at e2
    rw [h7, e3, e4, h1.sent_nil, h2.sent_nil, e1, e2]
    rfl
  · intro h0
    have z1 : (S.bus.sent s).length = 0 := by omega
    have z2 : (S.bus.sent t).length = 0 := by omega
    have z3 : dues (Φ s) ts = 0 := by omega
    have z4 : dues (Φ t) ts' = 0 := by omega
    have z5 : ts = [] := by
      cases ts with
      | nil => rfl
      | cons c ts => simp [dues] at z3
    have z6 : ts' = [] := by
      cases ts' with
      | nil => rfl
      | cons c ts => simp [dues] at z4
    intro a
    cases a with
    | call u =>
      rw [todo]
      rcases side u with rfl | rfl
      · rw [h3.todo_eq, z5]; rfl
      · rw [h4.todo_eq, z6]; rfl
    | receive u =>
      rw [sent]
      rcases side u with rfl | rfl
      · rw [hst]; exact List.length_eq_zero_iff.1 z2
      · rw [hts]; exact List.length_eq_zero_iff.1 z1

/-- The calls, as calls of functions of the keyring. -/
theorem master_jobs (hB : StationOk B A) : ∀ {calls : List (Call σ)}, MasterCallsOk A B calls →
    ∃ ts : List (Job B.K σ), calls = ts.map Job.call ∧ ∀ c ∈ ts, c.Ok A B
  | [], _ => ⟨[], rfl, by simp⟩
  | (name, args, hook) :: calls, h => by
    obtain ⟨he, hfit⟩ := h.fit (name, args) (by simp [withoutHooks])
    obtain ⟨i, hi, hn, hk⟩ := B.K.get11_isSome hB.ring.1 he
    have hn' : B.K.decls[i].name = name := hn
    subst hn'
    obtain ⟨hfA, hfB⟩ := hfit _ (List.getElem_mem hi) rfl
    obtain ⟨ts, h1, h2⟩ := master_jobs hB (calls := calls)
      ⟨fun c hc => h.fit c (by simp [withoutHooks] at hc ⊢; exact Or.inr hc), fun c hc => h.notReply c (List.mem_cons_of_mem _ hc),
        fun c hc => h.hooks c (List.mem_cons_of_mem _ hc), fun c hc => h.total c (List.mem_cons_of_mem _ hc)⟩
    refine ⟨⟨⟨i, hi, args⟩, hook⟩ :: ts, by rw [h1]; rfl, ?_⟩
    intro c hc
    rcases List.mem_cons.1 hc with rfl | hc
    · exact ⟨⟨hk, hfA, hfB⟩, h.notReply _ (List.mem_cons_self ..), h.hooks _ (List.mem_cons_self ..) _ (List.getElem_mem hi) rfl,
        h.total _ (List.mem_cons_self ..)⟩
    · exact h2 c hc

theorem Dir.start (ρ : Rep B) (t : Bool) (sizeMax : Nat) : Dir A ρ t [] (fresh B.P B.K B.f (B.table t) sizeMax B.shared) [] where
  reach := fun w => ⟨sizeMax, w, .start⟩
  unread := fresh_unread _ _ _ _ _ _
  ok := by simp
  ex := ⟨[], fresh_pending _ _ _ _ _ _, rfl, by simp, fun _ => rfl⟩

/-- The beginning. -/
theorem masters_start (hA : StationOk (Φ s) (Φ t)) (hB : StationOk (Φ t) (Φ s)) (sizeMax : Bool → Nat)
    (hc : MasterCallsOk (Φ s) (Φ t) (calls s)) (hc' : MasterCallsOk (Φ t) (Φ s) (calls t)) (ρs : Rep (Φ s)) (ρt : Rep (Φ t)) :
    ∃ n, MInv Φ calls w s t ρs ρt (Masters.start Φ sizeMax calls w) n [] := by
  obtain ⟨ts, h1, h2⟩ := master_jobs hB hc
  obtain ⟨ts', h3, h4⟩ := master_jobs hA hc'
  exact ⟨_, [], [], ts, ts', .start _ _ _, .start _ _ _, ⟨h2, h1, rfl, rfl, rfl⟩, ⟨h4, h3, rfl, rfl, rfl⟩, .nil _, by
    intro es' he u
    rw [List.prefix_nil.1 he]
    exact List.prefix_refl _, rfl⟩

end

end Upd
