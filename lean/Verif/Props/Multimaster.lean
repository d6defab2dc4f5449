import Verif.Lemmas.Multimaster

/-!
# Two devices which both initiate requests

C78: in a multimaster architecture, where each device serves the calls of the other one with a buffered dispatcher and replies with `reply` when
`is_loaded()`, every call is served once, and the callback hooked to it is called once on what the function returned, whatever the interleaving of the
calls and of the bytes of both devices. Without the test of `is_loaded()`, the devices reply to the replies for ever.
-/

namespace Upd
open Spec TypeList

variable {σ : Type} {Φ : Bool → Station σ}

theorem masters_runs (hΦ : ∀ s, StationOk (Φ s) (Φ (!s))) {calls : Bool → List (Call σ)} {w : σ} {ρt : Rep (Φ true)} {ρf : Rep (Φ false)}
    {S0 : Masters σ} {N : Nat} (h0 : MInv Φ calls w true false ρt ρf S0 N []) :
    ∀ {n : Nat} {S : Masters σ}, MasterRuns Φ Buf.isLoaded n S0 S → ∃ m es, MInv Φ calls w true false ρt ρf S m es ∧ N = n + m := by
  intro n S h
  induction h with
  | zero => exact ⟨N, [], h0, by omega⟩
  | succ a _ hstep ih =>
    obtain ⟨m, es, h1, h2⟩ := ih h0
    obtain ⟨S', m', es', h3, h4, h5⟩ := masters_step rfl rfl (hΦ true) (hΦ false) h1 hstep
    cases h3
    exact ⟨m', es', h4, by omega⟩

/-- C78. Two devices which fulfil `StationOk` begin with new dispatchers and the calls `calls s` to make. There is a number of steps `N` such that, in any
execution:

* no step fails, and after `n` steps a further one is possible if and only if `n < N`;
* what has happened to the rest of the world is a sequence `es` of local calls of functions and callbacks, such that the calls of the device `s` which
  were served are the first ones which it began, in order; the callbacks called are those of the first of these calls which returned a value, in order,
  each of them once, on this value, and after it was returned;
* after `N` steps, all the calls were served, the callbacks of all those which returned a value were called, and nothing is in transit. -/
theorem C78_multimaster (hΦ : ∀ s, StationOk (Φ s) (Φ (!s))) {calls : Bool → List (Call σ)}
    (hc : ∀ s, MasterCallsOk (Φ s) (Φ (!s)) (calls s)) (sizeMax : Bool → Nat) (w : σ) :
    ∃ N, ∀ n S, MasterRuns Φ Buf.isLoaded n (Masters.start Φ sizeMax calls w) S →
      (∀ a r, Masters.step Φ Buf.isLoaded a S = some r → ∃ S', r = .ret () S') ∧ n ≤ N ∧ (MastersRest Φ Buf.isLoaded S ↔ n = N) ∧
      ∃ es, Happen Φ es w S.bus.rest ∧
        (∀ es', es' <+: es → ∀ s, hookedOf s es' <+: withValue (servedOf s es')) ∧
        (∀ s, ∃ begun, calls s = begun ++ S.todo s ∧ (servedOf s es).map Prod.fst <+: begun) ∧
        (n = N → ∀ s, (servedOf s es).map Prod.fst = calls s ∧ hookedOf s es = withValue (servedOf s es) ∧ S.bus.sent s = [] ∧ S.bus.hooks s = [] ∧
          Pending (S.disp s) [] ∧ Unread (S.disp s) []) := by
  obtain ⟨ρt⟩ := rep_exists (hΦ true)
  obtain ⟨ρf⟩ := rep_exists (hΦ false)
  obtain ⟨N, h0⟩ := masters_start (w := w) (hΦ true) (hΦ false) sizeMax (hc true) (hc false) ρt ρf
  refine ⟨N, fun n S hrun => ?_⟩
  obtain ⟨m, es, h1, h2⟩ := masters_runs hΦ h0 hrun
  refine ⟨?_, by omega, ?_, es, ?_⟩
  · intro a r hst
    obtain ⟨S', _, _, h3, _⟩ := masters_step rfl rfl (hΦ true) (hΦ false) h1 hst
    exact ⟨S', h3⟩
  · rw [masters_rest rfl rfl h1]; omega
  · obtain ⟨M, M', ts, ts', h3, h4, h5, h6, h7, h8, h9⟩ := h1
    refine ⟨h7, h8, ?_, ?_⟩
    · intro s
      cases s with
      | true => exact ⟨_, h5.calls_eq, List.prefix_append _ _⟩
      | false => exact ⟨_, h6.calls_eq, List.prefix_append _ _⟩
    · intro hn
      have z1 : S.bus.sent true = [] := List.length_eq_zero_iff.1 (by omega)
      have z2 : S.bus.sent false = [] := List.length_eq_zero_iff.1 (by omega)
      have z3 : ts = [] := by
        cases ts with
        | nil => rfl
        | cons c ts =>
          have : dues (Φ true) (c :: ts) = 0 := by omega
          simp [dues] at this
      have z4 : ts' = [] := by
        cases ts' with
        | nil => rfl
        | cons c ts =>
          have : dues (Φ false) (c :: ts) = 0 := by omega
          simp [dues] at this
      rw [z1] at h3
      rw [z2] at h4
      have z5 := h3.sent_nil
      have z6 := h4.sent_nil
      subst z3 z4 z5 z6
      have e1 := h5.todo_eq
      have e2 := h6.todo_eq
      obtain ⟨p, q1, q2, _, q3⟩ := h3.ex
      obtain ⟨p', q1', q2', _, q3'⟩ := h4.ex
      cases q3 rfl
      cases q3' rfl
      intro s
      cases s with
      | true =>
        refine ⟨?_, ?_, z1, by rw [h5.hooks_eq]; rfl, q1', h4.unread⟩
        · rw [h5.calls_eq, e1]; simp [asks]
        · rw [← h5.hooked_eq]; simp [answers]
      | false =>
        refine ⟨?_, ?_, z2, by rw [h6.hooks_eq]; rfl, q1, h3.unread⟩
        · rw [h6.calls_eq, e2]; simp [asks]
        · rw [← h6.hooked_eq]; simp [answers]

/-! ## Without the test of `is_loaded()` -/

/-- One packet is in transit, to the device `t`. -/
structure Pong (Φ : Bool → Station σ) (s t : Bool) (S : Masters σ) : Prop where
  todo : ∀ u, S.todo u = []
  hooks : ∀ u, S.bus.hooks u = []
  reach : ∀ u w, Reachable (Φ u).P (Φ u).K (Φ u).f ((Φ u).table u) (Φ u).shared (S.disp u, w)
  unread : ∀ u, Unread (S.disp u) []
  idle : Pending (S.disp s) []
  none : S.bus.sent t = []
  ex : ∃ (r : Req (Φ t).K) (p : List Byte), Pending (S.disp t) p ∧ p ++ S.bus.sent s = r.bytes ∧ p.length < r.bytes.length ∧
    Val.FitsAll (Safe (Φ t).P (Φ t).K.s) r.decl.sig.params r.args ∧ r.decl.sig.ret = .none

theorem table_void {A B : Station σ} (h : StationOk A B) (s : Bool) {r : Req A.K} (hf : Val.FitsAll (Safe A.P A.K.s) r.decl.sig.params r.args)
    (hr : r.decl.sig.ret = none) {w : Bus σ} (hh : ∀ u, w.hooks u = []) :
    ∃ w', A.table s r.decl.name r.args w = .ret none w' ∧ w'.hooks = w.hooks ∧ w'.sent = w.sent := by
  unfold Station.table
  split
  · refine ⟨w, ?_, rfl, rfl⟩
    unfold onReply
    rw [hh s]
  · rename_i hn
    obtain ⟨v, w1, hd⟩ := h.total _ r.mem hn r.args w.rest
    have hv := h.typed _ r.mem hn _ _ _ _ hf hd
    have : v = none := by
      have hv : RetOk A.P A.K.s r.decl.sig.ret v := hv
      rw [hr] at hv
      cases v with
      | none => rfl
      | some _ => exact absurd hv (by simp [RetOk])
    subst this
    exact ⟨{ w with rest := w1 }, zoom_ret (L := Bus.user) hd, rfl, rfl⟩

theorem pong_receive {s t : Bool} (hst : (!s) = t) (hts : (!t) = s) (hA : StationOk (Φ s) (Φ t)) (hB : StationOk (Φ t) (Φ s)) {S : Masters σ}
    (h : Pong Φ s t S) : ∃ S', Masters.step Φ (fun _ => true) (.receive t) S = some (.ret () S') ∧ (Pong Φ s t S' ∨ Pong Φ t s S') := by
  have hne : t ≠ s := by rw [← hst]; cases s <;> simp
  have side : ∀ u, u = s ∨ u = t := by intro u; rw [← hst]; cases u <;> cases s <;> simp
  obtain ⟨r, p, h1, h2, h3, h4, h5⟩ := h.ex
  have hset := station_setting hB t
  cases hsent : S.bus.sent s with
  | nil => rw [hsent, List.append_nil] at h2; rw [h2] at h3; omega
  | cons x sent =>
    have hstep : Masters.step Φ (fun _ => true) (.receive t) S =
      match Buf.put (Φ t).P x (S.disp t, { S.bus with sent := atSide S.bus.sent s sent }) with
      | .fault f => some (.fault f)
      | .threw (b, w) => some (.threw { S with disp := atSide S.disp t b, bus := w })
      | .ret status (b, w) =>
        if status = .resolved ∧ true = true then
          match (Φ s).K.get11 (Φ s).reply with
          | none => some (.fault .illTyped)
          | some kR =>
            match Buf.reply (Φ t).P kR (Φ s).n (Bus.send t) (b, w) with
            | .fault f => some (.fault f)
            | .threw (b, w) => some (.threw { S with disp := atSide S.disp t b, bus := w })
            | .ret _ (b, w) => some (.ret () { S with disp := atSide S.disp t b, bus := w })
        else some (.ret () { S with disp := atSide S.disp t b, bus := w }) := by
      simp only [Masters.step, hts, hsent]
      rfl
    rw [hstep]
    rw [hsent] at h2
    have hl : request (Φ t).K.e (Φ t).K.s (Φ t).K.idxBytes r.i ((Φ t).K.decls[r.i]'r.hi).sig.params r.args = p ++ x :: sent := h2.symm
    by_cases hlast : sent = []
    · subst hlast
      obtain ⟨w', hd, e1, e2⟩ := table_void hB t h4 h5 (w := { S.bus with sent := atSide S.bus.sent s [] }) h.hooks
      have h6 := C39_resolved hset (h.reach t { S.bus with sent := atSide S.bus.sent s [] }) r.hi h4 (hB.room _ r.mem) hl h1
      rw [show (Φ t).table t ((Φ t).K.decls[r.i]'r.hi).name r.args _ = _ from hd] at h6
      obtain ⟨b', h7, h8, h9, h10⟩ := h6
      have h10 : Unread b' (response (Φ t).K.e (Φ t).K.s r.decl.sig.ret none) := h10
      rw [h5] at h10
      have h10 : Unread b' [] := h10
      obtain ⟨ρ⟩ := rep_exists hA
      have hkR : ReplyKey (Φ t).P ⟨(Φ s).K.e, (Φ s).K.s, (Φ s).K.idxBytes, ρ.j, ((Φ s).K.decls[ρ.j]'ρ.hj).sig⟩ (Φ s).n :=
        ⟨hA.peer, (idxBytes_pos hA.ring.1).1, Nat.lt_trans ρ.hj (idxBytes_pos hA.ring.1).2, by rw [ρ.sig hA], hA.replyPos⟩
      obtain ⟨junk, h11, h12⟩ := C49_reply hB.valid hkR h10 h9 (Nat.zero_le _)
      obtain ⟨b2, h13, h14, h15⟩ := h12 (Bus.send t) w' _ (accepts_send t _ _)
      have hr1 := reachable_op (h.reach t { S.bus with sent := atSide S.bus.sent s [] }) (.put x) trivial (Eff.bind_ret h7)
      have hr2 := reachable_op hr1 (.reply _ _ (Bus.send t)) hkR (Eff.bind_ret h13)
      have hj : junk.length = (Φ s).n := by rw [h11]; rfl
      rw [h7]
      simp only [and_self, if_true, ρ.get, h13]
      refine ⟨_, rfl, Or.inr ⟨h.todo, ?_, ?_, ?_, ?_, ?_, ?_⟩⟩
      · intro u
        show w'.hooks u = []
        rw [e1]; exact h.hooks u
      · intro u w
        rcases side u with rfl | rfl
        · simp only [atSide_other _ hne.symm]; exact h.reach _ w
        · simp only [atSide_same]; exact reachable_world hr2 w
      · intro u
        rcases side u with rfl | rfl
        · simp only [atSide_other _ hne.symm]; exact h.unread _
        · simp only [atSide_same]; exact h14
      · simp only [atSide_same]; exact h15 [] h8
      · simp only [atSide_other _ hne.symm, e2, atSide_same]
      · refine ⟨ρ.req junk, [], ?_, ?_, Req.bytes_pos hA.ring _, ρ.fits hA _ hj, ?_⟩
        · simp only [atSide_other _ hne.symm]; exact h.idle
        · simp only [e2, atSide_same, atSide_other _ hne, h.none, List.nil_append]
          rfl
        · show ((Φ s).K.decls[ρ.j]'ρ.hj).sig.ret = _
          rw [ρ.sig hA]
    · obtain ⟨b', h6, h7, h8⟩ := C39_loading hset (h.reach t { S.bus with sent := atSide S.bus.sent s sent }) r.hi h4 hl hlast h1
      have hr1 := reachable_op (h.reach t { S.bus with sent := atSide S.bus.sent s sent }) (.put x) trivial (Eff.bind_ret h6)
      rw [h6]
      simp only [reduceCtorEq, false_and, if_false]
      refine ⟨_, rfl, Or.inl ⟨h.todo, h.hooks, ?_, ?_, ?_, ?_, ?_⟩⟩
      · intro u w
        rcases side u with rfl | rfl
        · simp only [atSide_other _ hne.symm]; exact h.reach _ w
        · simp only [atSide_same]; exact reachable_world hr1 w
      · intro u
        rcases side u with rfl | rfl
        · simp only [atSide_other _ hne.symm]; exact h.unread _
        · simp only [atSide_same]; exact h8 [] (h.unread _) fun _ => rfl
      · simp only [atSide_other _ hne.symm]; exact h.idle
      · simp only [atSide_other _ hne]; exact h.none
      · refine ⟨r, p ++ [x], ?_, ?_, ?_, h4, h5⟩
        · simp only [atSide_same]; exact h7
        · simp only [atSide_same]; rw [← h2]; simp
        · have : 0 < sent.length := List.length_pos_iff.2 hlast
          rw [← h2]
          simp
          omega

theorem pong_step {s t : Bool} (hst : (!s) = t) (hts : (!t) = s) (hA : StationOk (Φ s) (Φ t)) (hB : StationOk (Φ t) (Φ s)) {S S' : Masters σ}
    (h : Pong Φ s t S) {a : MasterStep} (ha : Masters.step Φ (fun _ => true) a S = some (.ret () S')) : Pong Φ s t S' ∨ Pong Φ t s S' := by
  have side : ∀ u, u = s ∨ u = t := by intro u; rw [← hst]; cases u <;> cases s <;> simp
  cases a with
  | call u =>
    simp only [Masters.step, h.todo u] at ha
    cases ha
  | receive u =>
    rcases side u with rfl | rfl
    · simp only [Masters.step, hst, h.none] at ha
      cases ha
    · obtain ⟨S'', h1, h2⟩ := pong_receive hst hts hA hB h
      rw [h1] at ha
      cases ha
      exact h2

theorem pong_start {s t : Bool} (hst : (!s) = t) (hts : (!t) = s) (hA : StationOk (Φ s) (Φ t)) (hB : StationOk (Φ t) (Φ s))
    {calls : Bool → List (Call σ)} {c : Call σ} (hs : calls s = [c]) (ht : calls t = []) (hc : MasterCallsOk (Φ s) (Φ t) [c])
    (hv : ∀ d ∈ (Φ t).K.decls, d.name = c.1 → d.sig.ret = none) (sizeMax : Bool → Nat) (w : σ) :
    (∃ a S', Masters.step Φ (fun _ => true) a (Masters.start Φ sizeMax calls w) = some (.ret () S')) ∧
    ∀ a S', Masters.step Φ (fun _ => true) a (Masters.start Φ sizeMax calls w) = some (.ret () S') → Pong Φ s t S' := by
  have hne : t ≠ s := by rw [← hst]; cases s <;> simp
  have side : ∀ u, u = s ∨ u = t := by intro u; rw [← hst]; cases u <;> cases s <;> simp
  obtain ⟨ts, h1, h2⟩ := master_jobs hB hc
  cases ts with
  | nil => cases h1
  | cons j ts =>
    cases ts with
    | cons _ _ => cases h1
    | nil =>
      have h1 : c = j.call := by simpa using h1
      have hj := h2 j (by simp)
      have hret : j.req.decl.sig.ret = none := hv _ j.req.mem (by rw [h1]; rfl)
      have hw := C29_request_format hA.valid (k := j.req.key) hB.peer (idxBytes_pos hB.ring.1).1
        (Nat.lt_trans j.req.hi (idxBytes_pos hB.ring.1).2) (hB.ring.2 _ j.req.mem) hj.ok.fitsP (Bus.send (σ := σ) s)
      have hw : j.req.key.writeTo (Φ s).P j.req.args (Bus.send s) (Masters.start Φ sizeMax calls w).bus =
          .ret () { (Masters.start Φ sizeMax calls w).bus with sent := atSide (fun _ => []) s j.req.bytes } := by
        rw [hw]; exact putAll_accepts (accepts_send s _ _)
      have hks : j.req.key.sig.ret = none := hret
      have hstep : Masters.step Φ (fun _ => true) (.call s) (Masters.start Φ sizeMax calls w) =
          some (.ret () { Masters.start Φ sizeMax calls w with
            todo := atSide calls s [],
            bus := { (Masters.start Φ sizeMax calls w).bus with sent := atSide (fun _ => []) s j.req.bytes } }) := by
        have e : (Masters.start Φ sizeMax calls w).todo s = [c] := hs
        unfold Masters.step
        simp only [e, h1, Job.call, hst, hj.ok.get, hw, hks]
        rfl
      have hP : Pong Φ s t { Masters.start Φ sizeMax calls w with
            todo := atSide calls s [],
            bus := { (Masters.start Φ sizeMax calls w).bus with sent := atSide (fun _ => []) s j.req.bytes } } := by
        refine ⟨?_, fun _ => rfl, fun u w' => ⟨sizeMax u, w', .start⟩, fun u => fresh_unread _ _ _ _ _ _, fresh_pending _ _ _ _ _ _, ?_, ?_⟩
        · intro u
          rcases side u with rfl | rfl
          · exact atSide_same ..
          · simp only [atSide_other _ hne]; exact ht
        · exact atSide_other (fun _ => ([] : List Byte)) hne _
        · exact ⟨j.req, [], fresh_pending _ _ _ _ _ _, atSide_same (fun _ => ([] : List Byte)) s _, Req.bytes_pos hB.ring _, hj.ok.fitsQ, hret⟩
      refine ⟨⟨.call s, _, hstep⟩, ?_⟩
      intro a S' ha
      cases a with
      | call u =>
        rcases side u with rfl | rfl
        · rw [hstep] at ha
          cases ha
          exact hP
        · have e : (Masters.start Φ sizeMax calls w).todo u = [] := ht
          simp only [Masters.step, e] at ha
          cases ha
      | receive u => cases ha

/-- C78, why the test of `is_loaded()` matters: if the devices call `reply` after each packet which they resolve, then a single call of a function which
returns nothing keeps them busy for ever, because `reply` sends a packet even when there is no response, and the function which receives it returns
nothing either. -/
theorem C78_reply_for_ever (hΦ : ∀ s, StationOk (Φ s) (Φ (!s))) {calls : Bool → List (Call σ)} {s : Bool} {c : Call σ} (hs : calls s = [c])
    (ht : calls (!s) = []) (hc : MasterCallsOk (Φ s) (Φ (!s)) [c]) (hv : ∀ d ∈ (Φ (!s)).K.decls, d.name = c.1 → d.sig.ret = none)
    (sizeMax : Bool → Nat) (w : σ) {n : Nat} {S : Masters σ} (hrun : MasterRuns Φ (fun _ => true) n (Masters.start Φ sizeMax calls w) S) :
    ∃ a S', Masters.step Φ (fun _ => true) a S = some (.ret () S') := by
  have hA := hΦ s
  have hB := hΦ (!s)
  rw [Bool.not_not] at hB
  have hp := pong_start rfl (Bool.not_not s) hA hB hs ht hc hv sizeMax w
  have key : S = Masters.start Φ sizeMax calls w ∨ Pong Φ s (!s) S ∨ Pong Φ (!s) s S := by
    generalize hS0 : Masters.start Φ sizeMax calls w = S0 at hrun
    induction hrun with
    | zero => exact Or.inl rfl
    | succ a _ hstep ih =>
      subst hS0
      rcases ih rfl with h | h | h
      · rw [h] at hstep; exact Or.inr (Or.inl (hp.2 _ _ hstep))
      · exact Or.inr (pong_step rfl (Bool.not_not s) hA hB h hstep)
      · exact Or.inr ((pong_step (Bool.not_not s) rfl hB hA h hstep).symm)
  rcases key with rfl | h | h
  · exact hp.1
  · obtain ⟨S', h1, _⟩ := pong_receive rfl (Bool.not_not s) hA hB h
    exact ⟨_, S', h1⟩
  · obtain ⟨S', h1, _⟩ := pong_receive (Bool.not_not s) rfl hB hA h
    exact ⟨_, S', h1⟩

/-! ## Non-vacuity: a computer and a microcontroller -/

/-- The functions of the computer: `1` doubles its argument, `9` receives replies. -/
def deskRing : Keyring := ⟨.little, .twosComplement, [⟨1, [.uint 2], some (.uint 2)⟩, ⟨9, [.arr (.uint 1) 4], none⟩]⟩

/-- The functions of the microcontroller: `2` sets a light, `3` reads a sensor, `9` receives replies. -/
def boardRing : Keyring := ⟨.big, .signMagnitude, [⟨9, [.arr (.uint 1) 2], none⟩, ⟨2, [.uint 1], none⟩, ⟨3, [], some (.sint 2)⟩]⟩

/-- Everything is logged. -/
def deskDefs : Nat → List Val → Eff (List (List Val)) (Option Val) := fun name args w =>
  match name, args with
  | 1, [.int x] => .ret (some (.int (2 * x % 65536))) (w ++ [[.int 1, .int x]])
  | _, _ => .ret (some (.int 0)) w

def boardDefs : Nat → List Val → Eff (List (List Val)) (Option Val) := fun name args w =>
  match name, args with
  | 2, [.int x] => .ret none (w ++ [[.int 2, .int x]])
  | 3, [] => .ret (some (.int (-5))) (w ++ [[.int 3]])
  | _, _ => .ret none w

def deskAndBoard : Bool → Station (List (List Val))
  | true => ⟨pc, deskRing, .any, true, deskDefs, 9, 4⟩
  | false => ⟨avr, boardRing, .weakReference, false, boardDefs, 9, 2⟩

theorem desk_typed (P : Platform) : ∀ d ∈ deskRing.decls, d.name ≠ 9 → WellTyped P deskRing.s ⟨d.sig, deskDefs d.name⟩ := by
  intro d hd hn args w r w' hf h
  simp only [deskRing, List.mem_cons, List.not_mem_nil, or_false] at hd
  rcases hd with rfl | rfl
  · have h : deskDefs 1 args w = .ret r w' := h
    unfold deskDefs at h
    split at h
    · injection h with h _
      subst h
      simp only [RetOk, Val.Fits]
      omega
    · injection h with h _
      subst h
      simp [RetOk, Val.Fits]
  · exact absurd rfl hn

theorem board_typed (P : Platform) :
    ∀ d ∈ boardRing.decls, d.name ≠ 9 → WellTyped P boardRing.s ⟨d.sig, boardDefs d.name⟩ := by
  intro d hd hn args w r w' hf h
  simp only [boardRing, List.mem_cons, List.not_mem_nil, or_false] at hd
  rcases hd with rfl | rfl | rfl
  · exact absurd rfl hn
  · have h : boardDefs 2 args w = .ret r w' := h
    unfold boardDefs at h
    split at h
    · injection h with h _; subst h; trivial
    · rename_i h1 _; cases h1
    · injection h with h _; subst h; trivial
  · have h : boardDefs 3 args w = .ret r w' := h
    cases args with
    | cons v vs => exact absurd hf (by simp [Val.FitsAll])
    | nil =>
      injection h with h _
      subst h
      show Safe P .signMagnitude 2 (-5)
      exact ⟨by simp [Representable], Or.inr (by decide)⟩

theorem desk_ok : StationOk (deskAndBoard true) (deskAndBoard false) where
  valid := pc_valid
  ring := ⟨by decide, by simp [deskAndBoard, deskRing, SigOk, Ty.WFs, Ty.WF, PackedAll, Packed, Ty.sizeof, wireSize]⟩
  sup := pc_supported _ _
  peer := avr_supported _ _
  sizes := by simp [deskAndBoard, deskRing, Ty.sizeof, wireSize]
  room := by unfold ResponsesFit; decide +kernel
  total := by
    intro d hd hn args w
    simp only [deskAndBoard, deskRing, List.mem_cons, List.not_mem_nil, or_false] at hd
    rcases hd with rfl | rfl
    · show ∃ r w', deskDefs 1 args w = .ret r w'
      unfold deskDefs
      split <;> exact ⟨_, _, rfl⟩
    · exact absurd rfl hn
  typed := desk_typed _
  typedPeer := desk_typed _
  bytes := by simp [deskAndBoard, deskRing, wireSize]
  reply := ⟨_, List.mem_cons_of_mem _ (List.mem_cons_self ..), rfl⟩
  replySig := by simp [deskAndBoard, deskRing]
  replyPos := by decide
  replyRoom := by decide +kernel

theorem board_ok : StationOk (deskAndBoard false) (deskAndBoard true) where
  valid := avr_valid
  ring := ⟨by decide, by simp [deskAndBoard, boardRing, SigOk, Ty.WFs, Ty.WF, PackedAll, Packed, Ty.sizeof, wireSize]⟩
  sup := avr_supported _ _
  peer := pc_supported _ _
  sizes := by simp [deskAndBoard, boardRing, Ty.sizeof, wireSize]
  room := by unfold ResponsesFit; decide +kernel
  total := by
    intro d hd hn args w
    simp only [deskAndBoard, boardRing, List.mem_cons, List.not_mem_nil, or_false] at hd
    rcases hd with rfl | rfl | rfl
    · exact absurd rfl hn
    · show ∃ r w', boardDefs 2 args w = .ret r w'
      unfold boardDefs
      split <;> exact ⟨_, _, rfl⟩
    · show ∃ r w', boardDefs 3 args w = .ret r w'
      unfold boardDefs
      split <;> exact ⟨_, _, rfl⟩
  typed := board_typed _
  typedPeer := board_typed _
  bytes := by simp [deskAndBoard, boardRing, wireSize]
  reply := ⟨_, List.mem_cons_self .., rfl⟩
  replySig := by simp [deskAndBoard, boardRing]
  replyPos := by decide
  replyRoom := by decide +kernel

theorem desk_board_ok : ∀ s, StationOk (deskAndBoard s) (deskAndBoard (!s))
  | true => desk_ok
  | false => board_ok

/-- Callbacks which log what they are called on. -/
def sensorHook : Callback (List (List Val)) := ⟨⟨[.sint 2], none⟩, fun args w => .ret none (w ++ [.int 30 :: args])⟩

def doubleHook : Callback (List (List Val)) := ⟨⟨[.uint 2], none⟩, fun args w => .ret none (w ++ [.int 10 :: args])⟩

/-- The computer sets the light and reads the sensor twice; at the same time, the microcontroller doubles two numbers. -/
def deskAndBoardCalls : Bool → List (Call (List (List Val)))
  | true => [(2, [.int 1], sensorHook), (3, [], sensorHook), (3, [], sensorHook)]
  | false => [(1, [.int 40], doubleHook), (1, [.int 700], doubleHook)]

theorem sensor_hookable : Hookable pc .signMagnitude (some (.sint 2)) sensorHook where
  params := rfl
  sig := by simp [sensorHook, SigOk, Ty.WFs, Ty.WF, PackedAll, Packed]
  typed := by
    intro args w r w' _ h
    injection h with h _
    subst h
    trivial

theorem double_hookable : Hookable avr .twosComplement (some (.uint 2)) doubleHook where
  params := rfl
  sig := by simp [doubleHook, SigOk, Ty.WFs, Ty.WF, PackedAll, Packed]
  typed := by
    intro args w r w' _ h
    injection h with h _
    subst h
    trivial

theorem desk_board_calls : ∀ s, MasterCallsOk (deskAndBoard s) (deskAndBoard (!s)) (deskAndBoardCalls s)
  | true =>
    { fit := by simp [CallsOk, withoutHooks, deskAndBoardCalls, deskAndBoard, boardRing, Val.FitsAll, Val.Fits]
      notReply := by simp [deskAndBoardCalls, deskAndBoard]
      hooks := by
        intro c hc d hd hn hr
        simp only [deskAndBoardCalls, List.mem_cons, List.not_mem_nil, or_false] at hc
        simp only [deskAndBoard, boardRing, Bool.not_true, List.mem_cons, List.not_mem_nil, or_false] at hd
        rcases hd with rfl | rfl | rfl
        · cases hr
        · cases hr
        · rcases hc with rfl | rfl | rfl
          · cases hn
          · exact sensor_hookable
          · exact sensor_hookable
      total := by
        intro c hc args w
        simp only [deskAndBoardCalls, List.mem_cons, List.not_mem_nil, or_false] at hc
        rcases hc with rfl | rfl | rfl <;> exact ⟨_, _, rfl⟩ }
  | false =>
    { fit := by simp [CallsOk, withoutHooks, deskAndBoardCalls, deskAndBoard, deskRing, Val.FitsAll, Val.Fits]
      notReply := by simp [deskAndBoardCalls, deskAndBoard]
      hooks := by
        intro c hc d hd hn hr
        simp only [deskAndBoardCalls, List.mem_cons, List.not_mem_nil, or_false] at hc
        simp only [deskAndBoard, deskRing, Bool.not_false, List.mem_cons, List.not_mem_nil, or_false] at hd
        rcases hd with rfl | rfl
        · rcases hc with rfl | rfl <;> exact double_hookable
        · cases hr
      total := by
        intro c hc args w
        simp only [deskAndBoardCalls, List.mem_cons, List.not_mem_nil, or_false] at hc
        rcases hc with rfl | rfl <;> exact ⟨_, _, rfl⟩ }

example : ∃ N, ∀ n S, MasterRuns deskAndBoard Buf.isLoaded n (Masters.start deskAndBoard (fun _ => 255) deskAndBoardCalls []) S →
    (MastersRest deskAndBoard Buf.isLoaded S ↔ n = N) ∧ ∃ es, Happen deskAndBoard es [] S.bus.rest ∧
      (n = N → (servedOf true es).map Prod.fst = deskAndBoardCalls true ∧ hookedOf false es = withValue (servedOf false es)) := by
  obtain ⟨N, h⟩ := C78_multimaster desk_board_ok desk_board_calls (fun _ => 255) []
  refine ⟨N, fun n S hrun => ?_⟩
  obtain ⟨_, _, h1, es, h2, _, _, h3⟩ := h n S hrun
  exact ⟨h1, es, h2, fun hn => ⟨(h3 hn true).1, (h3 hn false).2.1⟩⟩

example {n : Nat} {S : Masters (List (List Val))}
    (h : MasterRuns deskAndBoard (fun _ => true) n
      (Masters.start deskAndBoard (fun _ => 255) (fun s => if s then [(2, [.int 1], sensorHook)] else []) []) S) :
    ∃ a S', Masters.step deskAndBoard (fun _ => true) a S = some (.ret () S') := by
  refine C78_reply_for_ever (s := true) (c := (2, [.int 1], sensorHook)) desk_board_ok rfl rfl ?_ ?_ _ _ h
  · have := desk_board_calls true
    refine ⟨fun c hc => this.fit c ?_, fun c hc => this.notReply c ?_, fun c hc => this.hooks c ?_, fun c hc => this.total c ?_⟩ <;>
      simp_all [withoutHooks, deskAndBoardCalls]
  · simp [deskAndBoard, boardRing]

end Upd
