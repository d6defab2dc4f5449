import Verif.Lemmas.Session
import Verif.Lemmas.Deferred
import Verif.Props.Python
import Verif.Spec.Async

/-! Helper lemmas: coroutines which call a device at the same time. -/

namespace Upd
open Spec TypeList

variable {σ τ α : Type} {P Q : Platform} {K : Keyring} {defs : Nat → List Val → Eff σ (Option Val)}

/-- The responses on their way are those of the results, and the coroutines they are for wait for them or were cancelled. -/
inductive Held (P : Platform) (K : Keyring) (coros : List (Coro σ α)) : List (Nat × Option Val) → List (List Byte) → Prop
  | nil : Held P K coros [] []
  | cons {c j : Nat} {d : Decl} {r : Option Val} {rs : List (Nat × Option Val)} {ms : List (List Byte)} :
      ((∃ k, coros[c]? = some (.awaiting ⟨K.e, K.s, K.idxBytes, j, d.sig⟩ k)) ∨ coros[c]? = some .cancelled) → K.decls[j]? = some d → RetOk P K.s d.sig.ret r → Held P K coros rs ms →
      Held P K coros ((c, r) :: rs) (response K.e K.s d.sig.ret r :: ms)

/-- The bytes on their way are the requests of the calls, and the coroutines which made them wait for the results or were cancelled. -/
inductive Asked (P Q : Platform) (K : Keyring) (coros : List (Coro σ α)) : List (Nat × Nat × List Val) → List Byte → Prop
  | nil : Asked P Q K coros [] []
  | cons {c i : Nat} {args : List Val} {d : Decl} {cs : List (Nat × Nat × List Val)} {bs : List Byte} :
      ((∃ k, coros[c]? = some (.awaiting ⟨K.e, K.s, K.idxBytes, i, d.sig⟩ k)) ∨ coros[c]? = some .cancelled) → K.decls[i]? = some d → Val.FitsAll (Safe P K.s) d.sig.params args →
      Val.FitsAll (Safe Q K.s) d.sig.params args → Asked P Q K coros cs bs →
      Asked P Q K coros ((c, i, args) :: cs) (request K.e K.s K.idxBytes i d.sig.params args ++ bs)

theorem set_other {β : Type} {l : List β} {c c' : Nat} {x : β} (h : c ≠ c') : (l.set c x)[c']? = l[c']? := List.getElem?_set_ne h

theorem Held.set {coros : List (Coro σ α)} {rs : List (Nat × Option Val)} {ms : List (List Byte)} (h : Held P K coros rs ms) {c : Nat} (x : Coro σ α)
    (hc : c ∉ rs.map (·.1)) : Held P K (coros.set c x) rs ms := by
  induction h with
  | nil => exact .nil
  | cons h1 h2 h3 _ ih =>
    simp only [List.map_cons, List.mem_cons, not_or] at hc
    exact .cons (by rw [set_other hc.1]; exact h1) h2 h3 (ih hc.2)

theorem Asked.set {coros : List (Coro σ α)} {cs : List (Nat × Nat × List Val)} {bs : List Byte} (h : Asked P Q K coros cs bs) {c : Nat} (x : Coro σ α)
    (hc : c ∉ cs.map (·.1)) : Asked P Q K (coros.set c x) cs bs := by
  induction h with
  | nil => exact .nil
  | cons h1 h2 h3 h4 _ ih =>
    simp only [List.map_cons, List.mem_cons, not_or] at hc
    exact .cons (by rw [set_other hc.1]; exact h1) h2 h3 h4 (ih hc.2)

theorem waits_cancel {coros : List (Coro σ α)} {c : Nat} {key : Key} (h : (∃ k, coros[c]? = some (.awaiting key k)) ∨ coros[c]? = some .cancelled) (c' : Nat) :
    (∃ k, (coros.set c' .cancelled)[c]? = some (.awaiting key k)) ∨ (coros.set c' .cancelled)[c]? = some .cancelled := by
  by_cases hc : c' = c
  · subst hc
    have hlt : c' < coros.length := by
      rcases h with ⟨k, h⟩ | h
      · exact (List.getElem?_eq_some_iff.mp h).1
      · exact (List.getElem?_eq_some_iff.mp h).1
    exact .inr (List.getElem?_set_self hlt)
  · rw [set_other hc]
    exact h

theorem Held.cancel {coros : List (Coro σ α)} {rs : List (Nat × Option Val)} {ms : List (List Byte)} (h : Held P K coros rs ms) (c : Nat) :
    Held P K (coros.set c .cancelled) rs ms := by
  induction h with
  | nil => exact .nil
  | cons h1 h2 h3 _ ih => exact .cons (waits_cancel h1 c) h2 h3 ih

theorem Asked.cancel {coros : List (Coro σ α)} {cs : List (Nat × Nat × List Val)} {bs : List Byte} (h : Asked P Q K coros cs bs) (c : Nat) :
    Asked P Q K (coros.set c .cancelled) cs bs := by
  induction h with
  | nil => exact .nil
  | cons h1 h2 h3 h4 _ ih => exact .cons (waits_cancel h1 c) h2 h3 h4 ih

theorem Held.awaits {coros : List (Coro σ α)} {rs : List (Nat × Option Val)} {ms : List (List Byte)} (h : Held P K coros rs ms) {c : Nat}
    (hc : c ∈ rs.map (·.1)) : (∃ key k, coros[c]? = some (.awaiting key k)) ∨ coros[c]? = some .cancelled := by
  induction h with
  | nil => cases hc
  | cons h1 _ _ _ ih =>
    simp only [List.map_cons, List.mem_cons] at hc
    rcases hc with rfl | hc
    · exact h1.imp (fun ⟨k, h⟩ => ⟨_, k, h⟩) id
    · exact ih hc

theorem Asked.awaits {coros : List (Coro σ α)} {cs : List (Nat × Nat × List Val)} {bs : List Byte} (h : Asked P Q K coros cs bs) {c : Nat}
    (hc : c ∈ cs.map (·.1)) : (∃ key k, coros[c]? = some (.awaiting key k)) ∨ coros[c]? = some .cancelled := by
  induction h with
  | nil => cases hc
  | cons h1 _ _ _ _ ih =>
    simp only [List.map_cons, List.mem_cons] at hc
    rcases hc with rfl | hc
    · exact h1.imp (fun ⟨k, h⟩ => ⟨_, k, h⟩) id
    · exact ih hc

theorem Held.snoc {coros : List (Coro σ α)} {rs : List (Nat × Option Val)} {ms : List (List Byte)} (h : Held P K coros rs ms) {c j : Nat} {d : Decl}
    {r : Option Val} (h1 : (∃ k, coros[c]? = some (.awaiting ⟨K.e, K.s, K.idxBytes, j, d.sig⟩ k)) ∨ coros[c]? = some .cancelled) (h2 : K.decls[j]? = some d)
    (h3 : RetOk P K.s d.sig.ret r) : Held P K coros (rs ++ [(c, r)]) (ms ++ [response K.e K.s d.sig.ret r]) := by
  induction h with
  | nil => exact .cons h1 h2 h3 .nil
  | cons g1 g2 g3 _ ih => exact .cons g1 g2 g3 ih

theorem Asked.snoc {coros : List (Coro σ α)} {cs : List (Nat × Nat × List Val)} {bs : List Byte} (h : Asked P Q K coros cs bs) {c i : Nat} {args : List Val} {d : Decl}
    (h1 : (∃ k, coros[c]? = some (.awaiting ⟨K.e, K.s, K.idxBytes, i, d.sig⟩ k)) ∨ coros[c]? = some .cancelled) (h2 : K.decls[i]? = some d)
    (h3 : Val.FitsAll (Safe P K.s) d.sig.params args) (h4 : Val.FitsAll (Safe Q K.s) d.sig.params args) :
    Asked P Q K coros (cs ++ [(c, i, args)]) (bs ++ request K.e K.s K.idxBytes i d.sig.params args) := by
  induction h with
  | nil =>
    have := Asked.cons (P := P) (Q := Q) h1 h2 h3 h4 .nil
    rwa [List.append_nil] at this
  | cons g1 g2 g3 g4 _ ih =>
    have := Asked.cons g1 g2 g3 g4 ih
    rwa [← List.append_assoc] at this

/-- A coroutine which is correct with respect to types. -/
def CoroFits (P Q : Platform) (K : Keyring) : Coro σ α → Prop
  | .ready p => TalkFits P Q K p
  | .awaiting _ k => ∀ r, TalkFits P Q K (k r)
  | .finished _ => True
  | .cancelled => True

/-- The event loop is where the callers are. -/
structure InStep (P Q : Platform) (K : Keyring) (L : Lens τ (Link σ)) (Inv : τ → Prop) (o : Office σ α) (s : EventLoop σ α τ) : Prop where
  coros : s.coros.map Coro.caller = o.callers
  fits : ∀ x ∈ s.coros, CoroFits P Q K x
  futures : s.futures = o.results.map (·.1) ++ o.calls.map (·.1)
  nodup : s.futures.Nodup
  held : Held P K s.coros o.results s.inbox
  asked : ∃ bs, Asked P Q K s.coros o.calls bs ∧ L.get s.rest = ⟨bs, [], o.world⟩
  inv : Inv s.rest

theorem mem_set_of {β : Type} {p : β → Prop} {l : List β} {c : Nat} {x : β} (h : ∀ y ∈ l, p y) (hx : p x) : ∀ y ∈ l.set c x, p y := by
  intro y hy
  rcases List.mem_or_eq_of_mem_set hy with h1 | rfl
  · exact h y h1
  · exact hx

theorem InStep.idle {L : Lens τ (Link σ)} {Inv : τ → Prop} {o : Office σ α} {s : EventLoop σ α τ} (h : InStep P Q K L Inv o s) {c : Nat}
    (hc : ∀ key k, s.coros[c]? ≠ some (.awaiting key k)) (hc' : s.coros[c]? ≠ some .cancelled) : c ∉ o.results.map (·.1) ∧ c ∉ o.calls.map (·.1) := by
  constructor
  · intro hm
    rcases h.held.awaits hm with ⟨key, k, h1⟩ | h1
    · exact hc key k h1
    · exact hc' h1
  · intro hm
    obtain ⟨bs, ha, _⟩ := h.asked
    rcases ha.awaits hm with ⟨key, k, h1⟩ | h1
    · exact hc key k h1
    · exact hc' h1

theorem callers_get {L : Lens τ (Link σ)} {Inv : τ → Prop} {o : Office σ α} {s : EventLoop σ α τ} (h : InStep P Q K L Inv o s) (c : Nat) :
    o.callers[c]? = s.coros[c]?.map Coro.caller := by
  rw [← h.coros, List.getElem?_map]

/-- One event. -/
theorem loop_next {L : Lens τ (Link σ)} {serve : Eff τ Unit} {Inv : τ → Prop} (hP : P.Valid) (hK : KeyringOk K) (hs : Supported P K.e K.s)
    (hsz : ∀ d ∈ K.decls, ∀ t ∈ d.sig.params, t.sizeof = wireSize t) (ht : ∀ d ∈ K.decls, WellTyped P K.s ⟨d.sig, defs d.name⟩)
    (hS : Server Q K defs L serve Inv) {o : Office σ α} {s : EventLoop σ α τ} (h : InStep P Q K L Inv o s) (e : Happening) :
    match Office.next K defs e o with
    | .ret _ o' => ∃ s', EventLoop.next P K L serve e s = .ret () s' ∧
        InStep P Q K L Inv o' s'
    | .threw o' => ∃ s', EventLoop.next P K L serve e s = .threw s' ∧
        (L.get s'.rest).world = o'.world
    | .fault f => EventLoop.next P K L serve e s = .fault f := by
  obtain ⟨bs, hask, hlink⟩ := h.asked
  cases e with
  | step c =>
    have hg := callers_get h c
    simp only [Office.next]
    cases hc : s.coros[c]? with
    | none =>
      rw [hc] at hg
      rw [hg]
      exact ⟨s, by simp only [EventLoop.next, EventLoop.step, hc], h⟩
    | some x =>
      rw [hc] at hg
      have hfit := h.fits x (List.mem_of_getElem? hc)
      cases x with
      | awaiting key k => rw [hg]; exact ⟨s, by simp only [EventLoop.next, EventLoop.step, hc], h⟩
      | finished a => rw [hg]; exact ⟨s, by simp only [EventLoop.next, EventLoop.step, hc], h⟩
      | cancelled => rw [hg]; exact ⟨s, by simp only [EventLoop.next, EventLoop.step, hc], h⟩
      | ready p =>
        obtain ⟨hr, hq⟩ := h.idle (c := c) (by intro key k h'; rw [hc] at h'; cases h') (by intro h'; rw [hc] at h'; cases h')
        cases p with
        | done a =>
          rw [hg]
          refine ⟨_, by simp only [EventLoop.next, EventLoop.step, hc]; rfl, ?_⟩
          exact ⟨by rw [← h.coros]; exact List.map_set, mem_set_of h.fits trivial, h.futures, h.nodup, h.held.set _ hr, ⟨bs, hask.set _ hq, hlink⟩, h.inv⟩
        | look k =>
          rw [hg]
          refine ⟨_, by simp only [EventLoop.next, EventLoop.step, hc]; rfl, ?_⟩
          exact ⟨by rw [← h.coros, hlink]; exact List.map_set, mem_set_of h.fits (hfit _), h.futures, h.nodup, h.held.set _ hr, ⟨bs, hask.set _ hq, hlink⟩, h.inv⟩
        | act x k =>
          rw [hg]
          simp only [Option.map_some, Coro.caller]
          have hw : (L.get (EventLoop.restL.get s)).world = o.world := by
            show (L.get s.rest).world = _
            rw [hlink]
          cases hx : x o.world with
          | fault f =>
            simp only [EventLoop.next, EventLoop.step, hc]
            exact Eff.bind_fault (zoom_fault (zoom_fault (zoom_fault (x := x) (by rw [← hx, ← hw]; rfl))))
          | threw w =>
            simp only [EventLoop.next, EventLoop.step, hc]
            refine ⟨_, Eff.bind_threw (zoom_threw (zoom_threw (zoom_threw (x := x) (v := w) (by rw [← hx, ← hw]; rfl)))), ?_⟩
            show (L.get (L.put _ _)).world = w
            rw [hS.get_put]
            rfl
          | ret a w =>
            simp only [EventLoop.next, EventLoop.step, hc]
            refine ⟨_, (Eff.bind_ret (zoom_ret (zoom_ret (zoom_ret (x := x) (v := w) (a := a) (by rw [← hx, ← hw]; rfl))))).trans rfl, ?_⟩
            refine ⟨by rw [← h.coros]; exact List.map_set, mem_set_of h.fits hfit, h.futures, h.nodup, h.held.set _ hr, ⟨bs, hask.set _ hq, ?_⟩, hS.inv_put _ _ h.inv⟩
            show L.get (L.put (Link.rest.put w (L.get s.rest)) s.rest) = _
            rw [hS.get_put, hlink]
            rfl
        | call i args k =>
          rw [hg]
          simp only [Option.map_some, Coro.caller]
          obtain ⟨⟨d, hd, hfP, hfQ⟩, hk⟩ := hfit
          obtain ⟨hi, rfl⟩ := List.getElem?_eq_some_iff.mp hd
          have hmem := List.getElem_mem hi
          have henc : PyKey.encode P ⟨K.e, K.s, K.idxBytes, i, K.decls[i].sig⟩ args = .ok (request K.e K.s K.idxBytes i K.decls[i].sig.params args) :=
            C54_encode_partial hP (k := ⟨K.e, K.s, K.idxBytes, i, K.decls[i].sig⟩) hs (idxBytes_pos hK.1).1 (Nat.lt_trans hi (idxBytes_pos hK.1).2) (hK.2 _ hmem) (hsz _ hmem) hfP
          have hlt : c < s.coros.length := (List.getElem?_eq_some_iff.mp hc).1
          have hset : (s.coros.set c (.awaiting ⟨K.e, K.s, K.idxBytes, i, K.decls[i].sig⟩ k))[c]? = some (.awaiting ⟨K.e, K.s, K.idxBytes, i, K.decls[i].sig⟩ k) := by
            rw [List.getElem?_set_self hlt]
          refine ⟨{ s with
              coros := s.coros.set c (.awaiting ⟨K.e, K.s, K.idxBytes, i, K.decls[i].sig⟩ k)
              futures := s.futures ++ [c]
              rest := L.put { L.get s.rest with up := (L.get s.rest).up ++ request K.e K.s K.idxBytes i K.decls[i].sig.params args } s.rest }, ?_, ?_⟩
          · simp only [EventLoop.next, EventLoop.step, hc, K.keyAt_eq hK.1 hi, henc, Eff.lift_ok, pure_bind]
            rfl
          · refine ⟨by rw [← h.coros]; exact List.map_set, mem_set_of h.fits hk, ?_, ?_, h.held.set _ hr, ⟨_, (hask.set _ hq).snoc (.inl ⟨k, hset⟩) hd hfP hfQ, ?_⟩, hS.inv_put _ _ h.inv⟩
            · simp [h.futures]
            · rw [h.futures] at *
              have hn := h.nodup
              rw [h.futures] at hn
              refine List.nodup_append.mpr ⟨hn, by simp, ?_⟩
              intro a ha b hb
              simp only [List.mem_singleton] at hb
              subst hb
              rintro rfl
              rcases List.mem_append.mp ha with ha | ha
              · exact hr ha
              · exact hq ha
            · show L.get (L.put _ _) = _
              rw [hS.get_put, hlink]
  | serve =>
    simp only [Office.next]
    cases hcalls : o.calls with
    | nil =>
      rw [hcalls] at hask
      cases hask
      exact ⟨s, by simp only [EventLoop.next, EventLoop.serve, hlink], h⟩
    | cons call calls =>
      rw [hcalls] at hask
      cases hask with
      | @cons c i args d _ bs' h1 h2 h3 h4 h5 =>
        obtain ⟨hi, rfl⟩ := List.getElem?_eq_some_iff.mp h2
        have hmem := List.getElem_mem hi
        have hne : ∃ x xs, (L.get s.rest).up = x :: xs := by
          rw [hlink]
          have hl : 1 ≤ (request K.e K.s K.idxBytes i K.decls[i].sig.params args ++ bs').length := by
            rw [request, List.length_append, List.length_append, wireBytes_length]
            have : 1 ≤ K.idxBytes := (idxBytes_pos hK.1).1
            omega
          match hb : request K.e K.s K.idxBytes i K.decls[i].sig.params args ++ bs' with
          | [] => rw [hb] at hl; exact absurd hl (by simp)
          | x :: xs => exact ⟨x, xs, rfl⟩
        obtain ⟨x, xs, hup⟩ := hne
        have hst := hS.step i hi args bs' [] o.world s.rest h4 h.inv hlink
        simp only [h2]
        cases hd : defs K.decls[i].name args o.world with
        | fault f =>
          rw [hd] at hst
          simp only [EventLoop.next, EventLoop.serve, hup]
          exact Eff.bind_fault (zoom_fault hst)
        | threw w =>
          rw [hd] at hst
          obtain ⟨t', g1, g2⟩ := hst
          simp only [EventLoop.next, EventLoop.serve, hup]
          refine ⟨_, Eff.bind_threw (zoom_threw g1), ?_⟩
          show (L.get t').world = w
          rw [g2]
        | ret r w =>
          rw [hd] at hst
          obtain ⟨t', g1, g2, g3⟩ := hst
          simp only [EventLoop.next, EventLoop.serve, hup]
          refine ⟨_, (Eff.bind_ret (zoom_ret (L := EventLoop.restL) g1)).trans rfl, ?_⟩
          have hro := ht _ hmem args _ _ _ h3 hd
          have hdown : (L.get t').down = response K.e K.s K.decls[i].sig.ret r := by rw [g3, List.nil_append]
          refine ⟨h.coros, h.fits, ?_, h.nodup, ?_, ⟨bs', h5, ?_⟩, hS.inv_put _ _ g2⟩
          · show s.futures = _
            rw [h.futures, hcalls]
            simp
          · show Held P K s.coros _ (s.inbox ++ [(L.get t').down])
            rw [hdown]
            exact h.held.snoc h1 h2 hro
          · show L.get (L.put { L.get t' with down := [] } t') = _
            rw [hS.get_put, g3]
  | deliver =>
    simp only [Office.next]
    have hheld := h.held
    have hfut := h.futures
    have hnd := h.nodup
    cases hres : o.results with
    | nil =>
      rw [hres] at hheld
      cases hi : s.inbox with
      | nil => exact ⟨s, by simp only [EventLoop.next, EventLoop.deliver, hi], h⟩
      | cons m ms => rw [hi] at hheld; cases hheld
    | cons x rs =>
      rw [hres] at hheld hfut
      generalize hib : s.inbox = ib at hheld
      cases hheld with
      | @cons c j d r _ ms h1 h2 h3 h4 =>
        obtain ⟨hi, rfl⟩ := List.getElem?_eq_some_iff.mp h2
        have hmem := List.getElem_mem hi
        have hdec : PyKey.decode P ⟨K.e, K.s, K.idxBytes, j, K.decls[j].sig⟩ (response K.e K.s K.decls[j].sig.ret r) = .ret r () := by
          have := C54_decode hP (k := ⟨K.e, K.s, K.idxBytes, j, K.decls[j].sig⟩) hs (hK.2 _ hmem) h3 []
          rwa [List.append_nil] at this
        have hg := callers_get h c
        simp only [List.map_cons, List.cons_append] at hfut
        rw [hfut] at hnd
        obtain ⟨hn1, hn2⟩ := List.nodup_cons.mp hnd
        simp only [List.mem_append, not_or] at hn1
        rcases h1 with ⟨k, h1⟩ | h1
        · rw [h1] at hg
          dsimp only
          rw [hg]
          refine ⟨{ s with coros := s.coros.set c (.ready (k r)), inbox := ms, futures := rs.map (·.1) ++ o.calls.map (·.1) }, ?_, ?_⟩
          · simp only [EventLoop.next, EventLoop.deliver, hib, hfut, h1, hdec]
          exact ⟨by rw [← h.coros]; exact List.map_set, mem_set_of h.fits (h.fits _ (List.mem_of_getElem? h1) r), rfl, hn2, h4.set _ hn1.1, ⟨bs, hask.set _ hn1.2, hlink⟩, h.inv⟩
        · rw [h1] at hg
          dsimp only
          rw [hg]
          refine ⟨{ s with inbox := ms, futures := rs.map (·.1) ++ o.calls.map (·.1) }, ?_, ?_⟩
          · simp only [EventLoop.next, EventLoop.deliver, hib, hfut, h1]
          exact ⟨h.coros, h.fits, rfl, hn2, h4, ⟨bs, hask, hlink⟩, h.inv⟩
  | cancel c =>
    have hg := callers_get h c
    have hgo : InStep P Q K L Inv { o with callers := o.callers.set c .cancelled } { s with coros := s.coros.set c .cancelled } :=
      ⟨by rw [← h.coros]; exact List.map_set, mem_set_of h.fits trivial, h.futures, h.nodup, h.held.cancel c, ⟨bs, hask.cancel c, hlink⟩, h.inv⟩
    simp only [Office.next]
    cases hc : s.coros[c]? with
    | none =>
      rw [hc] at hg
      rw [hg]
      exact ⟨s, by simp only [EventLoop.next, EventLoop.cancel, hc], h⟩
    | some x =>
      rw [hc] at hg
      cases x with
      | awaiting key k => rw [hg]; exact ⟨_, by simp only [EventLoop.next, EventLoop.cancel, hc]; rfl, hgo⟩
      | finished a => rw [hg]; exact ⟨s, by simp only [EventLoop.next, EventLoop.cancel, hc], h⟩
      | cancelled => rw [hg]; exact ⟨s, by simp only [EventLoop.next, EventLoop.cancel, hc], h⟩
      | ready p => rw [hg]; exact ⟨_, by simp only [EventLoop.next, EventLoop.cancel, hc]; rfl, hgo⟩

/-- All the events. -/
theorem loop_run {L : Lens τ (Link σ)} {serve : Eff τ Unit} {Inv : τ → Prop} (hP : P.Valid) (hK : KeyringOk K) (hs : Supported P K.e K.s)
    (hsz : ∀ d ∈ K.decls, ∀ t ∈ d.sig.params, t.sizeof = wireSize t) (ht : ∀ d ∈ K.decls, WellTyped P K.s ⟨d.sig, defs d.name⟩)
    (hS : Server Q K defs L serve Inv) : ∀ (es : List Happening) {o : Office σ α} {s : EventLoop σ α τ}, InStep P Q K L Inv o s →
    match Office.run K defs es o with
    | .ret _ o' => ∃ s', EventLoop.run P K L serve es s = .ret () s' ∧ InStep P Q K L Inv o' s'
    | .threw o' => ∃ s', EventLoop.run P K L serve es s = .threw s' ∧ (L.get s'.rest).world = o'.world
    | .fault f => EventLoop.run P K L serve es s = .fault f
  | [], o, s, h => ⟨s, rfl, h⟩
  | e :: es, o, s, h => by
    have h1 := loop_next hP hK hs hsz ht hS h e
    have hr : Office.run K defs (e :: es) o = (Office.next K defs e >>= fun _ => Office.run K defs es) o := rfl
    have hR : EventLoop.run P K L serve (e :: es) s = (EventLoop.next P K L serve e >>= fun _ => EventLoop.run P K L serve es) s := rfl
    rw [hr, hR]
    cases ho : Office.next K defs e o with
    | fault f => rw [ho] at h1; rw [Eff.bind_fault ho]; exact Eff.bind_fault h1
    | threw o' =>
      rw [ho] at h1
      obtain ⟨s', h2, h3⟩ := h1
      rw [Eff.bind_threw ho]
      exact ⟨s', Eff.bind_threw h2, h3⟩
    | ret u o' =>
      rw [ho] at h1
      obtain ⟨s', h2, h3⟩ := h1
      rw [Eff.bind_ret ho, Eff.bind_ret h2]
      exact loop_run hP hK hs hsz ht hS es h3

theorem loop_outcome {L : Lens τ (Link σ)} {serve : Eff τ Unit} {Inv : τ → Prop} (hP : P.Valid) (hK : KeyringOk K) (hs : Supported P K.e K.s)
    (hsz : ∀ d ∈ K.decls, ∀ t ∈ d.sig.params, t.sizeof = wireSize t) (ht : ∀ d ∈ K.decls, WellTyped P K.s ⟨d.sig, defs d.name⟩)
    (hS : Server Q K defs L serve Inv) (es : List Happening) {o : Office σ α} {s : EventLoop σ α τ} (h : InStep P Q K L Inv o s) :
    LoopOutcome L (Office.run K defs es o) (EventLoop.run P K L serve es s) := by
  have h1 := loop_run hP hK hs hsz ht hS es h
  cases ho : Office.run K defs es o with
  | fault f => rw [ho] at h1; exact h1
  | threw o' => rw [ho] at h1; exact h1
  | ret u o' =>
    rw [ho] at h1
    obtain ⟨s', h2, h3⟩ := h1
    obtain ⟨bs, _, hl⟩ := h3.asked
    exact ⟨s', h2, h3.coros, by rw [hl]⟩

/-- Coroutines which have not begun. -/
theorem loop_start {L : Lens τ (Link σ)} {Inv : τ → Prop} {progs : List (Talk σ α)} (hp : ∀ p ∈ progs, TalkFits P Q K p) {t : τ} {w : σ} (hi : Inv t)
    (hl : L.get t = ⟨[], [], w⟩) : InStep P Q K L Inv ⟨progs.map .ready, [], [], w⟩ ⟨progs.map .ready, [], [], t⟩ where
  coros := by rw [List.map_map]; rfl
  fits := by
    intro x hx
    obtain ⟨p, hp', rfl⟩ := List.mem_map.mp hx
    exact hp p hp'
  futures := rfl
  nodup := List.nodup_nil
  held := .nil
  asked := ⟨[], .nil, hl⟩
  inv := hi

/-! Calls executed at once. -/

/-- The programs which correspond to callers: a call which has not been executed is still to be made, one which has been executed is over. -/
structure Ledger (o : Office σ α) (ps : List (Talk σ α)) : Prop where
  length : ps.length = o.callers.length
  ready : ∀ (c : Nat) (p : Talk σ α), o.callers[c]? = some (Caller.ready p) → ps[c]? = some p
  finished : ∀ (c : Nat) (a : α), o.callers[c]? = some (Caller.finished a) → ps[c]? = some (Talk.done a)
  calls : ∀ (c i : Nat) (args : List Val), (c, i, args) ∈ o.calls →
    ∃ k, (o.callers[c]? = some (Caller.waiting k) ∨ o.callers[c]? = some Caller.cancelled) ∧ ps[c]? = some (Talk.call i args k)
  results : ∀ (c : Nat) (r : Option Val), (c, r) ∈ o.results →
    ∃ k, (o.callers[c]? = some (Caller.waiting k) ∨ o.callers[c]? = some Caller.cancelled) ∧ ps[c]? = some (k r)
  listed : ∀ (c : Nat) (k : Option Val → Talk σ α), o.callers[c]? = some (Caller.waiting k) → c ∈ o.results.map (·.1) ++ o.calls.map (·.1)
  nodup : (o.results.map (·.1) ++ o.calls.map (·.1)).Nodup

theorem getElem?_set_cases {β : Type} {l : List β} {c c' : Nat} {x y : β} (h : (l.set c x)[c']? = some y) :
    (c = c' ∧ x = y ∧ c < l.length) ∨ (c ≠ c' ∧ l[c']? = some y) := by
  by_cases hc : c = c'
  · subst hc
    have hl := (List.getElem?_eq_some_iff.mp h).1
    rw [List.length_set] at hl
    rw [List.getElem?_set_self hl] at h
    injection h with h
    exact .inl ⟨rfl, h, hl⟩
  · rw [List.getElem?_set_ne hc] at h
    exact .inr ⟨hc, h⟩

theorem waiting_cancel {callers : List (Caller σ α)} {c : Nat} {k : Option Val → Talk σ α} (h : callers[c]? = some (.waiting k) ∨ callers[c]? = some .cancelled) (c' : Nat) :
    (callers.set c' .cancelled)[c]? = some (.waiting k) ∨ (callers.set c' .cancelled)[c]? = some .cancelled := by
  by_cases hc : c' = c
  · subst hc
    have hlt : c' < callers.length := by
      rcases h with h | h
      · exact (List.getElem?_eq_some_iff.mp h).1
      · exact (List.getElem?_eq_some_iff.mp h).1
    exact .inr (List.getElem?_set_self hlt)
  · rw [set_other hc]
    exact h

/-- A caller which is ready goes on. -/
theorem Ledger.go {o : Office σ α} {ps : List (Talk σ α)} (h : Ledger o ps) {c : Nat} {p : Talk σ α} (hc : o.callers[c]? = some (.ready p)) (p' : Talk σ α) (w : σ) :
    Ledger { o with callers := o.callers.set c (.ready p'), world := w } (ps.set c p') := by
  have hlt : c < o.callers.length := (List.getElem?_eq_some_iff.mp hc).1
  refine ⟨by simp [h.length], ?_, ?_, ?_, ?_, ?_, h.nodup⟩
  · intro c' q hq
    rcases getElem?_set_cases hq with ⟨rfl, e, _⟩ | ⟨hne, hq⟩
    · cases e
      rw [List.getElem?_set_self (by rw [h.length]; exact hlt)]
    · rw [List.getElem?_set_ne hne]
      exact h.ready c' q hq
  · intro c' a hq
    rcases getElem?_set_cases hq with ⟨rfl, e, _⟩ | ⟨hne, hq⟩
    · cases e
    · rw [List.getElem?_set_ne hne]
      exact h.finished c' a hq
  · intro c' i args hm
    obtain ⟨k, h1, h2⟩ := h.calls c' i args hm
    have hne : c ≠ c' := by rintro rfl; rcases h1 with h1 | h1 <;> (rw [hc] at h1; cases h1)
    exact ⟨k, by rw [List.getElem?_set_ne hne]; exact h1, by rw [List.getElem?_set_ne hne]; exact h2⟩
  · intro c' r hm
    obtain ⟨k, h1, h2⟩ := h.results c' r hm
    have hne : c ≠ c' := by rintro rfl; rcases h1 with h1 | h1 <;> (rw [hc] at h1; cases h1)
    exact ⟨k, by rw [List.getElem?_set_ne hne]; exact h1, by rw [List.getElem?_set_ne hne]; exact h2⟩
  · intro c' k hq
    rcases getElem?_set_cases hq with ⟨rfl, e, _⟩ | ⟨hne, hq⟩
    · cases e
    · exact h.listed c' k hq

/-- One event is at most one operation. -/
theorem ledger_next {o : Office σ α} {ps : List (Talk σ α)} (h : Ledger o ps) (e : Happening) :
    match Office.next K defs e o with
    | .ret _ o' => ∃ order ps', interleaved K defs order (ps, o.world) = .ret () (ps', o'.world) ∧ Ledger o' ps'
    | .threw o' => ∃ c ps', atomicStep K defs c (ps, o.world) = .threw (ps', o'.world)
    | .fault f => ∃ c, atomicStep K defs c (ps, o.world) = .fault f := by
  cases e with
  | step c =>
    simp only [Office.next]
    cases hc : o.callers[c]? with
    | none => exact ⟨[], ps, rfl, h⟩
    | some x =>
      have hlt : c < o.callers.length := (List.getElem?_eq_some_iff.mp hc).1
      cases x with
      | waiting k => exact ⟨[], ps, rfl, h⟩
      | finished a => exact ⟨[], ps, rfl, h⟩
      | cancelled => exact ⟨[], ps, rfl, h⟩
      | ready p =>
        have hp := h.ready c p hc
        cases p with
        | done a =>
          refine ⟨[], ps, rfl, by simp [h.length], ?_, ?_, ?_, ?_, ?_, h.nodup⟩
          · intro c' q hq
            rcases getElem?_set_cases hq with ⟨rfl, e, _⟩ | ⟨_, hq⟩
            · cases e
            · exact h.ready c' q hq
          · intro c' a' hq
            rcases getElem?_set_cases hq with ⟨rfl, e, _⟩ | ⟨_, hq⟩
            · cases e; exact hp
            · exact h.finished c' a' hq
          · intro c' i args hm
            obtain ⟨k, h1, h2⟩ := h.calls c' i args hm
            have hne : c ≠ c' := by rintro rfl; rcases h1 with h1 | h1 <;> (rw [hc] at h1; cases h1)
            exact ⟨k, by rw [List.getElem?_set_ne hne]; exact h1, h2⟩
          · intro c' r hm
            obtain ⟨k, h1, h2⟩ := h.results c' r hm
            have hne : c ≠ c' := by rintro rfl; rcases h1 with h1 | h1 <;> (rw [hc] at h1; cases h1)
            exact ⟨k, by rw [List.getElem?_set_ne hne]; exact h1, h2⟩
          · intro c' k hq
            rcases getElem?_set_cases hq with ⟨rfl, e, _⟩ | ⟨_, hq⟩
            · cases e
            · exact h.listed c' k hq
        | look k =>
          refine ⟨[c], _, ?_, h.go hc (k o.world) o.world⟩
          refine (Eff.bind_ret (a := ()) (w' := (ps.set c (k o.world), o.world)) ?_).trans rfl
          simp only [atomicStep, hp]
        | act x k =>
          dsimp only
          cases hx : x o.world with
          | fault f => exact ⟨c, by simp only [atomicStep, hp, hx]⟩
          | threw w => exact ⟨c, ps, by simp only [atomicStep, hp, hx]⟩
          | ret a w =>
            refine ⟨[c], _, ?_, h.go hc k w⟩
            refine (Eff.bind_ret (a := ()) (w' := (ps.set c k, w)) ?_).trans rfl
            simp only [atomicStep, hp, hx]
        | call i args k =>
          have hnr : c ∉ o.results.map (·.1) := by
            intro hm
            obtain ⟨⟨c', r⟩, hm', rfl⟩ := List.mem_map.mp hm
            obtain ⟨k, h1, _⟩ := h.results c' r hm'
            rcases h1 with h1 | h1 <;> (rw [hc] at h1; cases h1)
          have hnc : c ∉ o.calls.map (·.1) := by
            intro hm
            obtain ⟨⟨c', i, args⟩, hm', rfl⟩ := List.mem_map.mp hm
            obtain ⟨k, h1, _⟩ := h.calls c' i args hm'
            rcases h1 with h1 | h1 <;> (rw [hc] at h1; cases h1)
          refine ⟨[], ps, rfl, by simp [h.length], ?_, ?_, ?_, ?_, ?_, ?_⟩
          · intro c' q hq
            rcases getElem?_set_cases hq with ⟨rfl, e, _⟩ | ⟨_, hq⟩
            · cases e
            · exact h.ready c' q hq
          · intro c' a' hq
            rcases getElem?_set_cases hq with ⟨rfl, e, _⟩ | ⟨_, hq⟩
            · cases e
            · exact h.finished c' a' hq
          · intro c' i' args' hm
            rcases List.mem_append.mp hm with hm | hm
            · obtain ⟨k', h1, h2⟩ := h.calls c' i' args' hm
              have hne : c ≠ c' := by rintro rfl; rcases h1 with h1 | h1 <;> (rw [hc] at h1; cases h1)
              exact ⟨k', by rw [List.getElem?_set_ne hne]; exact h1, h2⟩
            · simp only [List.mem_singleton] at hm
              cases hm
              exact ⟨k, .inl (List.getElem?_set_self hlt), hp⟩
          · intro c' r hm
            obtain ⟨k', h1, h2⟩ := h.results c' r hm
            have hne : c ≠ c' := by rintro rfl; rcases h1 with h1 | h1 <;> (rw [hc] at h1; cases h1)
            exact ⟨k', by rw [List.getElem?_set_ne hne]; exact h1, h2⟩
          · intro c' k' hq
            rcases getElem?_set_cases hq with ⟨rfl, e, _⟩ | ⟨_, hq⟩
            · simp
            · have := h.listed c' k' hq
              simp only [List.map_append, List.mem_append] at this ⊢
              rcases this with this | this
              · exact .inl this
              · exact .inr (.inl this)
          · rw [List.map_append, ← List.append_assoc]
            refine List.nodup_append.mpr ⟨h.nodup, by simp, ?_⟩
            intro a ha b hb
            simp only [List.map_cons, List.map_nil, List.mem_singleton] at hb
            subst hb
            rintro rfl
            rcases List.mem_append.mp ha with ha | ha
            · exact hnr ha
            · exact hnc ha
  | serve =>
    simp only [Office.next]
    cases hcalls : o.calls with
    | nil => exact ⟨[], ps, rfl, h⟩
    | cons call calls =>
      obtain ⟨c, i, args⟩ := call
      obtain ⟨k, h1, h2⟩ := h.calls c i args (by rw [hcalls]; exact List.mem_cons_self ..)
      have hnd := h.nodup
      have hlist := h.listed
      rw [hcalls] at hnd hlist
      have hlt : c < ps.length := (List.getElem?_eq_some_iff.mp h2).1
      dsimp only
      cases hd : K.decls[i]? with
      | none => exact ⟨c, by simp only [atomicStep, h2, hd]⟩
      | some d =>
        dsimp only
        cases hx : defs d.name args o.world with
        | fault f => exact ⟨c, by simp only [atomicStep, h2, hd, hx]⟩
        | threw w => exact ⟨c, ps, by simp only [atomicStep, h2, hd, hx]⟩
        | ret r w =>
          refine ⟨[c], ps.set c (k r), ?_, ?_⟩
          · refine (Eff.bind_ret (a := ()) (w' := (ps.set c (k r), w)) ?_).trans rfl
            simp only [atomicStep, h2, hd, hx]
          · simp only [List.map_cons] at hnd
            obtain ⟨n1, n2, n3⟩ := List.nodup_append.mp hnd
            obtain ⟨n4, n5⟩ := List.nodup_cons.mp n2
            refine ⟨by simp [h.length], ?_, ?_, ?_, ?_, ?_, ?_⟩
            · intro c' q hq
              have hne : c ≠ c' := by
                rintro rfl
                have hq : o.callers[c]? = _ := hq
                rcases h1 with h1 | h1 <;> (rw [h1] at hq; cases hq)
              rw [List.getElem?_set_ne hne]
              exact h.ready c' q hq
            · intro c' a hq
              have hne : c ≠ c' := by
                rintro rfl
                have hq : o.callers[c]? = _ := hq
                rcases h1 with h1 | h1 <;> (rw [h1] at hq; cases hq)
              rw [List.getElem?_set_ne hne]
              exact h.finished c' a hq
            · intro c' i' args' hm
              have hne : c ≠ c' := by
                rintro rfl
                exact n4 (List.mem_map.mpr ⟨_, hm, rfl⟩)
              obtain ⟨k', g1, g2⟩ := h.calls c' i' args' (by rw [hcalls]; exact List.mem_cons_of_mem _ hm)
              exact ⟨k', g1, by rw [List.getElem?_set_ne hne]; exact g2⟩
            · intro c' r' hm
              rcases List.mem_append.mp hm with hm | hm
              · have hne : c ≠ c' := by
                  rintro rfl
                  exact n3 _ (List.mem_map.mpr ⟨_, hm, rfl⟩) _ (List.mem_cons_self ..) rfl
                obtain ⟨k', g1, g2⟩ := h.results c' r' hm
                exact ⟨k', g1, by rw [List.getElem?_set_ne hne]; exact g2⟩
              · simp only [List.mem_singleton] at hm
                cases hm
                exact ⟨k, h1, List.getElem?_set_self hlt⟩
            · intro c' k' hq
              have := hlist c' k' hq
              simp only [List.map_append, List.map_cons, List.map_nil, List.mem_append, List.mem_cons] at this ⊢
              rcases this with this | this | this
              · exact .inl (.inl this)
              · exact .inl (.inr (.inl this))
              · exact .inr this
            · simpa using hnd
  | deliver =>
    simp only [Office.next]
    cases hres : o.results with
    | nil => exact ⟨[], ps, rfl, h⟩
    | cons x rs =>
      obtain ⟨c, r⟩ := x
      obtain ⟨k, h1, h2⟩ := h.results c r (by rw [hres]; exact List.mem_cons_self ..)
      have hnd := h.nodup
      have hlist := h.listed
      rw [hres] at hnd hlist
      simp only [List.map_cons, List.cons_append] at hnd hlist
      obtain ⟨n1, n2⟩ := List.nodup_cons.mp hnd
      simp only [List.mem_append, not_or] at n1
      dsimp only
      rcases h1 with h1 | h1
      · rw [h1]
        refine ⟨[], ps, rfl, by simp [h.length], ?_, ?_, ?_, ?_, ?_, n2⟩
        · intro c' q hq
          rcases getElem?_set_cases hq with ⟨rfl, e, _⟩ | ⟨_, hq⟩
          · cases e; exact h2
          · exact h.ready c' q hq
        · intro c' a hq
          rcases getElem?_set_cases hq with ⟨rfl, e, _⟩ | ⟨_, hq⟩
          · cases e
          · exact h.finished c' a hq
        · intro c' i args hm
          have hne : c ≠ c' := by
            rintro rfl
            exact n1.2 (List.mem_map.mpr ⟨_, hm, rfl⟩)
          obtain ⟨k', g1, g2⟩ := h.calls c' i args hm
          exact ⟨k', by rw [List.getElem?_set_ne hne]; exact g1, g2⟩
        · intro c' r' hm
          have hne : c ≠ c' := by
            rintro rfl
            exact n1.1 (List.mem_map.mpr ⟨_, hm, rfl⟩)
          obtain ⟨k', g1, g2⟩ := h.results c' r' (by rw [hres]; exact List.mem_cons_of_mem _ hm)
          exact ⟨k', by rw [List.getElem?_set_ne hne]; exact g1, g2⟩
        · intro c' k' hq
          rcases getElem?_set_cases hq with ⟨rfl, e, _⟩ | ⟨hne, hq⟩
          · cases e
          · rcases List.mem_cons.mp (hlist c' k' hq) with e | hm
            · exact absurd e.symm hne
            · exact hm
      · rw [h1]
        refine ⟨[], ps, rfl, h.length, h.ready, h.finished, h.calls, ?_, ?_, n2⟩
        · intro c' r' hm
          exact h.results c' r' (by rw [hres]; exact List.mem_cons_of_mem _ hm)
        · intro c' k' hq
          rcases List.mem_cons.mp (hlist c' k' hq) with e | hm
          · have hq : o.callers[c']? = _ := hq
            rw [e, h1] at hq
            cases hq
          · exact hm
  | cancel c =>
    have hgo : Ledger { o with callers := o.callers.set c .cancelled } ps := by
      refine ⟨by simp [h.length], ?_, ?_, ?_, ?_, ?_, h.nodup⟩
      · intro c' q hq
        rcases getElem?_set_cases hq with ⟨rfl, e, _⟩ | ⟨_, hq⟩
        · cases e
        · exact h.ready c' q hq
      · intro c' a hq
        rcases getElem?_set_cases hq with ⟨rfl, e, _⟩ | ⟨_, hq⟩
        · cases e
        · exact h.finished c' a hq
      · intro c' i args hm
        obtain ⟨k, h1, h2⟩ := h.calls c' i args hm
        exact ⟨k, waiting_cancel h1 c, h2⟩
      · intro c' r hm
        obtain ⟨k, h1, h2⟩ := h.results c' r hm
        exact ⟨k, waiting_cancel h1 c, h2⟩
      · intro c' k hq
        rcases getElem?_set_cases hq with ⟨rfl, e, _⟩ | ⟨_, hq⟩
        · cases e
        · exact h.listed c' k hq
    simp only [Office.next]
    cases hc : o.callers[c]? with
    | none => exact ⟨[], ps, rfl, h⟩
    | some x =>
      cases x with
      | waiting k => exact ⟨[], ps, rfl, hgo⟩
      | finished a => exact ⟨[], ps, rfl, h⟩
      | cancelled => exact ⟨[], ps, rfl, h⟩
      | ready p => exact ⟨[], ps, rfl, hgo⟩

theorem interleaved_append (a b : List Nat) {st st' : List (Talk σ α) × σ} (h : interleaved K defs a st = .ret () st') :
    interleaved K defs (a ++ b) st = interleaved K defs b st' := by
  induction a generalizing st with
  | nil => injection h with _ h; subst h; rfl
  | cons c a ih =>
    obtain ⟨u, st1, h1, h2⟩ := Eff.bind_eq_ret (x := atomicStep K defs c) h
    exact (Eff.bind_ret h1).trans (ih h2)

/-- All the events are operations in some order. -/
theorem ledger_run : ∀ (es : List Happening) {o : Office σ α} {ps : List (Talk σ α)}, Ledger o ps →
    match Office.run K defs es o with
    | .ret _ o' => ∃ order ps', interleaved K defs order (ps, o.world) = .ret () (ps', o'.world) ∧ Ledger o' ps'
    | .threw o' => ∃ order ps', interleaved K defs order (ps, o.world) = .threw (ps', o'.world)
    | .fault f => ∃ order, interleaved K defs order (ps, o.world) = .fault f
  | [], o, ps, h => ⟨[], ps, rfl, h⟩
  | e :: es, o, ps, h => by
    have h1 := ledger_next (K := K) (defs := defs) h e
    have hr : Office.run K defs (e :: es) o = (Office.next K defs e >>= fun _ => Office.run K defs es) o := rfl
    rw [hr]
    cases ho : Office.next K defs e o with
    | fault f =>
      rw [ho] at h1
      obtain ⟨c, h2⟩ := h1
      rw [Eff.bind_fault ho]
      exact ⟨[c], Eff.bind_fault h2⟩
    | threw o' =>
      rw [ho] at h1
      obtain ⟨c, ps', h2⟩ := h1
      rw [Eff.bind_threw ho]
      exact ⟨[c], ps', Eff.bind_threw h2⟩
    | ret u o' =>
      rw [ho] at h1
      obtain ⟨order, ps', h2, h3⟩ := h1
      rw [Eff.bind_ret ho]
      have ih := ledger_run es h3
      cases hrun : Office.run K defs es o' with
      | fault f =>
        rw [hrun] at ih
        obtain ⟨order', h4⟩ := ih
        exact ⟨order ++ order', by rw [interleaved_append _ _ h2]; exact h4⟩
      | threw o2 =>
        rw [hrun] at ih
        obtain ⟨order', ps2, h4⟩ := ih
        exact ⟨order ++ order', ps2, by rw [interleaved_append _ _ h2]; exact h4⟩
      | ret u2 o2 =>
        rw [hrun] at ih
        obtain ⟨order', ps2, h4, h5⟩ := ih
        exact ⟨order ++ order', ps2, by rw [interleaved_append _ _ h2]; exact h4, h5⟩

theorem ledger_start (progs : List (Talk σ α)) (w : σ) : Ledger ⟨progs.map .ready, [], [], w⟩ progs where
  length := by simp
  ready := by
    intro c p h
    rw [List.getElem?_map] at h
    obtain ⟨q, h1, h2⟩ := Option.map_eq_some_iff.mp h
    cases h2
    exact h1
  finished := by
    intro c a h
    rw [List.getElem?_map] at h
    obtain ⟨q, _, h2⟩ := Option.map_eq_some_iff.mp h
    cases h2
  calls := by intro _ _ _ h; cases h
  results := by intro _ _ h; cases h
  listed := by
    intro c a h
    rw [List.getElem?_map] at h
    obtain ⟨q, _, h2⟩ := Option.map_eq_some_iff.mp h
    cases h2
  nodup := List.nodup_nil

/-- A program alone. -/
theorem atomic_alone {p : Talk σ α} {w : σ} {ps : List (Talk σ α)} {w' : σ} {c : Nat} (h : atomicStep K defs c ([p], w) = .ret () (ps, w')) :
    ∃ p', ps = [p'] ∧ direct K defs p w = direct K defs p' w' := by
  cases c with
  | succ c =>
    simp only [atomicStep, List.getElem?_cons_succ, List.getElem?_nil] at h
    cases h
    exact ⟨p, rfl, rfl⟩
  | zero =>
    cases p with
    | done a => cases h; exact ⟨_, rfl, rfl⟩
    | look k => cases h; exact ⟨_, rfl, rfl⟩
    | act x k =>
      simp only [atomicStep, List.getElem?_cons_zero] at h
      cases hx : x w with
      | fault f => rw [hx] at h; cases h
      | threw v => rw [hx] at h; cases h
      | ret a v =>
        rw [hx] at h
        cases h
        exact ⟨k, rfl, Eff.bind_ret hx⟩
    | call i args k =>
      simp only [atomicStep, List.getElem?_cons_zero] at h
      cases hd : K.decls[i]? with
      | none => rw [hd] at h; cases h
      | some d =>
        rw [hd] at h
        dsimp only at h
        cases hx : defs d.name args w with
        | fault f => rw [hx] at h; cases h
        | threw v => rw [hx] at h; cases h
        | ret r v =>
          rw [hx] at h
          cases h
          refine ⟨k r, rfl, ?_⟩
          simp only [direct, hd]
          exact Eff.bind_ret hx

theorem interleaved_alone : ∀ (order : List Nat) {p : Talk σ α} {w : σ} {ps : List (Talk σ α)} {w' : σ}, interleaved K defs order ([p], w) = .ret () (ps, w') →
    ∃ p', ps = [p'] ∧ direct K defs p w = direct K defs p' w'
  | [], p, w, ps, w', h => by cases h; exact ⟨p, rfl, rfl⟩
  | c :: order, p, w, ps, w', h => by
    obtain ⟨u, ⟨ps1, w1⟩, h1, h2⟩ := Eff.bind_eq_ret (x := atomicStep K defs c) h
    obtain ⟨p1, rfl, e1⟩ := atomic_alone h1
    obtain ⟨p2, rfl, e2⟩ := interleaved_alone order h2
    exact ⟨p2, rfl, e1.trans e2⟩

end Upd
