import Verif.Spec.Replace
import Verif.Props.BufferedMachine

/-!
# Replacing callbacks at any time (C59)
-/

namespace Upd
open Spec TypeList

variable {σ : Type} {P : Platform} {K : Keyring} {f : Features} {defs : Nat → List Val → Eff σ (Option Val)} {shared : Bool} {n : Nat}

theorem Spec.Setting.setup (h : Setting P K f defs) : Setup P K f defs :=
  ⟨h.valid, h.ring, h.sup, fun hf d hd t ht => (h.sizes d hd t ht).2 hf, h.typed⟩

/-- Invariant of a dispatcher some callbacks of which have been replaced. -/
structure Tracks (P : Platform) (K : Keyring) (f : Features) (shared : Bool) (n : Nat) (b : Buf σ) (p : Proto σ) (m : Machine) : Prop where
  ok : BufOk P p b
  rel : Rel p b m
  shr : b.shared = shared
  room : b.out.length = n
  feat : b.disp.features = f
  e : p.e = K.e
  s : p.s = K.s
  idx : p.idxBytes = K.idxBytes
  sigs : p.cbs.map (·.sig) = K.decls.map (·.sig)
  len : b.disp.acts.length = K.decls.length

theorem Tracks.sig_at {b : Buf σ} {p : Proto σ} {m : Machine} (h : Tracks P K f shared n b p m) {i : Nat} {d : Decl} (hd : K.decls[i]? = some d) :
    ∃ cb, p.cbs[i]? = some cb ∧ cb.sig = d.sig := by
  have := congrArg (·[i]?) h.sigs
  simp only [List.getElem?_map, hd, Option.map_some] at this
  cases hc : p.cbs[i]? with
  | none => rw [hc] at this; simp at this
  | some cb => rw [hc] at this; exact ⟨cb, rfl, by simpa using this⟩

/-- The invariant is kept when an action which holds a suitable callback takes the place of another one. -/
theorem Tracks.set {b : Buf σ} {p : Proto σ} {m : Machine} (h : Tracks P K f shared n b p m) {i : Nat} {cb : Callback σ}
    (hc : Suits P K i cb) {a : Action σ} (ha : a.Holds p.e p.s cb) (hsz : a.inputSize = .ok (wireSizes cb.sig.params)) :
    Tracks P K f shared n { b with disp := { b.disp with acts := b.disp.acts.set i a } } (p.replace i cb) m := by
  obtain ⟨⟨d, hd, hsig⟩, hty⟩ := hc
  obtain ⟨cb0, hcb0, hsig0⟩ := h.sig_at hd
  have hi : i < p.cbs.length := (List.getElem?_eq_some_iff.1 hcb0).1
  have hi' : i < b.disp.acts.length := by rw [h.len]; exact (List.getElem?_eq_some_iff.1 hd).1
  have hss : cb.sig = cb0.sig := by rw [hsig, hsig0]
  have hmem : ∀ c ∈ (p.replace i cb).cbs, c = cb ∨ c ∈ p.cbs := fun c hc =>
    (List.mem_or_eq_of_mem_set hc).symm
  have hm0 := mem_of_get hcb0
  refine ⟨⟨⟨h.ok.serves.e, h.ok.serves.s, h.ok.serves.idx, h.ok.serves.pos, h.ok.serves.sup, ?_, ?_, ?_, ?_⟩, h.ok.idxRoom, ?_⟩,
    ⟨⟨h.rel.inp.next, h.rel.inp.le, h.rel.inp.bytes, ?_⟩, ⟨h.rel.outp.bottom, h.rel.outp.le, h.rel.outp.bytes⟩⟩, h.shr, h.room, h.feat, h.e, h.s, h.idx, ?_, ?_⟩
  · show b.disp.size = (p.cbs.set i cb).length
    rw [List.length_set]; exact h.ok.serves.size
  · intro j c hj
    show ∃ a', (b.disp.acts.set i a)[j]? = some a' ∧ _
    have hj : (p.cbs.set i cb)[j]? = some c := hj
    by_cases hij : i = j
    · subst hij
      rw [List.getElem?_set_self hi] at hj
      cases hj
      exact ⟨a, by rw [List.getElem?_set_self hi'], ha, hsz⟩
    · rw [List.getElem?_set_ne hij] at hj ⊢
      exact h.ok.serves.act j c hj
  · intro c hc
    rcases hmem c hc with rfl | hc
    · rw [hss]; exact h.ok.serves.sig cb0 hm0
    · exact h.ok.serves.sig c hc
  · intro c hc
    rcases hmem c hc with rfl | hc
    · show WellTyped P p.s c
      rw [h.s]; exact hty
    · exact h.ok.serves.typed c hc
  · intro c hc
    rcases hmem c hc with rfl | hc
    · rw [hss]; exact h.ok.room cb0 hm0
    · exact h.ok.room c hc
  · rcases h.rel.inp.load with h1 | ⟨h1, h2, c, h3, h4⟩
    · exact Or.inl h1
    · refine Or.inr ⟨h1, h2, ?_⟩
      show ∃ c', (p.cbs.set i cb)[wireValue p.e (m.pending.take p.idxBytes)]? = some c' ∧ _
      by_cases hij : i = wireValue p.e (m.pending.take p.idxBytes)
      · rw [← hij, hcb0] at h3
        cases h3
        rw [← hij]
        exact ⟨cb, List.getElem?_set_self hi, by rw [hss]; exact h4⟩
      · exact ⟨c, by rw [List.getElem?_set_ne hij]; exact h3, h4⟩
  · show (p.cbs.set i cb).map _ = _
    rw [List.map_set, ← h.sigs]
    apply List.ext_getElem?
    intro j
    by_cases hij : i = j
    · subst hij
      rw [List.getElem?_set_self (by simpa using hi), List.getElem?_map, hcb0, Option.map_some, hss]
    · rw [List.getElem?_set_ne hij]
  · show (b.disp.acts.set i a).length = _
    rw [List.length_set]; exact h.len

theorem Tracks.same {b b' : Buf σ} {p : Proto σ} {m m' : Machine} (h : Tracks P K f shared n b p m) (hs : Same b b') (hr : Rel p b' m') :
    Tracks P K f shared n b' p m' :=
  ⟨h.ok.same hs, hr, by rw [hs.shared]; exact h.shr, by rw [hs.outLen]; exact h.room, by rw [hs.disp]; exact h.feat, h.e, h.s, h.idx, h.sigs,
    by rw [hs.disp]; exact h.len⟩

/-- Same results, and the final states are related. -/
def FollowsP (P : Platform) (K : Keyring) (f : Features) (shared : Bool) (n : Nat) {γ : Type} :
    Res (BState σ) γ → Res ((Proto σ × Machine) × σ) γ → Prop
  | .ret a (b, w), .ret a' ((p, m), w') => a = a' ∧ w = w' ∧ Tracks P K f shared n b p m
  | .threw (_, w), .threw (_, w') => w = w'
  | .fault f, .fault f' => f = f'
  | _, _ => False

/-- The undefined behaviours due to C43 and C07. -/
def Known (P : Platform) (K : Keyring) (n : Nat) (flt : Fault) : Prop :=
  (flt = .obufOverrun ∧ ¬ ∀ d ∈ K.decls, retSize d.sig.ret ≤ n) ∨ ((flt = .signedOverflow ∨ flt = .badBool) ∧ ¬ AllDecodeSafe P K)

theorem Tracks.known {b : Buf σ} {p : Proto σ} {m : Machine} (h : Tracks P K f shared n b p m) {flt : Fault} (hd : Departs P p b flt) :
    Known P K n flt := by
  have hsig : ∀ cb ∈ p.cbs, ∃ d ∈ K.decls, cb.sig = d.sig := by
    intro cb hcb
    have : cb.sig ∈ K.decls.map (·.sig) := by rw [← h.sigs]; exact List.mem_map_of_mem hcb
    obtain ⟨d, h1, h2⟩ := List.mem_map.1 this
    exact ⟨d, h1, h2.symm⟩
  rcases hd with ⟨h1, cb, h2, h3⟩ | ⟨h1, cb, h2, h3⟩
  · obtain ⟨d, hd, hs⟩ := hsig cb h2
    refine Or.inl ⟨h1, fun hall => ?_⟩
    have := hall d hd
    rw [h.room, hs] at h3
    exact Nat.not_le_of_lt h3 this
  · obtain ⟨d, hd, hs⟩ := hsig cb h2
    rw [hs, h.e, h.s] at h3
    exact Or.inr ⟨h1, fun hall => h3 (hall d hd)⟩

theorem call_follows (h : Setup P K f defs) {b : Buf σ} {p : Proto σ} {m : Machine} (ht : Tracks P K f shared n b p m) (c : Call σ)
    (hok : c.Ok P K f) (hd : shared = true → (∃ x, c = .io (.put x)) → b.isLoaded = false) (w : σ) :
    FollowsP P K f shared n (c.run P (b, w)) (c.runM ((p, m), w)) ∨ ∃ flt, c.run P (b, w) = .fault flt ∧ Known P K n flt := by
  cases c with
  | io op =>
    have hd1 : b.shared = true → (∃ x, op = .put x) → m.out = [] := by
      intro h1 ⟨x, h2⟩
      have := hd (by rw [← ht.shr]; exact h1) ⟨x, by rw [h2]⟩
      rw [unread_isLoaded ht.rel.outp] at this
      simpa using this
    rcases io_follows h.valid ht.rel ht.ok op hd1 w with h1 | ⟨flt, h1, h2⟩
    · left
      show FollowsP P K f shared n (op.run P (b, w)) (match op.runM p (m, w) with
        | .ret o (m, w) => .ret o ((p, m), w)
        | .threw (m, w) => .threw ((p, m), w)
        | .fault f => .fault f)
      revert h1
      cases op.run P (b, w) with
      | ret o t => cases op.runM p (m, w) with
        | ret o' t' => exact fun h1 => ⟨h1.1, h1.2.1, ht.same h1.2.2.2 h1.2.2.1⟩
        | threw => exact fun h => h.elim
        | fault => exact fun h => h.elim
      | threw t => cases op.runM p (m, w) with
        | ret o' t' => exact fun h => h.elim
        | threw => exact fun h => h
        | fault => exact fun h => h.elim
      | fault t => cases op.runM p (m, w) with
        | ret o' t' => exact fun h => h.elim
        | threw => exact fun h => h.elim
        | fault => exact fun h => h
    · exact Or.inr ⟨flt, h1, ht.known h2⟩
  | replace i cb =>
    obtain ⟨hf, hc⟩ := hok
    obtain ⟨⟨d, hd1, hsig⟩, _⟩ := id hc
    refine Or.inl ⟨rfl, rfl, ht.set hc (a := .stored b.disp.e b.disp.s cb) ?_ ?_⟩
    · rw [ht.ok.serves.e, ht.ok.serves.s]; exact Or.inl rfl
    · exact (C32_action_sizes (by rw [hsig]; exact h.ring.2 d (mem_of_get hd1))).1
  | replaceStatic i cb =>
    obtain ⟨⟨d, hd1, hsig⟩, _⟩ := id hok
    refine Or.inl ⟨rfl, rfl, ht.set hok (a := makeAction b.disp.features b.disp.e b.disp.s cb) ?_ ?_⟩
    · rw [ht.ok.serves.e, ht.ok.serves.s]; exact makeAction_holds _ _ _ _
    · refine makeAction_inputSize (by rw [hsig]; exact h.ring.2 d (mem_of_get hd1)) fun hf t htm => ?_
      rw [ht.feat] at hf
      rw [hsig] at htm
      exact h.sizes hf d (mem_of_get hd1) t htm
  | pyReplace k fn =>
    obtain ⟨hf, ⟨name, hk⟩, hty⟩ := hok
    obtain ⟨i, hi, hn, rfl⟩ := K.get11_cases h.ring.1 hk
    have hc : Suits P K i (⟨K.decls[i].sig, fn⟩ : Callback σ) := ⟨⟨K.decls[i], List.getElem?_eq_getElem hi, rfl⟩, hty⟩
    have hm : i % 256 ^ b.disp.idxBytes = i := by
      rw [ht.ok.serves.idx, ht.idx]
      exact Nat.mod_eq_of_lt (Nat.lt_trans hi (idxBytes_pos h.ring.1).2)
    left
    have h1 : b.pyReplace ⟨K.e, K.s, K.idxBytes, i, K.decls[i].sig⟩ fn =
        .ok { b with disp := { b.disp with acts := b.disp.acts.set i (.stored K.e K.s ⟨K.decls[i].sig, fn⟩) } } := by
      unfold Buf.pyReplace Buf.assign
      simp only [hm]
      rw [if_pos (by rw [ht.len]; exact hi)]
    have h2 : (Call.pyReplace ⟨K.e, K.s, K.idxBytes, i, K.decls[i].sig⟩ fn : Call σ).run P (b, w) = .ret .unit
        ({ b with disp := { b.disp with acts := b.disp.acts.set i (.stored K.e K.s ⟨K.decls[i].sig, fn⟩) } }, w) := by
      simp only [Call.run, h1]
    rw [h2]
    refine ⟨rfl, rfl, ht.set hc ?_ (C32_action_sizes (h.ring.2 _ (List.getElem_mem hi))).1⟩
    rw [ht.e, ht.s]; exact Or.inl rfl

theorem calls_follow (h : Setup P K f defs) : ∀ {cs : List (Call σ)} {b : Buf σ} {p : Proto σ} {m : Machine} {w : σ},
    Tracks P K f shared n b p m → (∀ c ∈ cs, c.Ok P K f) → (shared = true → DrainedCalls P cs (b, w)) →
    FollowsP P K f shared n (runAll (Call.run P) cs (b, w)) (runAll Call.runM cs ((p, m), w)) ∨
      ∃ flt, runAll (Call.run P) cs (b, w) = .fault flt ∧ Known P K n flt
  | [], b, p, m, w, ht, _, _ => Or.inl ⟨rfl, rfl, ht⟩
  | c :: cs, b, p, m, w, ht, hok, hd => by
    show FollowsP P K f shared n ((c.run P >>= fun o => runAll (Call.run P) cs >>= fun os => pure (o :: os) : Eff (BState σ) (List Obs)) (b, w))
        ((c.runM >>= fun o => runAll Call.runM cs >>= fun os => pure (o :: os) : Eff ((Proto σ × Machine) × σ) (List Obs)) ((p, m), w)) ∨
      ∃ flt, (c.run P >>= fun o => runAll (Call.run P) cs >>= fun os => pure (o :: os) : Eff (BState σ) (List Obs)) (b, w) = .fault flt ∧
        Known P K n flt
    rcases call_follows h ht c (hok c List.mem_cons_self) (fun hs hx => (hd hs).1 hx) w with h1 | ⟨flt, h1, h2⟩
    · revert h1
      cases he : c.run P (b, w) with
      | fault flt => cases hm : c.runM ((p, m), w) with
        | ret => exact fun h => h.elim
        | threw => exact fun h => h.elim
        | fault f => rw [Eff.bind_fault hm, Eff.bind_fault he]; exact fun h => Or.inl h
      | threw t => cases hm : c.runM ((p, m), w) with
        | ret => exact fun h => h.elim
        | threw t' => rw [Eff.bind_threw hm, Eff.bind_threw he]; exact fun h => Or.inl h
        | fault => exact fun h => h.elim
      | ret o t => cases hm : c.runM ((p, m), w) with
        | threw => exact fun h => h.elim
        | fault => exact fun h => h.elim
        | ret o' t' =>
          obtain ⟨b1, w1⟩ := t
          obtain ⟨⟨p1, m1⟩, w1'⟩ := t'
          rintro ⟨rfl, rfl, h1⟩
          rw [Eff.bind_ret he, Eff.bind_ret hm]
          rcases calls_follow h (cs := cs) (w := w1) h1 (fun c hc => hok c (List.mem_cons_of_mem _ hc)) (fun hs => (hd hs).2 _ _ he) with
            h3 | ⟨flt, h3, h4⟩
          · left
            revert h3
            cases hr : runAll (Call.run P) cs (b1, w1) with
            | fault flt => cases hrm : runAll Call.runM cs ((p1, m1), w1) with
              | ret => exact fun h => h.elim
              | threw => exact fun h => h.elim
              | fault f => rw [Eff.bind_fault hr, Eff.bind_fault hrm]; exact fun h => h
            | threw t => cases hrm : runAll Call.runM cs ((p1, m1), w1) with
              | ret => exact fun h => h.elim
              | threw t' => rw [Eff.bind_threw hr, Eff.bind_threw hrm]; exact fun h => h
              | fault => exact fun h => h.elim
            | ret os t => cases hrm : runAll Call.runM cs ((p1, m1), w1) with
              | threw => exact fun h => h.elim
              | fault => exact fun h => h.elim
              | ret os' t' =>
                rw [Eff.bind_ret hr, Eff.bind_ret hrm]
                obtain ⟨b2, w2⟩ := t
                obtain ⟨⟨p2, m2⟩, w2'⟩ := t'
                rintro ⟨rfl, rfl, h3⟩
                exact ⟨rfl, rfl, h3⟩
          · exact Or.inr ⟨flt, Eff.bind_fault h3, h4⟩
    · exact Or.inr ⟨flt, Eff.bind_fault h1, h2⟩

theorem reachable_tracks (h : Setting P K f defs) {b : Buf σ} {w : σ} (hr : Reachable P K f defs shared (b, w)) {l out : List Byte}
    (hp : Pending b l) (hu : Unread b out) : Tracks P K f shared (outRoom K shared) b (protoOf K defs) ⟨l, out⟩ := by
  obtain ⟨hb, hlen, hsh, out', hm⟩ := reachable_pending h hr hp
  have := unread_unique hm.outp hu
  simp only at this
  subst this
  have hdisp : b.disp = Dispatcher.make K f defs := by
    obtain ⟨sm, w0, hr⟩ := hr
    rw [(reach_inv h hr).1.disp]; exact fresh_disp _ _ _ _ _ _
  refine ⟨hb, hm, hsh, hlen, by rw [hdisp]; rfl, rfl, rfl, rfl, ?_, ?_⟩
  · simp [protoOf]
  · rw [hdisp]; simp [Dispatcher.make]

theorem FollowsP.sameOutcome {γ : Type} {r : Res (BState σ) γ} {r' : Res ((Proto σ × Machine) × σ) γ} (h : FollowsP P K f shared n r r') :
    SameOutcome r r' := by
  cases r with
  | ret a t => cases r' with
    | ret a' t' => exact ⟨h.1, h.2.1⟩
    | threw => exact h.elim
    | fault => exact h.elim
  | threw t => cases r' with
    | ret => exact h.elim
    | threw t' => exact h
    | fault => exact h.elim
  | fault => cases r' with
    | ret => exact h.elim
    | threw => exact h.elim
    | fault => exact h

/-- C59: any calls of `put`, `get`, `is_loaded` and of the `replace` functions (of the C++ and of the Python classes), in any order, from any
reachable state (possibly in the middle of a request, possibly while a response is being sent), give the same results, calls of callbacks and
exceptions as on the machine, on which a replacement changes the callback of an index and nothing else. For keyrings whose responses fit in the
output buffer (see C43) and whose parameters can be decoded (see C07); a single buffered dispatcher has to be drained before bytes are put (see
C47). -/
theorem C59_replace (h : Setting P K f defs) (ho : ResponsesFit K shared) (hs : AllDecodeSafe P K) {b : Buf σ} {w : σ}
    (hr : Reachable P K f defs shared (b, w)) {l out : List Byte} (hp : Pending b l) (hu : Unread b out) (calls : List (Call σ))
    (hok : ∀ c ∈ calls, c.Ok P K f) (hd : shared = true → DrainedCalls P calls (b, w)) :
    SameOutcome (runAll (Call.run P) calls (b, w)) (runAll Call.runM calls ((protoOf K defs, ⟨l, out⟩), w)) := by
  rcases calls_follow h.setup (reachable_tracks h hr hp hu) hok hd with h1 | ⟨flt, _, h2⟩
  · exact h1.sameOutcome
  · rcases h2 with ⟨_, h3⟩ | ⟨_, h3⟩
    · exact absurd ho h3
    · exact absurd hs h3

/-- C59, without the hypotheses on the keyring: the only departures are the undefined behaviours of C43 and C07. -/
theorem C59_departures (h : Setting P K f defs) {b : Buf σ} {w : σ} (hr : Reachable P K f defs shared (b, w)) {l out : List Byte}
    (hp : Pending b l) (hu : Unread b out) (calls : List (Call σ)) (hok : ∀ c ∈ calls, c.Ok P K f)
    (hd : shared = true → DrainedCalls P calls (b, w)) :
    SameOutcome (runAll (Call.run P) calls (b, w)) (runAll Call.runM calls ((protoOf K defs, ⟨l, out⟩), w)) ∨
      (runAll (Call.run P) calls (b, w) = .fault .obufOverrun ∧ ¬ ResponsesFit K shared) ∨
      ((runAll (Call.run P) calls (b, w) = .fault .signedOverflow ∨ runAll (Call.run P) calls (b, w) = .fault .badBool) ∧ ¬ AllDecodeSafe P K) := by
  rcases calls_follow h.setup (reachable_tracks h hr hp hu) hok hd with h1 | ⟨flt, he, h2⟩
  · exact Or.inl h1.sameOutcome
  · rcases h2 with ⟨rfl, h3⟩ | ⟨rfl | rfl, h3⟩
    · exact Or.inr (Or.inl ⟨he, h3⟩)
    · exact Or.inr (Or.inr ⟨Or.inl he, h3⟩)
    · exact Or.inr (Or.inr ⟨Or.inr he, h3⟩)

/-- C59: after the replacement of the callback of index `i` in the middle of a request for it, the last byte of the request makes the new callback
be called on the arguments, and the response is what it returns. -/
theorem C59_midway (h : Setting P K f defs) {b : Buf σ} {w : σ} (hr : Reachable P K f defs shared (b, w)) {i : Nat} {cb : Callback σ}
    (hc : Suits P K i cb) (ho : retSize cb.sig.ret ≤ outRoom K shared) {args : List Val} (hf : Val.FitsAll (Safe P K.s) cb.sig.params args)
    {l : List Byte} {x : Byte} (hl : request K.e K.s K.idxBytes i cb.sig.params args = l ++ [x]) (hp : Pending b l) :
    match cb.fn args w with
    | .ret r w' => ∃ b', runAll (Call.run P) [.replaceStatic i cb, .io (.put x)] (b, w) = .ret [.unit, .status .resolved] (b', w') ∧
        Pending b' [] ∧ Unread b' (response K.e K.s cb.sig.ret r)
    | .threw w' => ∃ b', runAll (Call.run P) [.replaceStatic i cb, .io (.put x)] (b, w) = .threw (b', w')
    | .fault f => runAll (Call.run P) [.replaceStatic i cb, .io (.put x)] (b, w) = .fault f := by
  obtain ⟨_, _, _, out, hm⟩ := reachable_pending h hr hp
  have ht0 := reachable_tracks h hr hp hm.outp
  have ht : Tracks P K f shared (outRoom K shared) (b.replaceStatic i cb) ((protoOf K defs).replace i cb) ⟨l, out⟩ := by
    rcases call_follows h.setup ht0 (.replaceStatic i cb) hc (fun _ ⟨x, hx⟩ => by cases hx) w with ⟨_, _, ht⟩ | ⟨_, he, _⟩
    · exact ht
    · cases he
  obtain ⟨⟨d, hd, hsig⟩, hty⟩ := hc
  obtain ⟨cb0, hcb0, _⟩ := ht0.sig_at hd
  have hi := (List.getElem?_eq_some_iff.1 hd).1
  have hat : ((protoOf K defs).replace i cb).cbs[i]? = some cb := List.getElem?_set_self (List.getElem?_eq_some_iff.1 hcb0).1
  have hg := ht.ok.serves.sig _ (mem_of_get hat)
  have hv : wireValue K.e (wireBytes K.e K.idxBytes i) = i := wireValue_wireBytes (Nat.lt_trans hi (idxBytes_pos h.ring.1).2)
  have hcl : ((protoOf K defs).replace i cb).classify (l ++ [x]) = .request cb (wires K.e K.s cb.sig.params args) := by
    rw [← hl]
    refine classify_call (wireBytes_length _ _ _) ?_ (wires_length hg.2.1 hf)
    show ((protoOf K defs).replace i cb).cbs[wireValue K.e (wireBytes K.e K.idxBytes i)]? = some cb
    rw [hv]; exact hat
  have hdec : Decodes P ((protoOf K defs).replace i cb) cb (wires K.e K.s cb.sig.params args) :=
    decodes_args h.valid ht.ok.serves.sup hg hf
  have hun : unwires ((protoOf K defs).replace i cb).e ((protoOf K defs).replace i cb).s cb.sig.params
      (wires K.e K.s cb.sig.params args) = args := unwires_wires h.valid h.sup hg.1 hg.2.1 hf
  have key : ∀ {r : Res (BState σ) Status}, Buf.put P x (b.replaceStatic i cb, w) = r →
      runAll (Call.run P) [.replaceStatic i cb, .io (.put x)] (b, w) =
        match r with
        | .ret st t => .ret [.unit, .status st] t
        | .threw t => .threw t
        | .fault f => .fault f := by
    intro r hr
    have h0 : (Call.replaceStatic i cb).run P (b, w) = .ret .unit (b.replaceStatic i cb, w) := rfl
    refine (Eff.bind_ret h0).trans ?_
    cases r with
    | ret st t =>
      have h1 : (Call.io (σ := σ) (.put x)).run P (b.replaceStatic i cb, w) = .ret (.status st) t := Eff.bind_ret hr
      have h2 : runAll (Call.run P) [.io (.put x)] (b.replaceStatic i cb, w) = .ret [.status st] t := (Eff.bind_ret h1).trans rfl
      exact (Eff.bind_ret h2).trans rfl
    | threw t =>
      have h1 : (Call.io (σ := σ) (.put x)).run P (b.replaceStatic i cb, w) = .threw t := Eff.bind_threw hr
      have h2 : runAll (Call.run P) [.io (.put x)] (b.replaceStatic i cb, w) = .threw t := Eff.bind_threw h1
      exact Eff.bind_threw h2
    | fault f =>
      have h1 : (Call.io (σ := σ) (.put x)).run P (b.replaceStatic i cb, w) = .fault f := Eff.bind_fault hr
      have h2 : runAll (Call.run P) [.io (.put x)] (b.replaceStatic i cb, w) = .fault f := Eff.bind_fault h1
      exact Eff.bind_fault h2
  obtain ⟨b', h5, h6⟩ := put_request_eq h.valid ht.rel.inp ht.ok hcl hdec w
  simp only [hun] at h6
  cases hfn : cb.fn args w with
  | fault f => rw [hfn] at h6; exact key h6
  | threw w' => rw [hfn] at h6; exact ⟨_, key h6⟩
  | ret r w' =>
    rw [hfn] at h6
    have hfit : (response K.e K.s cb.sig.ret r).length ≤ b'.out.length := by
      rw [response_length hg (hty _ _ _ _ hf hfn), h5.outLen, ht.room]; exact ho
    simp only at h6
    exact ⟨_, key (h6.trans (if_pos hfit)), pending_relIn (finish_relIn ht.ok.serves.pos), finish_unread hfit⟩

/-- `replace` of the Python class does not check the key: the key of another keyring may replace the callback by one whose parameters do not fit in
the input buffer, which is then overrun; or, if its index is too large, an action is written past the end of the array. -/
theorem C59_foreign_keys : ∃ (K K' : Keyring) (k k' : Key) (name name' : Nat) (fn : List Val → Eff Unit (Option Val)) (x y z : Byte),
    Setting pc K .any widenDefs ∧ KeyringOk K' ∧ K'.get11 name = some k ∧ K'.get11 name' = some k' ∧
      runAll (Call.run pc) [.pyReplace k fn, .io (.put x), .io (.put y), .io (.put z)] (fresh pc K .any widenDefs 255 false, ()) = .fault .ibufOverrun ∧
      runAll (Call.run pc) [.pyReplace k' fn] (fresh pc K .any widenDefs 255 false, ()) = .fault .oobWrite :=
  ⟨widenRing, ledRing, ⟨.little, .twosComplement, 1, 0, ⟨[.uint 2, .uint 1], some (.uint 2)⟩⟩, ⟨.little, .twosComplement, 1, 1, ⟨[], none⟩⟩, 1, 2,
    fun _ w => .ret none w, 0#8, 0#8, 0#8, widen_setting .any, ledRing_ok, rfl, rfl, rfl, rfl⟩

/-- New definition of `add`: subtraction. -/
def subCb : Callback (List Byte × List (List Val) × List Byte) :=
  ⟨⟨[.uint 2, .uint 1], some (.uint 2)⟩, fun args w =>
    match args with
    | [.int x, .int y] => .ret (some (.int ((x - y) % 65536))) (w.1, w.2.1 ++ [.int 7 :: args], w.2.2)
    | _ => .ret none w⟩

theorem subCb_suits : Suits pc ledRing 0 subCb := by
  refine ⟨⟨_, rfl, rfl⟩, ?_⟩
  intro args w r w' hf h
  match args, hf with
  | [.int x, .int y], _ =>
    simp only [subCb] at h
    injection h with h1 _
    subst h1
    simp only [subCb, RetOk, Val.Fits]
    omega

example (f : Features) (w : _) (x y : Byte) :
    SameOutcome (runAll (Call.run pc) [.io (.put 0#8), .io (.put x), .replaceStatic 0 subCb, .io (.put 0#8), .io (.put y), .io .get]
        (fresh pc ledRing f ledDefs (2 ^ 64 - 1) false, w))
      (runAll Call.runM [.io (.put 0#8), .io (.put x), .replaceStatic 0 subCb, .io (.put 0#8), .io (.put y), .io .get]
        ((protoOf ledRing ledDefs, ⟨[], []⟩), w)) :=
  C59_replace (led_setting f) (led_fit false) led_decode (led_start f false w) (fresh_pending _ _ _ _ _ _) (fresh_rel (led_setting f) _ _).outp _
    (by
      intro c hc
      simp only [List.mem_cons, List.not_mem_nil, or_false] at hc
      rcases hc with rfl | rfl | rfl | rfl | rfl | rfl
      all_goals first | exact subCb_suits | trivial) (fun h => by cases h)

example (k : Key) (hk : ledRing.get11 1 = some k) : (Call.pyReplace k subCb.fn).Ok pc ledRing .any :=
  ⟨rfl, ⟨1, hk⟩, by cases (Option.some.inj (hk.symm.trans (rfl : ledRing.get11 1 = some ⟨.little, .twosComplement, 1, 0, subCb.sig⟩))); exact subCb_suits.2⟩

/-- `add(300, 7)`, the callback of which becomes the subtraction before the last byte: the response is 293. -/
example : ∃ b b' : Buf (List Byte × List (List Val) × List Byte), Pending b [0#8, 0x2c#8, 0x01#8] ∧
    runAll (Call.run pc) [.replaceStatic 0 subCb, .io (.put 7#8)] (b, ([], [], [])) =
      .ret [.unit, .status .resolved] (b', ([], [[.int 7, .int 300, .int 7]], [])) ∧ Pending b' [] ∧ Unread b' [0x25#8, 0x01#8] := by
  obtain ⟨b, h1, h2⟩ := led_mid true
  have := C59_midway (led_setting .any) h1 subCb_suits (by decide) (args := [.int 300, .int 7]) (by simp [subCb, Val.FitsAll, Val.Fits])
    (l := [0#8, 0x2c#8, 0x01#8]) (x := 7#8) rfl h2
  exact ⟨b, _, h2, this.choose_spec⟩

example (w : _) (calls : List (Call _)) (hok : ∀ c ∈ calls, c.Ok pc ledRing .any) :
    SameOutcome (runAll (Call.run pc) calls (fresh pc ledRing .any ledDefs (2 ^ 64 - 1) false, w))
      (runAll Call.runM calls ((protoOf ledRing ledDefs, ⟨[], []⟩), w)) := by
  rcases C59_departures (led_setting .any) (led_start .any false w) (fresh_pending _ _ _ _ _ _) (fresh_rel (led_setting .any) _ _).outp calls hok
    (fun h => by cases h) with h | ⟨_, h⟩ | ⟨_, h⟩
  · exact h
  · exact (h (led_fit false)).elim
  · exact (h led_decode).elim

end Upd
