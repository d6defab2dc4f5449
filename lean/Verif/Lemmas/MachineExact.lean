import Verif.Lemmas.Faults
import Verif.Props.BufferedMachine

/-! Helper lemmas: interleavings of `put` and `get`, exactly. -/

namespace Upd
open Spec TypeList

variable {σ : Type}

theorem Follows.bind {p : Proto σ} {b : Buf σ} {m : Machine} {w : σ} {α γ : Type} {f : Eff (BState σ) α} {g : Eff (Machine × σ) α}
    {k : α → Eff (BState σ) γ} {l : α → Eff (Machine × σ) γ} (h : Follows p b (f (b, w)) (g (m, w)))
    (hk : ∀ a b' m' w', f (b, w) = .ret a (b', w') → Rel p b' m' → Same b b' → Follows p b' (k a (b', w')) (l a (m', w'))) :
    Follows p b ((f >>= k) (b, w)) ((g >>= l) (m, w)) := by
  cases hf : f (b, w) with
  | fault e =>
    cases hg : g (m, w) with
    | fault e' => rw [hf, hg] at h; rw [Eff.bind_fault hf, Eff.bind_fault hg]; exact h
    | threw t => rw [hf, hg] at h; exact h.elim
    | ret a t => rw [hf, hg] at h; exact h.elim
  | threw t =>
    cases hg : g (m, w) with
    | fault e' => rw [hf, hg] at h; exact h.elim
    | threw t' => rw [hf, hg] at h; rw [Eff.bind_threw hf, Eff.bind_threw hg]; exact h
    | ret a t => rw [hf, hg] at h; exact h.elim
  | ret a t =>
    obtain ⟨b', w'⟩ := t
    cases hg : g (m, w) with
    | fault e' => rw [hf, hg] at h; exact h.elim
    | threw t' => rw [hf, hg] at h; exact h.elim
    | ret a' t' =>
      obtain ⟨m', w''⟩ := t'
      rw [hf, hg] at h
      obtain ⟨rfl, rfl, h1, h2⟩ := h
      rw [Eff.bind_ret hf, Eff.bind_ret hg]
      have := hk _ _ _ _ hf h1 h2
      revert this
      cases k a (b', w') with
      | fault e => cases l a (m', w') <;> exact id
      | threw t => cases l a (m', w') <;> exact id
      | ret c t =>
        cases l a (m', w') with
        | fault e => exact id
        | threw t => exact id
        | ret c' t' => rintro ⟨h3, h4, h5, h6⟩; exact ⟨h3, h4, h5, h2.trans h6⟩

/-- A byte, whatever it is and whatever the callback returns. -/
theorem put_exact {P : Platform} (hP : P.Valid) {p : Proto σ} {b : Buf σ} {m : Machine} (h : Rel p b m) (hb : BufOk P p b)
    (hd : b.shared = true → m.out = []) (x : Byte) (w : σ) :
    Follows p b (Buf.put P x (b, w)) (Machine.putExact P p b.out.length x (m, w)) := by
  unfold Machine.putExact
  simp only
  cases hcl : p.classify (m.pending ++ [x]) with
  | more =>
    rcases put_cases hP h.inp hb x w with ⟨_, b1, h1, h2, h3, h4⟩ | ⟨h0, _⟩ | ⟨_, _, h0, _⟩
    · unfold Machine.put; simp only [hcl]; rw [h1]; exact ⟨rfl, rfl, ⟨h2, unread_keep h.outp h3 h4 hd⟩, h3⟩
    · rw [hcl] at h0; cases h0
    · rw [hcl] at h0; cases h0
  | bad =>
    rcases put_cases hP h.inp hb x w with ⟨h0, _⟩ | ⟨_, b1, h1, h2, h3, h4⟩ | ⟨_, _, h0, _⟩
    · rw [hcl] at h0; cases h0
    · unfold Machine.put; simp only [hcl]; rw [h1]; exact ⟨rfl, rfl, ⟨h2, unread_keep h.outp h3 h4 hd⟩, h3⟩
    · rw [hcl] at h0; cases h0
  | request cb args =>
    rcases put_cases hP h.inp hb x w with ⟨h0, _⟩ | ⟨h0, _⟩ | ⟨cb', args', h0, hm, hl, h1⟩
    · rw [hcl] at h0; cases h0
    · rw [hcl] at h0; cases h0
    rw [hcl] at h0
    injection h0 with e1 e2
    subst e1 e2
    have hg := hb.serves.sig cb hm
    have hx := readAll_exact hP hb.serves.sup cb.sig.params args 0 hg.1 hg.2.1 (by omega)
    rw [slice_all hl] at hx
    rcases h1 with ⟨hdec, h1⟩ | ⟨f, _, hdec, h1⟩
    · cases hu : undecodables P p.e p.s cb.sig.params args with
      | some f => rw [hu, hdec.1] at hx; cases hx
      | none =>
        rcases h1 with ⟨r, w', hfn, hr, h1⟩ | ⟨w', b', hfn, h1⟩ | ⟨f, hfn, h1⟩
        · simp only [hu, hfn]
          obtain ⟨b2, h7, h8⟩ := put_request_eq hP h.inp hb hcl hdec w
          rw [hfn] at h8
          simp only [response_length hg hr, h7.outLen] at h8
          rcases h1 with ⟨b1, h1, h2, h4, h3⟩ | ⟨h2, h1⟩
          · rw [if_neg ?_, h1]
            · exact ⟨rfl, rfl, ⟨h2, h4⟩, h3⟩
            · intro hlt
              rw [if_neg (by omega), h1] at h8
              cases h8
          · rw [if_pos h2, h1]
            exact rfl
        · simp only [hu, hfn]; rw [h1]; exact rfl
        · simp only [hu, hfn]; rw [h1]; exact rfl
    · cases hu : undecodables P p.e p.s cb.sig.params args with
      | some f' =>
        rw [hu, hdec] at hx
        injection hx with hx
        subst hx
        simp only [hu]
        rw [h1]
        exact rfl
      | none => rw [hu, hdec] at hx; cases hx

theorem io_exact {P : Platform} (hP : P.Valid) {p : Proto σ} {b : Buf σ} {m : Machine} (h : Rel p b m) (hb : BufOk P p b)
    (op : Io) (hd : b.shared = true → (∃ x, op = .put x) → m.out = []) (w : σ) :
    Follows p b (op.run P (b, w)) (op.runExact P p b.out.length (m, w)) := by
  cases op with
  | put x =>
    refine Follows.bind (f := Buf.put P x) (g := Machine.putExact P p b.out.length x) (put_exact hP h hb (fun h => hd h ⟨x, rfl⟩) x w) ?_
    intro a b' m' w' _ hr _
    exact ⟨rfl, rfl, hr, Same.refl _⟩
  | get =>
    rcases io_follows hP h hb .get (fun _ h => by obtain ⟨_, h⟩ := h; cases h) w with h1 | ⟨f, h1, _⟩
    · exact h1
    · obtain ⟨l, out⟩ := m
      cases out with
      | nil => rw [show Io.run P .get (b, w) = _ from Eff.bind_ret (get_empty h.outp w)] at h1; cases h1
      | cons y out =>
        obtain ⟨b', h2, _⟩ := get_cons h.outp w
        rw [show Io.run P .get (b, w) = _ from Eff.bind_ret h2] at h1; cases h1
  | isLoaded =>
    rcases io_follows hP h hb .isLoaded (fun _ h => by obtain ⟨_, h⟩ := h; cases h) w with h1 | ⟨f, h1, _⟩
    · exact h1
    · cases h1

/-- Any calls. A single buffered dispatcher has to be drained before bytes are put. -/
theorem runAll_exact {P : Platform} (hP : P.Valid) {p : Proto σ} {room : Nat} : ∀ {ops : List Io} {b : Buf σ} {m : Machine} {w : σ},
    Rel p b m → BufOk P p b → b.out.length = room → (b.shared = true → Drained P ops (b, w)) →
    Follows p b (runAll (Io.run P) ops (b, w)) (runAll (Io.runExact P p room) ops (m, w))
  | [], b, m, w, h, _, _, _ => ⟨rfl, rfl, h, Same.refl b⟩
  | op :: ops, b, m, w, h, hb, hlen, hd => by
    have hd1 : b.shared = true → (∃ x, op = .put x) → m.out = [] := by
      intro h1 h2
      have := (hd h1).1 h2
      rw [unread_isLoaded h.outp] at this
      simpa using this
    have h0 := io_exact hP h hb op hd1 w
    rw [hlen] at h0
    refine Follows.bind (f := op.run P) (g := op.runExact P p room) h0 ?_
    intro a b' m' w' he hr hs
    refine Follows.bind (f := runAll (Io.run P) ops) (g := runAll (Io.runExact P p room) ops)
      (runAll_exact hP hr (hb.same hs) (hs.outLen.trans hlen) fun h3 => (hd (by rw [← hs.shared]; exact h3)).2 _ _ he) ?_
    intro a b'' m'' w'' _ hr' _
    exact ⟨rfl, rfl, hr', Same.refl _⟩

/-- More room makes no difference, unless there is too little. -/
theorem runExact_room {P : Platform} {p : Proto σ} {r1 r2 : Nat} (hle : r2 ≤ r1) : ∀ {ops : List Io} {st : Machine × σ},
    runAll (Io.runExact P p r1) ops st = runAll (Io.runExact P p r2) ops st ∨
      (runAll (Io.runExact P p r2) ops st = .fault .obufOverrun ∧ ∃ cb ∈ p.cbs, r2 < retSize cb.sig.ret)
  | [], st => .inl rfl
  | op :: ops, st => by
    have hop : Io.runExact P p r1 op st = Io.runExact P p r2 op st ∨
        (Io.runExact P p r2 op st = .fault .obufOverrun ∧ ∃ cb ∈ p.cbs, r2 < retSize cb.sig.ret) := by
      cases op with
      | get => exact .inl rfl
      | isLoaded => exact .inl rfl
      | put x =>
        have : Machine.putExact P p r1 x st = Machine.putExact P p r2 x st ∨
            (Machine.putExact P p r2 x st = .fault .obufOverrun ∧ ∃ cb ∈ p.cbs, r2 < retSize cb.sig.ret) := by
          unfold Machine.putExact
          cases hcl : p.classify (st.1.pending ++ [x]) with
          | more => exact .inl rfl
          | bad => exact .inl rfl
          | request cb args =>
            simp only
            cases undecodables P p.e p.s cb.sig.params args with
            | some f => exact .inl rfl
            | none =>
              cases cb.fn (unwires p.e p.s cb.sig.params args) st.2 with
              | threw w => exact .inl rfl
              | fault f => exact .inl rfl
              | ret r w =>
                simp only
                by_cases h2 : r2 < retSize cb.sig.ret
                · refine .inr ⟨if_pos h2, cb, ?_, h2⟩
                  unfold Proto.classify at hcl
                  split at hcl
                  · cases hcl
                  · split at hcl
                    · cases hcl
                    · rename_i heq
                      split at hcl
                      · cases hcl
                      · injection hcl with e _
                        subst e
                        exact mem_of_get heq
                · rw [if_neg h2, if_neg (by omega)]
                  exact .inl rfl
        show (Machine.putExact P p r1 x >>= fun s => pure (Obs.status s)) st = (Machine.putExact P p r2 x >>= fun s => pure (Obs.status s)) st ∨
          ((Machine.putExact P p r2 x >>= fun s => pure (Obs.status s)) st = .fault .obufOverrun ∧ _)
        rcases this with h | ⟨h, h'⟩
        · left
          cases hx : Machine.putExact P p r2 x st with
          | fault e => rw [Eff.bind_fault hx, Eff.bind_fault (h.trans hx)]
          | threw t => rw [Eff.bind_threw hx, Eff.bind_threw (h.trans hx)]
          | ret a t => rw [Eff.bind_ret hx, Eff.bind_ret (h.trans hx)]
        · exact .inr ⟨Eff.bind_fault h, h'⟩
    have e : ∀ r, runAll (Io.runExact P p r) (op :: ops) =
      (Io.runExact P p r op >>= fun o => runAll (Io.runExact P p r) ops >>= fun os => pure (o :: os)) := fun _ => rfl
    rw [e, e]
    rcases hop with h | ⟨h, h'⟩
    · cases hx : Io.runExact P p r2 op st with
      | fault f => rw [Eff.bind_fault hx, Eff.bind_fault (h.trans hx)]; exact .inl rfl
      | threw t => rw [Eff.bind_threw hx, Eff.bind_threw (h.trans hx)]; exact .inl rfl
      | ret a t =>
        rw [Eff.bind_ret hx, Eff.bind_ret (h.trans hx)]
        rcases runExact_room hle (ops := ops) (st := t) with h | ⟨h, h'⟩
        · left
          cases hy : runAll (Io.runExact P p r2) ops t with
          | fault e => rw [Eff.bind_fault hy, Eff.bind_fault (h.trans hy)]
          | threw t => rw [Eff.bind_threw hy, Eff.bind_threw (h.trans hy)]
          | ret a t => rw [Eff.bind_ret hy, Eff.bind_ret (h.trans hy)]
        · exact .inr ⟨Eff.bind_fault h, h'⟩
    · exact .inr ⟨Eff.bind_fault h, h'⟩

end Upd
