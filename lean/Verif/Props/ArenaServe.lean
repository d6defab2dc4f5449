import Verif.Model.ArenaServe
import Verif.Props.Arena
import Verif.Props.Interchange

/-!
# Buffers anywhere in an array: whole packets (C116)
-/

namespace Upd
open Spec TypeList

variable {σ : Type} {P : Platform} {K : Keyring} {f : Features} {defs : Nat → List Val → Eff σ (Option Val)} {i n o m : Nat} {mem0 : Mem} {p : Proto σ}

/-- As `AlikeAt`; the relation between the final states depends on what is returned. -/
def AlikeV {τ τ' α : Type} (R : α → τ → τ' → Prop) (T : τ → τ' → Prop) : Res τ α → Res τ' α → Prop
  | .ret a s, y => ∃ t, y = .ret a t ∧ R a s t
  | .threw s, y => ∃ t, y = .threw t ∧ T s t
  | .fault _, _ => True

theorem AlikeV.bind {τ τ' α β : Type} {R1 : α → τ → τ' → Prop} {R : β → τ → τ' → Prop} {T : τ → τ' → Prop} {x : Eff τ α} {y : Eff τ' α} {f : α → Eff τ β}
    {g : α → Eff τ' β} {s : τ} {t : τ'} (h : AlikeV R1 T (x s) (y t)) (hf : ∀ a s t, R1 a s t → AlikeV R T (f a s) (g a t)) :
    AlikeV R T ((x >>= f) s) ((y >>= g) t) := by
  cases hx : x s with
  | fault e => rw [Eff.bind_fault hx]; trivial
  | threw s' =>
    rw [hx] at h
    obtain ⟨t', h1, h2⟩ := h
    rw [Eff.bind_threw hx, Eff.bind_threw h1]
    exact ⟨t', rfl, h2⟩
  | ret a s' =>
    rw [hx] at h
    obtain ⟨t', h1, h2⟩ := h
    rw [Eff.bind_ret hx, Eff.bind_ret h1]
    exact hf a s' t' h2

/-- Both dispatchers follow the same machine. -/
structure ArenaBoth (P : Platform) (K : Keyring) (f : Features) (i n o m : Nat) (mem0 : Mem) (p : Proto σ) (mch : Machine) (s : BState σ) (t : Arena σ × σ) :
    Prop where
  buf : Upd.Tracks P K f false m s.1 p mch
  arena : t.1.Tracks P K f i n o m mem0 p mch
  world : s.2 = t.2

/-- While a packet is being read. -/
def ArenaInv (P : Platform) (K : Keyring) (f : Features) (i n o m : Nat) (mem0 : Mem) (p : Proto σ) (status : Status) (s : BState σ) (t : Arena σ × σ) : Prop :=
  ∃ mch, ArenaBoth P K f i n o m mem0 p mch s t ∧
    ((status = .loading ∧ mch.out = []) ∨ (status ≠ .loading ∧ mch.pending = [] ∧ (status = .dropped → mch.out = [])))

theorem ArenaBoth.indexLoaded {mch : Machine} {s : BState σ} {t : Arena σ × σ} (h : ArenaBoth P K f i n o m mem0 p mch s t) :
    s.1.indexLoaded = t.1.indexLoaded ∧ (mch.pending = [] → s.1.indexLoaded = false) := by
  have h1 := h.buf.rel.inp.load
  have h2 : _ ∨ (_ ∧ t.1.indexLoaded = true ∧ _) := h.arena.tracks.rel.inp.load
  have hpos := h.buf.ok.serves.pos
  constructor
  · rcases h1 with h1 | h1 <;> rcases h2 with h2 | h2
    · exact h1.2.1.trans (Eq.symm h2.2.1)
    · omega
    · omega
    · exact h1.2.1.trans h2.2.1.symm
  · intro hp
    rcases h1 with h1 | h1
    · exact h1.2.1
    · rw [hp] at h1
      have := h1.1
      simp at this
      omega

theorem ArenaBoth.isLoaded {mch : Machine} {s : BState σ} {t : Arena σ × σ} (h : ArenaBoth P K f i n o m mem0 p mch s t) :
    s.1.isLoaded = mch.isLoaded ∧ t.1.isLoaded = mch.isLoaded := ⟨unread_isLoaded h.buf.rel.outp, h.arena.isLoaded⟩

theorem both_call (h : Setup P K f defs) (hs : AllDecodeSafe P K) (ho : ResponsesWithin K m) {mch : Machine} {b : Buf σ} {a : Arena σ} {w : σ}
    (hb : ArenaBoth P K f i n o m mem0 p mch (b, w) (a, w)) (op : Io) (hd : (∃ x, op = .put x) → mch.out = []) :
    match op.runM p (mch, w) with
    | .ret r (mch', w') => ∃ b' a', op.run P (b, w) = .ret r (b', w') ∧ Call.runAt P (.io op) (a, w) = .ret r (a', w') ∧
        ArenaBoth P K f i n o m mem0 p mch' (b', w') (a', w')
    | .threw (_, w') => ∃ b' a', op.run P (b, w) = .threw (b', w') ∧ Call.runAt P (.io op) (a, w) = .threw (a', w')
    | .fault g => op.run P (b, w) = .fault g := by
  have h1 := arena_call h hs ho hb.arena (.io op) trivial
    (fun _ ⟨x, hx⟩ => by rw [hb.isLoaded.2, Machine.isLoaded, hd ⟨x, by cases hx; rfl⟩]; rfl) w
  have h2 := call_follows h hb.buf (.io op) trivial (fun h => by cases h) w
  rcases h2 with h2 | ⟨flt, _, h3⟩
  · revert h1 h2
    unfold Call.runM
    show _ → FollowsP P K f false m (op.run P (b, w)) _ → _
    dsimp only
    cases op.runM p (mch, w) with
    | fault g =>
      cases op.run P (b, w) with
      | fault g' => rintro _ rfl; rfl
      | ret r s => exact fun _ h => h.elim
      | threw s => exact fun _ h => h.elim
    | threw s1 =>
      obtain ⟨m1, w1⟩ := s1
      cases op.run P (b, w) with
      | fault g' => exact fun _ h => h.elim
      | ret r s => exact fun _ h => h.elim
      | threw s =>
        rintro ⟨a', h1⟩ h2
        cases h2
        exact ⟨s.1, a', rfl, h1⟩
    | ret r1 s1 =>
      obtain ⟨m1, w1⟩ := s1
      cases op.run P (b, w) with
      | fault g' => exact fun _ h => h.elim
      | threw s => exact fun _ h => h.elim
      | ret r s =>
        obtain ⟨b', w2⟩ := s
        rintro ⟨a', h1, h3⟩ ⟨h4, h5, h6⟩
        cases h4
        cases h5
        exact ⟨b', a', rfl, h1, h6, h3, rfl⟩
  · rcases h3 with ⟨_, h3⟩ | ⟨_, h3⟩
    · exact absurd ho h3
    · exact absurd hs h3

theorem machine_put_inv {mch mch' : Machine} {w w' : σ} {x : Byte} {st : Status} (ho : mch.out = []) (h : Machine.put p x (mch, w) = .ret st (mch', w')) :
    (st = .loading ∧ mch'.out = []) ∨ (st ≠ .loading ∧ mch'.pending = [] ∧ (st = .dropped → mch'.out = [])) := by
  unfold Machine.put at h
  dsimp only at h
  split at h
  · cases h; exact Or.inl ⟨rfl, ho⟩
  · cases h; exact Or.inr ⟨by simp, rfl, fun _ => ho⟩
  · split at h
    · cases h; exact Or.inr ⟨by simp, rfl, fun h => by cases h⟩
    · cases h
    · cases h

theorem put_arenaInv (h : Setup P K f defs) (hs : AllDecodeSafe P K) (ho : ResponsesWithin K m) (x : Byte) {s : BState σ} {t : Arena σ × σ}
    (hi : ArenaInv P K f i n o m mem0 p .loading s t) : AlikeV (ArenaInv P K f i n o m mem0 p) SameWorld (Buf.put P x s) (Arena.put P x t) := by
  obtain ⟨b, w⟩ := s
  obtain ⟨a, w'⟩ := t
  obtain ⟨mch, hb, hd⟩ := hi
  have hw : w = w' := hb.world
  subst hw
  have hout : mch.out = [] := by
    rcases hd with hd | hd
    · exact hd.2
    · exact absurd rfl hd.1
  have h1 := both_call h hs ho hb (.put x) fun _ => hout
  have hrun : Io.run P (.put x) (b, w) = (Buf.put P x >>= fun st => pure (.status st)) (b, w) := rfl
  have hat : Call.runAt P (.io (.put x)) (a, w) = (Arena.put P x >>= fun st => pure (.status st)) (a, w) := rfl
  have hm : Io.runM p (.put x) (mch, w) = (Machine.put p x >>= fun st => pure (.status st)) (mch, w) := rfl
  rw [hrun, hat, hm] at h1
  cases hp : Machine.put p x (mch, w) with
  | fault g =>
    rw [Eff.bind_fault hp] at h1
    cases hq : Buf.put P x (b, w) with
    | fault g' => trivial
    | ret r s => rw [Eff.bind_ret hq] at h1; cases h1
    | threw s => rw [Eff.bind_threw hq] at h1; cases h1
  | threw s1 =>
    obtain ⟨m1, w1⟩ := s1
    rw [Eff.bind_threw hp] at h1
    obtain ⟨b', a', h2, h3⟩ := h1
    cases hq : Buf.put P x (b, w) with
    | fault g' => trivial
    | ret r s => rw [Eff.bind_ret hq] at h2; cases h2
    | threw s =>
      rw [Eff.bind_threw hq] at h2
      cases h2
      cases hq' : Arena.put P x (a, w) with
      | fault g' => rw [Eff.bind_fault hq'] at h3; cases h3
      | ret r s => rw [Eff.bind_ret hq'] at h3; cases h3
      | threw s => rw [Eff.bind_threw hq'] at h3; cases h3; exact ⟨_, rfl, rfl⟩
  | ret st s1 =>
    obtain ⟨m1, w1⟩ := s1
    rw [Eff.bind_ret hp] at h1
    obtain ⟨b', a', h2, h3, h4⟩ := h1
    cases hq : Buf.put P x (b, w) with
    | fault g' => trivial
    | threw s => rw [Eff.bind_threw hq] at h2; cases h2
    | ret r s =>
      rw [Eff.bind_ret hq] at h2
      cases h2
      cases hq' : Arena.put P x (a, w) with
      | fault g' => rw [Eff.bind_fault hq'] at h3; cases h3
      | threw s => rw [Eff.bind_threw hq'] at h3; cases h3
      | ret r s => rw [Eff.bind_ret hq'] at h3; cases h3; exact ⟨_, rfl, m1, h4, machine_put_inv hout hp⟩

theorem get_arenaBoth (h : Setup P K f defs) (hs : AllDecodeSafe P K) (ho : ResponsesWithin K m) {mch : Machine} {s : BState σ} {t : Arena σ × σ}
    (hb : ArenaBoth P K f i n o m mem0 p mch s t) (hp : mch.pending = []) :
    AlikeV (fun _ s t => ∃ mch, ArenaBoth P K f i n o m mem0 p mch s t ∧ mch.pending = []) SameWorld (Buf.get s) (Arena.get t) := by
  obtain ⟨b, w⟩ := s
  obtain ⟨a, w'⟩ := t
  have hw : w = w' := hb.world
  subst hw
  have h1 := both_call h hs ho hb .get fun ⟨x, hx⟩ => by cases hx
  have hrun : Io.run P .get (b, w) = (Buf.get >>= fun x => pure (.byte x)) (b, w) := rfl
  have hat : Call.runAt P (.io .get) (a, w) = (Arena.get >>= fun x => pure (.byte x)) (a, w) := rfl
  have hm : Io.runM p .get (mch, w) = (Machine.get >>= fun x => pure (.byte x)) (mch, w) := rfl
  rw [hrun, hat, hm] at h1
  obtain ⟨y, m1, hg, hp1⟩ : ∃ y m1, (Machine.get (mch, w) : Res (Machine × σ) Byte) = .ret y (m1, w) ∧ m1.pending = [] := by
    unfold Machine.get
    dsimp only
    split
    · exact ⟨_, _, rfl, hp⟩
    · exact ⟨_, _, rfl, hp⟩
  rw [Eff.bind_ret hg] at h1
  obtain ⟨b', a', h2, h3, h4⟩ := h1
  cases hq : (Buf.get (b, w) : Res (BState σ) Byte) with
  | fault g' => trivial
  | threw s => rw [Eff.bind_threw hq] at h2; cases h2
  | ret r s =>
    rw [Eff.bind_ret hq] at h2
    cases h2
    cases hq' : (Arena.get (a, w) : Res (Arena σ × σ) Byte) with
    | fault g' => rw [Eff.bind_fault hq'] at h3; cases h3
    | threw s => rw [Eff.bind_threw hq'] at h3; cases h3
    | ret r s => rw [Eff.bind_ret hq'] at h3; cases h3; exact ⟨_, rfl, m1, h4, hp1⟩

theorem onWorld_arenaBoth {α : Type} {Q : Machine → Prop} (x : Eff σ α) {s : BState σ} {t : Arena σ × σ}
    (h : ∃ mch, ArenaBoth P K f i n o m mem0 p mch s t ∧ Q mch) :
    AlikeV (fun _ s t => ∃ mch, ArenaBoth P K f i n o m mem0 p mch s t ∧ Q mch) SameWorld (onWorld x s) (Arena.onWorld x t) := by
  obtain ⟨b, w⟩ := s
  obtain ⟨a, w'⟩ := t
  obtain ⟨mch, h, hQ⟩ := h
  have hw : w = w' := h.world
  subst hw
  show AlikeV _ _ (match x w with | .ret a w => .ret a _ | .threw w => .threw _ | .fault e => .fault e) (match x w with | .ret a w => .ret a _ | .threw w => .threw _ | .fault e => .fault e)
  cases x w with
  | fault e => trivial
  | threw w1 => exact ⟨_, rfl, rfl⟩
  | ret r w1 => exact ⟨_, rfl, mch, ⟨h.buf, h.arena, rfl⟩, hQ⟩

theorem readLoop1_arena (h : Setup P K f defs) (hs : AllDecodeSafe P K) (ho : ResponsesWithin K m) (src : Eff σ Byte) : ∀ (k k' : Nat) (_ : k ≤ k') {status : Status}
    {s : BState σ} {t : Arena σ × σ}, ArenaInv P K f i n o m mem0 p status s t →
    AlikeV (ArenaInv P K f i n o m mem0 p) SameWorld (Buf.readLoop1 P src k status s) (Arena.readLoop1 P src k' status t)
  | 0, _, _, _, _, _, _ => trivial
  | k + 1, 0, hk, _, _, _, _ => absurd hk (Nat.not_succ_le_zero k)
  | k + 1, k' + 1, hk, status, s, t, hi => by
    obtain ⟨mch, hb, hd⟩ := hi
    show AlikeV _ _ ((if !s.1.indexLoaded && status = .loading then _ else _ : Eff (BState σ) Status) s) ((if !t.1.indexLoaded && status = .loading then _ else _ : Eff (Arena σ × σ) Status) t)
    rw [hb.indexLoaded.1]
    by_cases hc : (!t.1.indexLoaded && decide (status = .loading)) = true
    · rw [if_pos hc, if_pos hc]
      have hl : status = .loading := by
        rw [Bool.and_eq_true, decide_eq_true_eq] at hc
        exact hc.2
      subst hl
      refine (onWorld_arenaBoth (Q := fun mch => (Status.loading = .loading ∧ mch.out = []) ∨ (Status.loading ≠ .loading ∧ mch.pending = [] ∧ (Status.loading = .dropped → mch.out = [])))
        src ⟨mch, hb, hd⟩).bind fun x s t h1 => ?_
      exact (put_arenaInv h hs ho x h1).bind fun st s t h2 => readLoop1_arena h hs ho src k k' (by omega) h2
    · rw [if_neg hc, if_neg hc]
      exact ⟨_, rfl, mch, hb, hd⟩

theorem readLoop2_arena (h : Setup P K f defs) (hs : AllDecodeSafe P K) (ho : ResponsesWithin K m) (src : Eff σ Byte) : ∀ (k k' : Nat) (_ : k ≤ k') {status : Status}
    {s : BState σ} {t : Arena σ × σ}, ArenaInv P K f i n o m mem0 p status s t →
    AlikeV (ArenaInv P K f i n o m mem0 p) SameWorld (Buf.readLoop2 P src k status s) (Arena.readLoop2 P src k' status t)
  | 0, _, _, _, _, _, _ => trivial
  | k + 1, 0, hk, _, _, _, _ => absurd hk (Nat.not_succ_le_zero k)
  | k + 1, k' + 1, hk, status, s, t, hi => by
    obtain ⟨mch, hb, hd⟩ := hi
    show AlikeV _ _ ((if s.1.indexLoaded = true then _ else _ : Eff (BState σ) Status) s) ((if t.1.indexLoaded = true then _ else _ : Eff (Arena σ × σ) Status) t)
    rw [hb.indexLoaded.1]
    by_cases hc : t.1.indexLoaded = true
    · rw [if_pos hc, if_pos hc]
      have hl : status = .loading ∧ mch.out = [] := by
        rcases hd with hd | hd
        · exact hd
        · have := hb.indexLoaded.2 hd.2.1
          rw [hb.indexLoaded.1, hc] at this
          cases this
      obtain ⟨rfl, hout⟩ := hl
      refine (onWorld_arenaBoth (Q := fun mch => (Status.loading = .loading ∧ mch.out = []) ∨ (Status.loading ≠ .loading ∧ mch.pending = [] ∧ (Status.loading = .dropped → mch.out = [])))
        src ⟨mch, hb, hd⟩).bind fun x s t h1 => ?_
      exact (put_arenaInv h hs ho x h1).bind fun st s t h2 => readLoop2_arena h hs ho src k k' (by omega) h2
    · rw [if_neg hc, if_neg hc]
      exact ⟨_, rfl, mch, hb, hd⟩

theorem writeLoop_arena (h : Setup P K f defs) (hs : AllDecodeSafe P K) (ho : ResponsesWithin K m) (dest : Byte → Eff σ Unit) : ∀ (k k' : Nat) (_ : k ≤ k')
    {s : BState σ} {t : Arena σ × σ}, (∃ mch, ArenaBoth P K f i n o m mem0 p mch s t ∧ mch.pending = []) →
    AlikeV (fun _ s t => ∃ mch, ArenaBoth P K f i n o m mem0 p mch s t ∧ mch.out = []) SameWorld (Buf.writeLoop dest k s) (Arena.writeLoop dest k' t)
  | 0, _, _, _, _, _ => trivial
  | k + 1, 0, hk, _, _, _ => absurd hk (Nat.not_succ_le_zero k)
  | k + 1, k' + 1, hk, s, t, hi => by
    obtain ⟨mch, hb, hp⟩ := hi
    show AlikeV _ _ ((if s.1.isLoaded = true then _ else _ : Eff (BState σ) Unit) s) ((if t.1.isLoaded = true then _ else _ : Eff (Arena σ × σ) Unit) t)
    rw [hb.isLoaded.1, hb.isLoaded.2]
    by_cases hc : mch.isLoaded = true
    · rw [if_pos hc, if_pos hc]
      refine (get_arenaBoth h hs ho hb hp).bind fun x s t h1 => ?_
      exact (onWorld_arenaBoth (dest x) h1).bind fun _ s t h2 => writeLoop_arena h hs ho dest k k' (by omega) h2
    · rw [if_neg hc, if_neg hc]
      exact ⟨_, rfl, mch, hb, by simpa [Machine.isLoaded] using hc⟩

theorem process_arena (h : Setup P K f defs) (hs : AllDecodeSafe P K) (ho : ResponsesWithin K m) (src : Eff σ Byte) (dest : Byte → Eff σ Unit) {a : Arena σ}
    (ht : a.Tracks P K f i n o m mem0 p ⟨[], []⟩) (w : σ) :
    AlikeV (fun _ s t => ∃ mch, ArenaBoth P K f i n o m mem0 p mch s t ∧ mch.out = []) SameWorld (Buf.process P src dest (a.apart i n o m, w))
      (Arena.process P src dest (a, w)) := by
  have hlen := ht.len
  have hir := ht.iroom
  have hor := ht.oroom
  have hil : (slice a.mem i n).length = n := slice_length (by omega)
  have hread : AlikeV (ArenaInv P K f i n o m mem0 p) SameWorld (Buf.readFrom P src (a.apart i n o m, w)) (Arena.readFrom P src (a, w)) := by
    have hk : (slice a.mem i n).length + 2 ≤ a.mem.length + 2 := by omega
    show AlikeV _ _ ((Buf.readLoop1 P src ((slice a.mem i n).length + 2) .loading >>= fun status => Buf.readLoop2 P src ((slice a.mem i n).length + 2) status) _)
      ((Arena.readLoop1 P src (a.mem.length + 2) .loading >>= fun status => Arena.readLoop2 P src (a.mem.length + 2) status) _)
    exact (readLoop1_arena h hs ho src _ _ hk ⟨⟨[], []⟩, ⟨ht.tracks, ht, rfl⟩, Or.inl ⟨rfl, rfl⟩⟩).bind fun st s t h1 => readLoop2_arena h hs ho src _ _ hk h1
  unfold Buf.process Arena.process
  refine hread.bind fun st s t h1 => ?_
  obtain ⟨mch, hb, hd⟩ := h1
  by_cases hr : st = .resolved
  · rw [if_pos hr, if_pos hr]
    have hp : mch.pending = [] := by
      rcases hd with hd | hd
      · rw [hr] at hd; cases hd.1
      · exact hd.2.1
    have hk : s.1.out.length + 2 ≤ t.1.mem.length + 2 := by
      have := hb.buf.room
      have := hb.arena.len
      omega
    refine AlikeV.bind (R1 := fun _ s t => ∃ mch, ArenaBoth P K f i n o m mem0 p mch s t ∧ mch.out = []) ?_ fun _ s t h2 => ⟨_, rfl, h2⟩
    exact writeLoop_arena h hs ho dest _ _ hk ⟨mch, hb, hp⟩
  · rw [if_neg hr, if_neg hr]
    refine ⟨_, rfl, mch, hb, ?_⟩
    rcases hd with hd | hd
    · exact hd.2
    · cases st with
      | loading => exact absurd rfl hd.1
      | dropped => exact hd.2.2 rfl
      | resolved => exact absurd rfl hr

theorem serve_arena (h : Setting P K f defs) (hs : AllDecodeSafe P K) (ho : ResponsesWithin K m) {f' : Features} (prog : ServeProg σ) : ∀ {a : Arena σ}
    {D : Dispatcher σ} {p : Proto σ} {w : σ}, a.Tracks P K f i n o m mem0 p ⟨[], []⟩ → Answers P p D → D.features = f' → ServeOk P K f f' prog →
    match prog.unbuffered P (D, w) with
    | .ret r (_, w') => ∃ a', prog.arena P (a, w) = .ret r (a', w') ∧ a'.isLoaded = false ∧ a'.mem.length = mem0.length ∧
        ∀ k, ¬(i ≤ k ∧ k < i + n) → ¬(o ≤ k ∧ k < o + m) → a'.mem[k]? = mem0[k]?
    | .threw (_, w') => ∃ a', prog.arena P (a, w) = .threw (a', w')
    | .fault _ => True := by
  induction prog with
  | done r => intro a D p w ht _ _ _; exact ⟨a, rfl, ht.isLoaded, ht.len, ht.frame⟩
  | act x next ih =>
    intro a D p w ht ha hf hok
    unfold ServeProg.unbuffered ServeProg.arena
    dsimp only
    cases x w with
    | ret r w' => exact ih r ht ha hf (hok r)
    | threw w' => exact ⟨a, rfl⟩
    | fault g => trivial
  | serve src dest next ih =>
    intro a D p w ht ha hf hok
    unfold ServeProg.unbuffered ServeProg.arena
    have hstep := process_run h.valid ht.tracks ha ho src dest w
    have hlike := process_arena h.setup hs ho src dest ht w
    dsimp only
    cases hr : D.run P (Lens.whole σ) src dest w with
    | ret j w' =>
      rw [hr] at hstep
      obtain ⟨b', out', h1, h2⟩ := hstep
      rw [h1] at hlike
      obtain ⟨⟨a', w1⟩, h3, ⟨pend, out⟩, h4, h5⟩ := hlike
      have hw : w' = w1 := h4.world
      subst hw
      have hpend : pend = [] := by
        have e1 : b'.ibufNext = pend.length := h4.buf.rel.inp.next
        have e2 : b'.ibufNext = 0 := h2.rel.inp.next
        exact List.length_eq_zero_iff.mp (e1.symm.trans e2)
      cases hpend
      cases (show out = [] from h5)
      rw [h3]
      have e : ((if j < D.size then Status.resolved else Status.dropped) == .resolved) = decide (j < D.size) := by
        by_cases hj : j < D.size <;> simp [hj]
      simp only [e]
      exact ih _ h4.arena ha hf (hok _)
    | threw w' =>
      rw [hr] at hstep
      obtain ⟨b', h1⟩ := hstep
      rw [h1] at hlike
      obtain ⟨⟨a', w1⟩, h3, h4⟩ := hlike
      cases (show w' = w1 from h4)
      rw [h3]
      exact ⟨a', rfl⟩
    | fault g => trivial
  | replace j cb next ih =>
    intro a D p w ht ha hf hok
    obtain ⟨h1, h2, hc, hok⟩ := hok
    obtain ⟨a', e, ht'⟩ := arena_call h.setup hs ho ht (.replace j cb) ⟨h1, hc⟩ (fun _ ⟨x, hx⟩ => by cases hx) w
    cases e
    exact ih ht' (ha.set (by rw [ha.e, ha.s]; exact Or.inl rfl)) hf hok
  | replaceStatic j cb next ih =>
    intro a D p w ht ha hf hok
    obtain ⟨hc, hok⟩ := hok
    obtain ⟨a', e, ht'⟩ := arena_call h.setup hs ho ht (.replaceStatic j cb) hc (fun _ ⟨x, hx⟩ => by cases hx) w
    cases e
    exact ih ht' (ha.set (by rw [ha.e, ha.s]; exact makeAction_holds _ _ _ _)) hf hok

/-- C116, packets processed as a whole: a program which only uses `operator()` and `replace` needs no precaution. Wherever its buffers are in the array, and
however they overlap, the dispatcher gives the program the same result, the same effects and the same exceptions as an unbuffered dispatcher, for any byte streams and any bytes,
valid or not; in the end no byte of a response is left, and the rest of the array is as it was. (Nothing is said of executions in which a function or a stream has undefined
behaviour.) -/
theorem C116_whole_packets (h : Setting P K f defs) (hs : AllDecodeSafe P K) {mem : Mem} (hin : i + n ≤ mem.length) (hon : o + m ≤ mem.length) (hi : K.idxBytes ≤ n)
    (hq : RequestsWithin K n) (ho : ResponsesWithin K m) (sizeMax : Nat) (w : σ) (f' : Features) (prog : ServeProg σ) (hok : ServeOk P K f f' prog) :
    match prog.unbuffered P (Dispatcher.make K f' defs, w) with
    | .ret r (_, w') => ∃ a, prog.arena P (Arena.make K f defs sizeMax mem i o, w) = .ret r (a, w') ∧ a.isLoaded = false ∧ a.mem.length = mem.length ∧
        ∀ k, ¬(i ≤ k ∧ k < i + n) → ¬(o ≤ k ∧ k < o + m) → a.mem[k]? = mem[k]?
    | .threw (_, w') => ∃ a, prog.arena P (Arena.make K f defs sizeMax mem i o, w) = .threw (a, w')
    | .fault _ => True :=
  serve_arena h hs ho prog (arena_make_tracks h.setup hin hon hi hq sizeMax) (answers_make h.ring) rfl hok

/-- Requests at the elements 1 to 8, responses at the elements 2 to 5, any bytes to be read. -/
example (f f' : Features) (w : List Byte × List (List Val) × List Byte) :
    match serveTwo.unbuffered pc (Dispatcher.make ledRing f' ledDefs, w) with
    | .ret r (_, w') => ∃ a, serveTwo.arena pc (Arena.make ledRing f ledDefs 255 (List.replicate 10 7#8) 1 2, w) = .ret r (a, w') ∧ a.isLoaded = false ∧
        a.mem.length = (List.replicate 10 7#8).length ∧ ∀ k, ¬(1 ≤ k ∧ k < 1 + 8) → ¬(2 ≤ k ∧ k < 2 + 4) → a.mem[k]? = (List.replicate 10 7#8)[k]?
    | .threw (_, w') => ∃ a, serveTwo.arena pc (Arena.make ledRing f ledDefs 255 (List.replicate 10 7#8) 1 2, w) = .threw (a, w')
    | .fault _ => True := by
  have h := C116_whole_packets (i := 1) (n := 8) (o := 2) (m := 4) (mem := List.replicate 10 7#8) (led_setting f)
    (by simp [AllDecodeSafe, ledRing, DecodeSafeAll, DecodeSafe]) (by decide) (by decide) (by decide)
    (by simp [RequestsWithin, ledRing, wireSizes, wireSize]; decide) (by simp [ResponsesWithin, ledRing, retSize, wireSize]) 255 w f' serveTwo (serveTwo_ok f f')
  cases hx : serveTwo.unbuffered pc (Dispatcher.make ledRing f' ledDefs, w) with
  | ret r s => rw [hx] at h; exact h
  | threw s => rw [hx] at h; exact h
  | fault g => trivial

/-- What it does on two requests: the sum, then the difference. -/
example : (match serveTwo.arena pc (Arena.make ledRing .any ledDefs 255 (List.replicate 10 7#8) 1 2, ([0#8, 5#8, 0#8, 3#8, 0#8, 5#8, 0#8, 3#8], [], [])) with
    | .ret _ (_, w) => w.2.2
    | _ => []) = [8#8, 0#8, 2#8, 0#8] := by decide +kernel

end Upd
