import Verif.Spec.Pool
import Verif.Props.ArenaServe

/-!
# Several buffered dispatchers on one array (C117)
-/

namespace Upd
open Spec TypeList

variable {σ : Type} {P : Platform} {K : Keyring} {f : Features} {defs : Nat → List Val → Eff σ (Option Val)} {i n o m : Nat} {mem0 : Mem} {p : Proto σ}

/-- One packet. -/
theorem arena_packet (h : Setting P K f defs) (hs : AllDecodeSafe P K) (ho : ResponsesWithin K m) {a : Arena σ} {D : Dispatcher σ} {w : σ}
    (ht : a.Tracks P K f i n o m mem0 p ⟨[], []⟩) (ha : Answers P p D) (src : Eff σ Byte) (dest : Byte → Eff σ Unit) :
    match D.run P (Lens.whole σ) src dest w with
    | .ret j w' => ∃ a', Arena.process P src dest (a, w) = .ret (if j < D.size then .resolved else .dropped) (a', w') ∧
        a'.Tracks P K f i n o m mem0 p ⟨[], []⟩
    | .threw w' => ∃ a', Arena.process P src dest (a, w) = .threw (a', w')
    | .fault _ => True := by
  have hstep := process_run h.valid ht.tracks ha ho src dest w
  have hlike := process_arena h.setup hs ho src dest ht w
  cases hr : D.run P (Lens.whole σ) src dest w with
  | ret j w' =>
    rw [hr] at hstep
    obtain ⟨b', out', h1, h2⟩ := hstep
    rw [h1] at hlike
    obtain ⟨⟨a', w1⟩, h3, ⟨pend, out⟩, h4, h5⟩ := hlike
    have hw : w' = w1 := h4.world
    subst hw
    have hpend : pend = [] := by
      have e1 : b'.ibufNext = pend.length := h4.buf.rel.inp.next
      have e2 : b'.ibufNext = 0 := h2.rel.inp.next
      exact List.length_eq_zero_iff.mp (e1.symm.trans e2)
    cases hpend
    cases (show out = [] from h5)
    exact ⟨a', h3, h4.arena⟩
  | threw w' =>
    rw [hr] at hstep
    obtain ⟨b', h1⟩ := hstep
    rw [h1] at hlike
    obtain ⟨⟨a', w1⟩, h3, h4⟩ := hlike
    cases (show w' = w1 from h4)
    exact ⟨a', h3⟩
  | fault g => trivial

/-- Between two packets, the content of the array does not matter. -/
theorem Arena.Tracks.rebase {a : Arena σ} (h : a.Tracks P K f i n o m mem0 p ⟨[], []⟩) {mem : Mem} (hl : mem.length = mem0.length) :
    ({ a with mem := mem } : Arena σ).Tracks P K f i n o m mem p ⟨[], []⟩ where
  ibegin := h.ibegin
  obegin := h.obegin
  iroom := by rw [hl]; exact h.iroom
  oroom := by rw [hl]; exact h.oroom
  len := rfl
  frame := fun _ _ _ => rfl
  tracks := by
    have e1 : (slice mem i n).length = (slice a.mem i n).length := by
      rw [slice_length (by rw [hl]; exact h.iroom), slice_length (by rw [h.len]; exact h.iroom)]
    have e2 : (slice mem o m).length = (slice a.mem o m).length := by
      rw [slice_length (by rw [hl]; exact h.oroom), slice_length (by rw [h.len]; exact h.oroom)]
    have ht := h.tracks
    refine ⟨⟨ht.ok.serves, ?_, ?_⟩, ⟨⟨ht.rel.inp.next, Nat.zero_le _, slice_zero _ _, ht.rel.inp.load⟩, ⟨ht.rel.outp.bottom, ?_, slice_zero _ _⟩⟩, rfl, ?_, ht.feat, ht.e, ht.s, ht.idx,
      ht.sigs, ht.len⟩
    · show _ ≤ (slice mem i n).length; rw [e1]; exact ht.ok.idxRoom
    · show ∀ cb ∈ p.cbs, _ ≤ (slice mem i n).length; rw [e1]; exact ht.ok.room
    · show a.obufBottom ≤ (slice mem o m).length; rw [e2]; exact ht.rel.outp.le
    · show (slice mem o m).length = m; rw [e2]; exact ht.room

/-- One dispatcher of the pool, between two packets. -/
def Spec.PoolSlot.Idle (P : Platform) (S : PoolSlot σ) (mem : Mem) (a : Arena σ) (D : Dispatcher σ) : Prop :=
  ∃ p, ({ a with mem := mem } : Arena σ).Tracks P S.K S.f S.i S.n S.o S.m mem p ⟨[], []⟩ ∧ Answers P p D ∧ D.features = S.f'

theorem Spec.PoolSlot.Idle.rebase {S : PoolSlot σ} {mem mem' : Mem} {a : Arena σ} {D : Dispatcher σ} (h : S.Idle P mem a D) (hl : mem'.length = mem.length) :
    S.Idle P mem' a D := by
  obtain ⟨p, h1, h2, h3⟩ := h
  exact ⟨p, h1.rebase hl, h2, h3⟩

/-- All of them. -/
def PoolIdle (P : Platform) (slots : List (PoolSlot σ)) (mem : Mem) (as : List (Arena σ)) (Ds : List (Dispatcher σ)) : Prop :=
  as.length = slots.length ∧ Ds.length = slots.length ∧
    ∀ (d : Nat) (S : PoolSlot σ) (a : Arena σ) (D : Dispatcher σ), slots[d]? = some S → as[d]? = some a → Ds[d]? = some D → S.Idle P mem a D

theorem PoolIdle.at {slots : List (PoolSlot σ)} {mem : Mem} {as : List (Arena σ)} {Ds : List (Dispatcher σ)} (h : PoolIdle P slots mem as Ds) {d : Nat}
    (hd : d < slots.length) : ∃ S a D, slots[d]? = some S ∧ as[d]? = some a ∧ Ds[d]? = some D ∧ S.Idle P mem a D := by
  have h1 := List.getElem?_eq_getElem hd
  have h2 := List.getElem?_eq_getElem (show d < as.length by rw [h.1]; exact hd)
  have h3 := List.getElem?_eq_getElem (show d < Ds.length by rw [h.2.1]; exact hd)
  exact ⟨_, _, _, h1, h2, h3, h.2.2 d _ _ _ h1 h2 h3⟩

theorem PoolIdle.set {slots : List (PoolSlot σ)} {mem mem' : Mem} {as : List (Arena σ)} {Ds : List (Dispatcher σ)} (h : PoolIdle P slots mem as Ds)
    (hl : mem'.length = mem.length) {d : Nat} {S : PoolSlot σ} (hS : slots[d]? = some S) {a : Arena σ} {D : Dispatcher σ} (hi : S.Idle P mem' a D) :
    PoolIdle P slots mem' (as.set d a) (Ds.set d D) := by
  refine ⟨by rw [List.length_set]; exact h.1, by rw [List.length_set]; exact h.2.1, fun e S1 a1 D1 h1 h2 h3 => ?_⟩
  by_cases he : d = e
  · subst he
    rw [hS] at h1
    cases h1
    rw [List.getElem?_set] at h2 h3
    simp only [if_true] at h2 h3
    split at h2
    · split at h3
      · cases h2; cases h3; exact hi
      · cases h3
    · cases h2
  · rw [List.getElem?_set_ne he] at h2 h3
    exact (h.2.2 e S1 a1 D1 h1 h2 h3).rebase hl

/-- The outcomes `u` and `v` are the same, and the array `mem` is changed by `prog` where it may be. -/
def PoolSame (slots : List (PoolSlot σ)) (prog : PoolProg σ) (mem : Mem) (u : Res (List (Dispatcher σ) × σ) (Option Val)) (v : Res (Pool σ × σ) (Option Val)) : Prop :=
  match u with
  | .ret r (_, w') => ∃ st, v = .ret r (st, w') ∧ st.1.length = mem.length ∧ ∀ k, PoolUntouched slots prog k → st.1[k]? = mem[k]?
  | .threw (_, w') => ∃ st, v = .threw (st, w')
  | .fault _ => True

theorem poolRet_mono {slots : List (PoolSlot σ)} {prog next : PoolProg σ} {mem mem' : Mem} {u : Res (List (Dispatcher σ) × σ) (Option Val)}
    {v : Res (Pool σ × σ) (Option Val)} (hl : mem'.length = mem.length)
    (hk : ∀ k, PoolUntouched slots prog k → PoolUntouched slots next k ∧ mem'[k]? = mem[k]?) (h : PoolSame slots next mem' u v) : PoolSame slots prog mem u v := by
  cases u with
  | ret r st =>
    obtain ⟨st', h1, h2, h3⟩ := h
    exact ⟨st', h1, h2.trans hl, fun k hu => (h3 k (hk k hu).1).trans (hk k hu).2⟩
  | threw st => exact h
  | fault g => trivial

theorem pool_run {slots : List (PoolSlot σ)} {len : Nat} (hk : ∀ S ∈ slots, S.Ok P len) (prog : PoolProg σ) : ∀ {mem : Mem} {as : List (Arena σ)}
    {Ds : List (Dispatcher σ)} {w : σ}, mem.length = len → PoolIdle P slots mem as Ds → PoolOk P len slots prog →
    PoolSame slots prog mem (prog.unbuffered P (Ds, w)) (prog.pooled P ((mem, as), w)) := by
  induction prog with
  | done r => intro mem as Ds w _ _ _; exact ⟨_, rfl, rfl, fun _ _ => rfl⟩
  | act x next ih =>
    intro mem as Ds w hl hi hok
    unfold PoolProg.unbuffered PoolProg.pooled
    dsimp only
    cases x w with
    | ret r w' =>
      refine poolRet_mono (prog := .act x next) (next := next r) (mem' := mem) rfl (fun k h => ⟨⟨h.1, h.2 r⟩, rfl⟩) ?_
      exact ih r hl hi (hok r)
    | threw w' => exact ⟨_, rfl⟩
    | fault g => trivial
  | store pos x next ih =>
    intro mem as Ds w hl hi hok
    unfold PoolProg.unbuffered PoolProg.pooled
    dsimp only
    rw [if_pos (by rw [hl]; exact hok.1)]
    have hl' : (mem.set pos x).length = mem.length := List.length_set
    refine poolRet_mono (prog := .store pos x next) (next := next) hl' (fun k h => ⟨⟨h.1, h.2.2⟩, List.getElem?_set_ne h.2.1⟩) ?_
    exact ih (hl'.trans hl) ⟨hi.1, hi.2.1, fun d S a D h1 h2 h3 => (hi.2.2 d S a D h1 h2 h3).rebase hl'⟩ hok.2
  | serve d src dest next ih =>
    intro mem as Ds w hl hi hok
    obtain ⟨S, a, D, h1, h2, h3, p, h4, h5, h6⟩ := hi.at hok.1
    have hS := hk S (List.mem_of_getElem? h1)
    have hstep := arena_packet (w := w) hS.setting hS.safe hS.responses h4 h5 src dest
    unfold PoolProg.unbuffered PoolProg.pooled
    dsimp only
    rw [h2, h3]
    dsimp only
    cases hr : D.run P (Lens.whole σ) src dest w with
    | ret j w' =>
      rw [hr] at hstep
      obtain ⟨a', h7, h8⟩ := hstep
      rw [h7]
      have e : ((if j < D.size then Status.resolved else Status.dropped) == .resolved) = decide (j < D.size) := by
        by_cases hj : j < D.size <;> simp [hj]
      simp only [e]
      have hD : Ds.set d D = Ds := by
        obtain ⟨hlt, hg⟩ := List.getElem?_eq_some_iff.mp h3
        rw [← hg]
        exact List.set_getElem_self hlt
      have := hi.set h8.len h1 (a := a') (D := D) ⟨p, h8.rebase h8.len, h5, h6⟩
      rw [hD] at this
      have hm := List.mem_of_getElem? h1
      refine poolRet_mono (prog := .serve d src dest next) (next := next (decide (j < D.size))) h8.len
        (fun k h => ⟨⟨h.1, h.2 _⟩, h8.frame k (h.1 S hm).1 (h.1 S hm).2⟩) ?_
      exact ih _ (h8.len.trans hl) this (hok.2 _)
    | threw w' =>
      rw [hr] at hstep
      obtain ⟨a', h7⟩ := hstep
      rw [h7]
      exact ⟨_, rfl⟩
    | fault g => trivial
  | replace d j cb next ih =>
    intro mem as Ds w hl hi hok
    obtain ⟨⟨S', hS', hf, hf', hc⟩, hok⟩ := hok
    obtain ⟨S, a, D, h1, h2, h3, p, h4, h5, h6⟩ := hi.at (List.getElem?_eq_some_iff.mp hS').1
    rw [hS'] at h1
    cases h1
    have hS := hk S' (List.mem_of_getElem? hS')
    unfold PoolProg.unbuffered PoolProg.pooled
    dsimp only
    rw [h2, h3]
    dsimp only
    obtain ⟨a', e, ht'⟩ := arena_call hS.setting.setup hS.safe hS.responses h4 (.replace j cb) ⟨hf, hc⟩ (fun _ ⟨x, hx⟩ => by cases hx) w
    cases e
    refine poolRet_mono (prog := .replace d j cb next) (next := next) (mem' := mem) rfl (fun k h => ⟨⟨h.1, h.2⟩, rfl⟩) ?_
    exact ih hl (hi.set rfl hS' ⟨_, ht', h5.set (by rw [h5.e, h5.s]; exact Or.inl rfl), h6⟩) hok
  | replaceStatic d j cb next ih =>
    intro mem as Ds w hl hi hok
    obtain ⟨⟨S', hS', hc⟩, hok⟩ := hok
    obtain ⟨S, a, D, h1, h2, h3, p, h4, h5, h6⟩ := hi.at (List.getElem?_eq_some_iff.mp hS').1
    rw [hS'] at h1
    cases h1
    have hS := hk S' (List.mem_of_getElem? hS')
    unfold PoolProg.unbuffered PoolProg.pooled
    dsimp only
    rw [h2, h3]
    dsimp only
    obtain ⟨a', e, ht'⟩ := arena_call hS.setting.setup hS.safe hS.responses h4 (.replaceStatic j cb) hc (fun _ ⟨x, hx⟩ => by cases hx) w
    cases e
    refine poolRet_mono (prog := .replaceStatic d j cb next) (next := next) (mem' := mem) rfl (fun k h => ⟨⟨h.1, h.2⟩, rfl⟩) ?_
    exact ih hl (hi.set rfl hS' ⟨_, ht', h5.set (by rw [h5.e, h5.s]; exact makeAction_holds _ _ _ _), h6⟩) hok

/-- **C117.** A program which lets several dispatchers process whole packets, one packet at a time, has the same result, the same effects on the rest of the world and the same exceptions
whether the dispatchers are unbuffered or all have their buffers in one array, wherever they are: the buffers of a dispatcher may overlap, and so may those of different
dispatchers; the array may even be used for something else between the packets. Each dispatcher only needs enough room for its own requests and responses. The bytes which
belong to no buffer are left as the program has set them.
(Nothing is said of executions in which a function or a stream has undefined behaviour.) -/
theorem C117_pool {slots : List (PoolSlot σ)} {mem : Mem} (hk : ∀ S ∈ slots, S.Ok P mem.length) {prog : PoolProg σ} (hok : PoolOk P mem.length slots prog) (w : σ) :
    match prog.unbuffered P (slots.map fun S => Dispatcher.make S.K S.f' S.defs, w) with
    | .ret r (_, w') => ∃ st, prog.pooled P ((mem, slots.map fun S => Arena.make S.K S.f S.defs S.sizeMax [] S.i S.o), w) = .ret r (st, w') ∧
        st.1.length = mem.length ∧ ∀ k, PoolUntouched slots prog k → st.1[k]? = mem[k]?
    | .threw (_, w') => ∃ st, prog.pooled P ((mem, slots.map fun S => Arena.make S.K S.f S.defs S.sizeMax [] S.i S.o), w) = .threw (st, w')
    | .fault _ => True := by
  refine pool_run hk prog rfl ⟨by rw [List.length_map], by rw [List.length_map], fun d S a D h1 h2 h3 => ?_⟩ hok
  rw [List.getElem?_map, h1] at h2 h3
  cases h2
  cases h3
  have hS := hk S (List.mem_of_getElem? h1)
  exact ⟨_, arena_make_tracks hS.setting.setup hS.iroom hS.oroom hS.index hS.requests S.sizeMax, answers_make hS.setting.ring, rfl⟩

/-- Two dispatchers with overlapping buffers in ten bytes: requests at 1 and 0, responses at 2 and 5. -/
def poolTwo (f f' : Features) : List (PoolSlot (List Byte × List (List Val) × List Byte)) :=
  [⟨ledRing, f, f', ledDefs, 255, 1, 8, 2, 4⟩, ⟨ledRing, f, f', ledDefs, 255, 0, 8, 5, 4⟩]

theorem poolTwo_ok (f f' : Features) : ∀ S ∈ poolTwo f f', S.Ok pc (List.replicate 10 7#8 : Mem).length := by
  have key : ∀ i o, i + 8 ≤ 10 → o + 4 ≤ 10 →
      (⟨ledRing, f, f', ledDefs, 255, i, 8, o, 4⟩ : PoolSlot (List Byte × List (List Val) × List Byte)).Ok pc (List.replicate 10 7#8 : Mem).length :=
    fun i o h1 h2 => ⟨led_setting f, by simp [AllDecodeSafe, ledRing, DecodeSafeAll, DecodeSafe], by simpa using h1, by simpa using h2, by show ledRing.idxBytes ≤ 8; decide,
      by simp [RequestsWithin, ledRing, wireSizes, wireSize]; decide, by simp [ResponsesWithin, ledRing, retSize, wireSize]⟩
  intro S hS
  simp only [poolTwo, List.mem_cons, List.not_mem_nil, or_false] at hS
  rcases hS with rfl | rfl
  · exact key 1 2 (by decide) (by decide)
  · exact key 0 5 (by decide) (by decide)

/-- The first one processes a packet, a byte of both input buffers is overwritten, then the second one processes a packet if the first index was valid. -/
def poolProg : PoolProg (List Byte × List (List Val) × List Byte) :=
  .serve 0 demoSrc demoDest fun ok => .store 3 9#8 (if ok then .serve 1 demoSrc demoDest fun _ => .done none else .done none)

theorem poolProg_ok (f f' : Features) : PoolOk pc (List.replicate 10 7#8 : Mem).length (poolTwo f f') poolProg := by
  refine ⟨by simp [poolTwo], fun ok => ⟨by simp, ?_⟩⟩
  cases ok
  · trivial
  · exact ⟨by simp [poolTwo], fun _ => trivial⟩

/-- The hypotheses of the theorem hold of these two dispatchers. -/
example (f f' : Features) (w : List Byte × List (List Val) × List Byte) :=
  C117_pool (poolTwo_ok f f') (poolProg_ok f f') w

/-- The last byte is in none of the buffers: it is left unchanged. -/
example (f f' : Features) : PoolUntouched (poolTwo f f') poolProg 9 := by
  refine ⟨?_, fun ok => ⟨by decide, ?_⟩⟩
  · intro S hS
    simp only [poolTwo, List.mem_cons, List.not_mem_nil, or_false] at hS
    rcases hS with rfl | rfl <;> simp
  · cases ok
    · trivial
    · exact fun _ => trivial

/-- What they do on two requests. -/
example : (match poolProg.pooled pc ((List.replicate 10 7#8, (poolTwo .any .any).map fun S => Arena.make S.K S.f S.defs S.sizeMax [] S.i S.o),
      ([0#8, 5#8, 0#8, 3#8, 0#8, 6#8, 0#8, 3#8], [], [])) with
    | .ret _ (_, w) => w.2.2
    | _ => []) = [8#8, 0#8, 9#8, 0#8] := by decide +kernel

/-- Two dispatchers with their requests at the same place of an array. Two bytes of a request are put in the first one; the second one processes a packet, unless `alone`; then the
other two bytes of the request are put in the first one, and its response is read. -/
def poolMiddle (alone : Bool) : Option (List Byte) :=
  let a := Arena.make ledRing .any ledDefs 255 (List.replicate 16 0#8) 0 8
  let w := (([0#8, 9#8, 9#8, 9#8], [], []) : List Byte × List (List Val) × List Byte)
  match (do let _ ← Arena.put pc 0#8; Arena.put pc 5#8) (a, w) with
  | .ret _ (a1, w1) =>
    match (if alone then .ret .resolved ({ a with mem := a1.mem }, w1) else Arena.process pc demoSrc demoDest ({ a with mem := a1.mem }, w1)) with
    | .ret _ (b, w2) =>
      match (do let _ ← Arena.put pc 0#8; let _ ← Arena.put pc 3#8; let x ← Arena.get; let y ← Arena.get; pure [x, y]) ({ a1 with mem := b.mem }, w2) with
      | .ret r _ => some r
      | _ => none
    | _ => none
  | _ => none

/-- C117: the packets have to be processed one at a time. A packet which another dispatcher processes in the middle of a request changes the arguments: the first function is called
with 9 and 3 instead of 5 and 3. -/
theorem C117_one_at_a_time : poolMiddle true = some [8#8, 0#8] ∧ poolMiddle false = some [12#8, 0#8] := by decide +kernel

end Upd
