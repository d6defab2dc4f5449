import Verif.Lemmas.Arena
import Verif.Props.Custom

/-!
# Buffers anywhere in an array (C116)
-/

namespace Upd
open Spec TypeList

variable {σ : Type} {P : Platform} {K : Keyring} {f : Features} {defs : Nat → List Val → Eff σ (Option Val)} {i n o m : Nat} {mem0 : Mem}

/-- A dispatcher with separate buffers of the same content. -/
def Arena.apart (i n o m : Nat) (a : Arena σ) : Buf σ :=
  ⟨a.disp, false, a.sizeMax, slice a.mem i n, slice a.mem o m, a.indexLoaded, a.loadCount, a.ibufNext, a.obufNext, a.obufBottom⟩

/-- The dispatcher follows the machine, its buffers are where they were, and the rest of the array has not changed. -/
structure Arena.Tracks (P : Platform) (K : Keyring) (f : Features) (i n o m : Nat) (mem0 : Mem) (a : Arena σ) (p : Proto σ) (mch : Machine) : Prop where
  ibegin : a.ibegin = i
  obegin : a.obegin = o
  iroom : i + n ≤ mem0.length
  oroom : o + m ≤ mem0.length
  len : a.mem.length = mem0.length
  frame : ∀ k, ¬(i ≤ k ∧ k < i + n) → ¬(o ≤ k ∧ k < o + m) → a.mem[k]? = mem0[k]?
  tracks : Upd.Tracks P K f false m (a.apart i n o m) p mch

theorem Arena.Tracks.like {a : Arena σ} {p : Proto σ} {mch : Machine} (h : a.Tracks P K f i n o m mem0 p mch) : InLike i n o m mem0 (a.apart i n o m) a where
  disp := rfl
  shared := rfl
  size := rfl
  loaded := rfl
  count := rfl
  inext := rfl
  onext := rfl
  bottom := rfl
  ibegin := h.ibegin
  obegin := h.obegin
  ilen := slice_length (by rw [h.len]; exact h.iroom)
  olen := slice_length (by rw [h.len]; exact h.oroom)
  iroom := h.iroom
  oroom := h.oroom
  len := h.len
  fits := by
    have := h.tracks.rel.outp.le
    rw [h.tracks.room] at this
    exact this
  out := by
    intro k _ hk
    have := h.tracks.rel.outp.le
    rw [h.tracks.room] at this
    show (slice a.mem o m)[k]? = _
    rw [slice_getElem?, if_pos (Nat.lt_of_lt_of_le hk this)]
  frame := h.frame
  inp := by
    intro k hk
    show (slice a.mem i n)[k]? = _
    rw [slice_getElem?, if_pos hk]

theorem Arena.Tracks.isLoaded {a : Arena σ} {p : Proto σ} {mch : Machine} (h : a.Tracks P K f i n o m mem0 p mch) : a.isLoaded = mch.isLoaded :=
  unread_isLoaded h.tracks.rel.outp

theorem slice_ext {x y : Mem} {p q len : Nat} (h : ∀ k, k < len → x[p + k]? = y[q + k]?) : slice x p len = slice y q len := by
  apply List.ext_getElem?
  intro k
  rw [slice_getElem?, slice_getElem?]
  by_cases hk : k < len
  · rw [if_pos hk, if_pos hk]; exact h k hk
  · rw [if_neg hk, if_neg hk]

theorem FinLike.tracks {b : Buf σ} {a : Arena σ} {p : Proto σ} {mch : Machine} (h : FinLike i n o m mem0 b a) (ht : Upd.Tracks P K f false m b p mch) :
    a.Tracks P K f i n o m mem0 p mch where
  ibegin := h.ibegin
  obegin := h.obegin
  iroom := h.iroom
  oroom := h.oroom
  len := h.len
  frame := h.frame
  tracks := by
    have hil : (slice a.mem i n).length = n := slice_length (by rw [h.len]; exact h.iroom)
    have hol : (slice a.mem o m).length = m := slice_length (by rw [h.len]; exact h.oroom)
    have hbo : b.out = b.obuf := by unfold Buf.out; rw [h.shared]; rfl
    have hle : mch.pending.length ≤ n := by have := ht.rel.inp.le; rwa [h.ilen] at this
    refine ⟨⟨?_, ?_, ?_⟩, ⟨⟨?_, ?_, ?_, ?_⟩, ⟨?_, ?_, ?_⟩⟩, rfl, hol, ?_, ht.e, ht.s, ht.idx, ht.sigs, ?_⟩
    · show Serves P p a.disp; rw [← h.disp]; exact ht.ok.serves
    · show _ ≤ (slice a.mem i n).length; rw [hil, ← h.ilen]; exact ht.ok.idxRoom
    · show ∀ cb ∈ p.cbs, _ ≤ (slice a.mem i n).length; rw [hil, ← h.ilen]; exact ht.ok.room
    · show a.ibufNext = _; rw [← h.inext]; exact ht.rel.inp.next
    · show _ ≤ (slice a.mem i n).length; rw [hil]; exact hle
    · show slice (slice a.mem i n) 0 _ = _
      rw [slice_slice (by omega), Nat.add_zero]
      refine Eq.trans ?_ ht.rel.inp.bytes
      refine slice_ext fun k hk => ?_
      rw [Nat.zero_add]
      exact (h.pend k (by rw [ht.rel.inp.next]; exact hk)).symm
    · show (_ ∧ a.indexLoaded = false ∧ a.loadCount = _) ∨ (_ ∧ a.indexLoaded = true ∧ ∃ cb, _ ∧ _ ∧ a.loadCount = _)
      rw [← h.loaded, ← h.count]
      exact ht.rel.inp.load
    · show a.obufNext + _ = a.obufBottom; rw [← h.onext, ← h.bottom]; exact ht.rel.outp.bottom
    · show a.obufBottom ≤ (slice a.mem o m).length; rw [hol, ← h.bottom]; exact h.fits
    · show slice (slice a.mem o m) a.obufNext _ = _
      have hb := ht.rel.outp.bottom
      have hf := h.fits
      rw [← h.onext, slice_slice (by omega)]
      refine Eq.trans ?_ ht.rel.outp.bytes
      rw [hbo]
      refine slice_ext fun k hk => ?_
      rw [Nat.add_assoc]
      exact (h.out (b.obufNext + k) (by omega) (by omega)).symm
    · show a.disp.features = f; rw [← h.disp]; exact ht.feat
    · show a.disp.acts.length = _; rw [← h.disp]; exact ht.len

/-- One call. -/
theorem arena_call (h : Setup P K f defs) (hs : AllDecodeSafe P K) (ho : ResponsesWithin K m) {a : Arena σ} {p : Proto σ} {mch : Machine}
    (ht : a.Tracks P K f i n o m mem0 p mch) (c : Call σ) (hok : c.Ok P K f)
    (hd : ¬Apart i n o m → (∃ x, c = .io (.put x)) → a.isLoaded = false) (w : σ) :
    match c.runM ((p, mch), w) with
    | .ret r ((p', mch'), w') => ∃ a', c.runAt P (a, w) = .ret r (a', w') ∧ a'.Tracks P K f i n o m mem0 p' mch'
    | .threw (_, w') => ∃ a', c.runAt P (a, w) = .threw (a', w')
    | .fault _ => True := by
  have hlike := ht.like
  have hstep : AlikeAt (Along (FinLike i n o m mem0)) SameWorld (c.run P (a.apart i n o m, w)) (c.runAt P (a, w)) := by
    have hin : ∀ (s : BState σ) (t : Arena σ × σ), Along (InLike i n o m mem0) s t → s.1.ibufNext ≤ n → Along (FinLike i n o m mem0) s t :=
      fun s t h hn => ⟨{ h.1 with pend := fun k hk => h.1.inp k (Nat.lt_of_lt_of_le hk hn) }, h.2⟩
    have hn : a.ibufNext ≤ n := by
      have h1 := ht.tracks.rel.inp.le
      have h2 := ht.tracks.rel.inp.next
      rw [hlike.ilen] at h1
      rw [← h2] at h1
      exact h1
    cases c with
    | io op => cases op with
      | put x =>
        refine (put_alikeAt P x hlike ?_).bind fun _ s t h1 => ⟨_, rfl, h1⟩
        by_cases hap : Apart i n o m
        · exact Or.inl hap
        · exact Or.inr (hd hap ⟨x, rfl⟩)
      | get =>
        have hb := ht.tracks.rel.outp.bottom
        have hg := get_alikeAt (w := w) hlike (by omega)
        refine AlikeAt.bind (R1 := Along (FinLike i n o m mem0)) ?_ fun _ s t h1 => ⟨_, rfl, h1⟩
        revert hg
        unfold Buf.get
        split
        · cases hp : (a.apart i n o m, w).1.popOut with
          | error e => exact fun _ => trivial
          | ok r =>
            obtain ⟨x, b'⟩ := r
            have : b'.ibufNext = a.ibufNext := by
              unfold Buf.popOut at hp
              split at hp
              · cases hp; rfl
              · cases hp
            rintro ⟨t', h1, h2⟩
            exact ⟨t', h1, hin _ _ h2 (by show b'.ibufNext ≤ n; rw [this]; exact hn)⟩
        · rintro ⟨t', h1, h2⟩
          exact ⟨t', h1, hin _ _ h2 hn⟩
      | isLoaded => exact ⟨_, rfl, hin (a.apart i n o m, w) (a, w) ⟨hlike, rfl⟩ hn⟩
    | replace j cb =>
      exact ⟨_, rfl, hin ((a.apart i n o m).replace j cb, w) (a.replace j cb, w) ⟨{ hlike with disp := rfl }, rfl⟩ hn⟩
    | replaceStatic j cb =>
      exact ⟨_, rfl, hin ((a.apart i n o m).replaceStatic j cb, w) (a.replaceStatic j cb, w) ⟨{ hlike with disp := rfl }, rfl⟩ hn⟩
    | pyReplace k fn =>
      unfold Call.run Call.runAt Buf.pyReplace Arena.pyReplace Buf.assign Arena.assign
      dsimp only
      by_cases hx : k.index % 256 ^ a.disp.idxBytes < a.disp.acts.length
      · rw [if_pos (show k.index % 256 ^ (a.apart i n o m).disp.idxBytes < (a.apart i n o m).disp.acts.length from hx), if_pos hx]
        exact ⟨_, rfl, hin _ _ ⟨{ hlike with disp := rfl }, rfl⟩ hn⟩
      · rw [if_neg (show ¬k.index % 256 ^ (a.apart i n o m).disp.idxBytes < (a.apart i n o m).disp.acts.length from hx)]; trivial
  rcases call_follows h ht.tracks c hok (fun h => by cases h) w with h1 | ⟨flt, h1, h2⟩
  · revert h1 hstep
    cases c.run P (a.apart i n o m, w) with
    | fault e => cases c.runM ((p, mch), w) with
      | fault e' => exact fun _ _ => trivial
      | ret => exact fun _ h => h.elim
      | threw => exact fun _ h => h.elim
    | threw s => cases c.runM ((p, mch), w) with
      | fault e' => exact fun _ h => h.elim
      | ret => exact fun _ h => h.elim
      | threw s' =>
        obtain ⟨b, w1⟩ := s
        obtain ⟨m1, w2⟩ := s'
        rintro ⟨⟨a', w3⟩, h1, h2⟩ h3
        cases h2
        cases h3
        exact ⟨a', h1⟩
    | ret r s => cases c.runM ((p, mch), w) with
      | fault e' => exact fun _ h => h.elim
      | threw => exact fun _ h => h.elim
      | ret r' s' =>
        obtain ⟨b, w1⟩ := s
        obtain ⟨⟨p1, m1⟩, w2⟩ := s'
        rintro ⟨⟨a', w3⟩, h1, h2, h3⟩ ⟨h4, h5, h6⟩
        cases h3
        cases h4
        cases h5
        exact ⟨a', h1, h2.tracks h6⟩
  · rcases h2 with ⟨_, h3⟩ | ⟨_, h3⟩
    · exact absurd ho h3
    · exact absurd hs h3

theorem arena_calls (h : Setup P K f defs) (hs : AllDecodeSafe P K) (ho : ResponsesWithin K m) : ∀ (cs : List (Call σ)) {a : Arena σ} {p : Proto σ}
    {mch : Machine} (_ : a.Tracks P K f i n o m mem0 p mch) (_ : ∀ c ∈ cs, c.Ok P K f) {w : σ} (_ : ¬Apart i n o m → DrainedM cs ((p, mch), w)),
    match runAll Call.runM cs ((p, mch), w) with
    | .ret rs ((p', mch'), w') => ∃ a', runAll (Call.runAt P) cs (a, w) = .ret rs (a', w') ∧ a'.Tracks P K f i n o m mem0 p' mch'
    | .threw (_, w') => ∃ a', runAll (Call.runAt P) cs (a, w) = .threw (a', w')
    | .fault _ => True
  | [], a, _, _, ht, _, _, _ => ⟨a, rfl, ht⟩
  | c :: cs, a, p, mch, ht, hok, w, hd => by
    have h1 := arena_call h hs ho ht c (hok c List.mem_cons_self) (fun hap hx => ht.isLoaded.trans ((hd hap).1 hx)) w
    unfold runAll
    cases hm : c.runM ((p, mch), w) with
    | fault e => rw [Eff.bind_fault hm]; trivial
    | threw s =>
      obtain ⟨s1, w1⟩ := s
      rw [hm] at h1
      obtain ⟨a', h2⟩ := h1
      rw [Eff.bind_threw hm, Eff.bind_threw h2]
      exact ⟨a', rfl⟩
    | ret r s =>
      obtain ⟨⟨p1, m1⟩, w1⟩ := s
      rw [hm] at h1
      obtain ⟨a1, h2, h3⟩ := h1
      rw [Eff.bind_ret hm, Eff.bind_ret h2]
      have h4 := arena_calls h hs ho cs h3 (fun c hc => hok c (List.mem_cons_of_mem _ hc)) (w := w1) (fun hap => (hd hap).2 r _ hm)
      cases hm2 : runAll Call.runM cs ((p1, m1), w1) with
      | fault e => rw [Eff.bind_fault hm2]; trivial
      | threw s =>
        obtain ⟨s1, w2⟩ := s
        rw [hm2] at h4
        obtain ⟨a', h5⟩ := h4
        rw [Eff.bind_threw hm2, Eff.bind_threw h5]
        exact ⟨a', rfl⟩
      | ret rs s =>
        obtain ⟨⟨p2, m2⟩, w2⟩ := s
        rw [hm2] at h4
        obtain ⟨a', h5, h6⟩ := h4
        rw [Eff.bind_ret hm2, Eff.bind_ret h5]
        exact ⟨a', rfl, h6⟩

/-- `put` is called at the same moments with both conditions. -/
theorem drained_machine (h : Setup P K f defs) (hs : AllDecodeSafe P K) (ho : ResponsesWithin K m) : ∀ (cs : List (Call σ)) {a : Arena σ} {p : Proto σ}
    {mch : Machine} (_ : a.Tracks P K f i n o m mem0 p mch) (_ : ∀ c ∈ cs, c.Ok P K f) {w : σ}, DrainedAt P cs (a, w) → DrainedM cs ((p, mch), w)
  | [], _, _, _, _, _, _, _ => trivial
  | c :: cs, a, p, mch, ht, hok, w, hd => by
    refine ⟨fun hx => ht.isLoaded.symm.trans (hd.1 hx), fun r st hr => ?_⟩
    have h1 := arena_call h hs ho ht c (hok c List.mem_cons_self) (fun _ => hd.1) w
    rw [hr] at h1
    obtain ⟨a', h2, h3⟩ := h1
    exact drained_machine h hs ho cs h3 (fun c hc => hok c (List.mem_cons_of_mem _ hc)) (hd.2 r _ h2)

theorem arena_make_tracks (h : Setup P K f defs) {mem : Mem} (hin : i + n ≤ mem.length) (hon : o + m ≤ mem.length) (hi : K.idxBytes ≤ n)
    (hq : RequestsWithin K n) (sizeMax : Nat) : (Arena.make K f defs sizeMax mem i o).Tracks P K f i n o m mem (protoOf K defs) Machine.init := by
  refine ⟨rfl, rfl, hin, hon, rfl, fun _ _ _ => rfl, ?_⟩
  have := custom_tracks (shared := false) (ibuf := slice mem i n) (obuf := slice mem o m) h (by rw [slice_length hin]; exact hi)
    (by rw [slice_length hin]; exact hq) sizeMax
  simp only [Bool.false_eq_true, if_false, slice_length hon] at this
  exact this

/-- **C116.** A dispatcher whose input buffer is the `n` bytes from the element `i` of an array and whose output buffer is the `m` bytes from the element
`o`, large enough for each request and each response, follows the machine, for any sequence of calls and of replacements of callbacks, whatever the array
contains at the beginning; the rest of the array is left as it was. If the buffers are not apart, this holds as long as `put` is only called when the
response has been got (`DrainedM`). (Nothing is said of executions in which a function has undefined behaviour.) -/
theorem C116_specified (h : Setup P K f defs) (hs : AllDecodeSafe P K) {mem : Mem} (hin : i + n ≤ mem.length) (hon : o + m ≤ mem.length) (hi : K.idxBytes ≤ n)
    (hq : RequestsWithin K n) (ho : ResponsesWithin K m) (sizeMax : Nat) (w : σ) (calls : List (Call σ)) (hok : ∀ c ∈ calls, c.Ok P K f)
    (hd : ¬Apart i n o m → DrainedM calls ((protoOf K defs, Machine.init), w)) :
    match runAll Call.runM calls ((protoOf K defs, Machine.init), w) with
    | .ret rs (_, w') => ∃ a, runAll (Call.runAt P) calls (Arena.make K f defs sizeMax mem i o, w) = .ret rs (a, w') ∧ a.mem.length = mem.length ∧
        ∀ k, ¬(i ≤ k ∧ k < i + n) → ¬(o ≤ k ∧ k < o + m) → a.mem[k]? = mem[k]?
    | .threw (_, w') => ∃ a, runAll (Call.runAt P) calls (Arena.make K f defs sizeMax mem i o, w) = .threw (a, w')
    | .fault _ => True := by
  have h1 := arena_calls h hs ho calls (arena_make_tracks h hin hon hi hq sizeMax) hok hd
  cases hm : runAll Call.runM calls ((protoOf K defs, Machine.init), w) with
  | fault e => trivial
  | threw s =>
    obtain ⟨s1, w1⟩ := s
    rw [hm] at h1
    exact h1
  | ret rs s =>
    obtain ⟨⟨p1, m1⟩, w1⟩ := s
    rw [hm] at h1
    obtain ⟨a, h2, h3⟩ := h1
    exact ⟨a, h2, h3.len, h3.frame⟩

/-- **C116**, with the condition in terms of what the dispatcher itself answers: `put` is only called when `is_loaded()` is false (`DrainedAt`). -/
theorem C116_anywhere (h : Setup P K f defs) (hs : AllDecodeSafe P K) {mem : Mem} (hin : i + n ≤ mem.length) (hon : o + m ≤ mem.length) (hi : K.idxBytes ≤ n)
    (hq : RequestsWithin K n) (ho : ResponsesWithin K m) (sizeMax : Nat) (w : σ) (calls : List (Call σ)) (hok : ∀ c ∈ calls, c.Ok P K f)
    (hd : ¬Apart i n o m → DrainedAt P calls (Arena.make K f defs sizeMax mem i o, w)) :
    match runAll Call.runM calls ((protoOf K defs, Machine.init), w) with
    | .ret rs (_, w') => ∃ a, runAll (Call.runAt P) calls (Arena.make K f defs sizeMax mem i o, w) = .ret rs (a, w') ∧ a.mem.length = mem.length ∧
        ∀ k, ¬(i ≤ k ∧ k < i + n) → ¬(o ≤ k ∧ k < o + m) → a.mem[k]? = mem[k]?
    | .threw (_, w') => ∃ a, runAll (Call.runAt P) calls (Arena.make K f defs sizeMax mem i o, w) = .threw (a, w')
    | .fault _ => True :=
  C116_specified h hs hin hon hi hq ho sizeMax w calls hok
    fun hap => drained_machine h hs ho calls (arena_make_tracks h hin hon hi hq sizeMax) hok (hd hap)

theorem arena_gets : ∀ (c : Nat) {a : Arena σ} {w : σ}, a.obufNext + c ≤ a.obufBottom → a.obegin + a.obufNext + c ≤ a.mem.length →
    ∃ rs, runAll (Call.runAt P) (List.replicate c (.io .get)) (a, w) = .ret rs ({ a with obufNext := a.obufNext + c }, w) ∧ rs.length = c
  | 0, a, w, _, _ => ⟨[], rfl, rfl⟩
  | c + 1, a, w, h1, h2 => by
    have hlt : a.obegin + a.obufNext < a.mem.length := by omega
    have hg : Call.runAt P (.io .get) (a, w) = .ret (.byte a.mem[a.obegin + a.obufNext]) ({ a with obufNext := a.obufNext + 1 }, w) := by
      show (Arena.get >>= fun x => pure (Obs.byte x)) (a, w) = _
      have : Arena.get (a, w) = .ret a.mem[a.obegin + a.obufNext] ({ a with obufNext := a.obufNext + 1 }, w) := by
        unfold Arena.get Arena.isLoaded Arena.popOut
        dsimp only
        rw [if_pos (by simp; omega), List.getElem?_eq_getElem hlt]
      rw [Eff.bind_ret this]
      rfl
    obtain ⟨rs, h3, h4⟩ := arena_gets c (a := { a with obufNext := a.obufNext + 1 }) (w := w) (by dsimp only; omega) (by dsimp only; omega)
    refine ⟨.byte a.mem[a.obegin + a.obufNext] :: rs, ?_, by simp [h4]⟩
    show (Call.runAt P (.io .get) >>= fun r => runAll (Call.runAt P) (List.replicate c (.io .get)) >>= fun rs => pure (r :: rs)) (a, w) = _
    rw [Eff.bind_ret hg, Eff.bind_ret h3]
    show Res.ret _ ({ a with obufNext := a.obufNext + 1 + c }, w) = _
    rw [Nat.add_assoc, Nat.add_comm 1 c]

/-- C116, what happens otherwise: if the next byte of the input buffer is the byte `j` of the response, which has not been got yet, a byte put in the
middle of an index or of the arguments takes its place. -/
theorem C116_overwritten {a : Arena σ} {w : σ} {j : Nat} (hj : a.obufNext + j < a.obufBottom) (he : a.ibegin + a.ibufNext = a.obegin + a.obufNext + j)
    (hl : 1 < a.loadCount) (hm : a.ibegin + a.ibufNext < a.mem.length) (x : Byte) :
    ∃ rs a', runAll (Call.runAt P) (.io (.put x) :: List.replicate j (.io .get)) (a, w) = .ret (.status .loading :: rs) (a', w) ∧ rs.length = j ∧
      ∃ a'', Call.runAt P (.io .get) (a', w) = .ret (.byte x) (a'', w) := by
  let a1 : Arena σ := { a with mem := a.mem.set (a.ibegin + a.ibufNext) x, ibufNext := a.ibufNext + 1, loadCount := decSize a.sizeMax a.loadCount }
  have hput : Call.runAt P (.io (.put x)) (a, w) = .ret (.status .loading) (a1, w) := by
    show (Arena.put P x >>= fun st => pure (Obs.status st)) (a, w) = _
    have : Arena.put P x (a, w) = .ret .loading (a1, w) := by
      unfold Arena.put Arena.pushIn
      show (Eff.lift (if a.ibegin + a.ibufNext < a.mem.length then _ else _) >>= _) (a, w) = _
      rw [if_pos hm, Eff.lift_ok, pure_bind]
      show (if decSize a.sizeMax a.loadCount > 0 then pure Status.loading else _ : Eff (Arena σ × σ) Status) (a1, w) = _
      rw [if_pos (by unfold decSize; rw [if_neg (by omega)]; omega)]
      rfl
    rw [Eff.bind_ret this]
    rfl
  have hlen : a1.mem.length = a.mem.length := List.length_set
  obtain ⟨rs, h1, h2⟩ := arena_gets (P := P) j (a := a1) (w := w) (Nat.le_of_lt hj) (by rw [hlen]; show a.obegin + a.obufNext + j ≤ _; omega)
  refine ⟨rs, { a1 with obufNext := a1.obufNext + j }, ?_, h2, { a1 with obufNext := a1.obufNext + j + 1 }, ?_⟩
  · show (Call.runAt P (.io (.put x)) >>= fun r => runAll (Call.runAt P) (List.replicate j (.io .get)) >>= fun rs => pure (r :: rs)) (a, w) = _
    rw [Eff.bind_ret hput, Eff.bind_ret h1]
    rfl
  · show (Arena.get >>= fun x => pure (Obs.byte x)) ({ a1 with obufNext := a1.obufNext + j }, w) = _
    have : Arena.get ({ a1 with obufNext := a1.obufNext + j }, w) = .ret x ({ a1 with obufNext := a1.obufNext + j + 1 }, w) := by
      unfold Arena.get Arena.isLoaded Arena.popOut
      dsimp only
      have hx : a1.mem[a1.obegin + (a1.obufNext + j)]? = some x := by
        show (a.mem.set (a.ibegin + a.ibufNext) x)[a.obegin + (a.obufNext + j)]? = _
        rw [List.getElem?_set, if_pos (by omega), if_pos hm]
      rw [if_pos (by show (a.obufNext + j != a.obufBottom) = true; simp; omega), hx]
    rw [Eff.bind_ret this]
    rfl

/-- `uint16_t f(uint8_t, uint8_t)`. -/
def arenaPairRing : Keyring := { e := .big, s := .twosComplement, decls := [⟨0, ⟨[.uint 1, .uint 1], some (.uint 2)⟩⟩] }

/-- `return 256 * x + y;` -/
def arenaPairDefs (_ : Nat) (args : List Val) : Eff Unit (Option Val) := fun w =>
  match args with
  | [.int x, .int y] => .ret (some (.int (256 * x + y))) w
  | _ => .fault .illTyped

theorem arenaPair_setup : Setup pc arenaPairRing .any arenaPairDefs where
  valid := pc_valid
  ring := ⟨by decide, by simp [arenaPairRing, SigOk, Ty.WFs, Ty.WF, PackedAll, Packed]⟩
  sup := pc_supported _ _
  sizes := by intro h; cases h
  typed := by
    intro d hd args w r w' hf h
    simp only [arenaPairRing, List.mem_singleton] at hd
    subst hd
    match args, hf with
    | [.int x, .int y], hf =>
      cases h
      simp [Val.FitsAll, Val.Fits] at hf
      simp [RetOk, Val.Fits]
      omega

def arenaPairCalls : List (Call Unit) :=
  [.io (.put 0#8), .io (.put 7#8), .io (.put 9#8), .io .isLoaded, .io .get, .io .get, .io (.put 0#8), .io (.put 1#8), .io (.put 2#8), .io .get]

/-- `DrainedM` of a list of calls, computed. -/
def arenaDrainedB : List (Call σ) → (Proto σ × Machine) × σ → Bool
  | [], _ => true
  | c :: cs, st => (match c with | .io (.put _) => !st.1.2.isLoaded | _ => true) && (match c.runM st with | .ret _ st' => arenaDrainedB cs st' | _ => true)

theorem arenaDrainedB_sound : ∀ (cs : List (Call σ)) (st : (Proto σ × Machine) × σ), arenaDrainedB cs st = true → DrainedM cs st
  | [], _, _ => trivial
  | c :: cs, st, h => by
    unfold arenaDrainedB at h
    rw [Bool.and_eq_true] at h
    refine ⟨?_, fun o st' hr => ?_⟩
    · rintro ⟨x, rfl⟩
      simpa using h.1
    · have := h.2
      rw [hr] at this
      exact arenaDrainedB_sound cs st' this

/-- `C116_specified` of calls which return. -/
theorem arena_returns (h : Setup P K f defs) (hs : AllDecodeSafe P K) {mem : Mem} (hin : i + n ≤ mem.length) (hon : o + m ≤ mem.length) (hi : K.idxBytes ≤ n)
    (hq : RequestsWithin K n) (ho : ResponsesWithin K m) (sizeMax : Nat) (w : σ) (calls : List (Call σ)) (hok : ∀ c ∈ calls, c.Ok P K f)
    (hd : ¬Apart i n o m → DrainedM calls ((protoOf K defs, Machine.init), w)) {rs : List Obs} {st : Proto σ × Machine} {w' : σ}
    (hm : runAll Call.runM calls ((protoOf K defs, Machine.init), w) = .ret rs (st, w')) :
    ∃ a, runAll (Call.runAt P) calls (Arena.make K f defs sizeMax mem i o, w) = .ret rs (a, w') ∧ a.mem.length = mem.length ∧
        ∀ k, ¬(i ≤ k ∧ k < i + n) → ¬(o ≤ k ∧ k < o + m) → a.mem[k]? = mem[k]? := by
  have h1 := C116_specified h hs hin hon hi hq ho sizeMax w calls hok hd
  rw [hm] at h1
  exact h1

/-- The results of an execution which returns. -/
def arenaResultsOf (r : Res ((Proto Unit × Machine) × Unit) (List Obs)) : Option (List Obs) :=
  match r with
  | .ret rs _ => some rs
  | _ => none

theorem arenaPair_results : arenaResultsOf (runAll Call.runM arenaPairCalls ((protoOf arenaPairRing arenaPairDefs, Machine.init), ())) = some [.status .loading, .status .loading,
    .status .resolved, .bool true, .byte 7#8, .byte 9#8, .status .loading, .status .loading, .status .resolved, .byte 1#8] := by decide +kernel

/-- An array of 6 bytes, requests at the elements 1 to 3, responses at the elements 3 and 4. Two calls, the second one after the response to the first
one has been got. -/
example : ∃ a, runAll (Call.runAt pc) arenaPairCalls (Arena.make arenaPairRing .any arenaPairDefs 255 [0xaa#8, 0#8, 0#8, 0#8, 0#8, 0xbb#8] 1 3, ()) =
    .ret [.status .loading, .status .loading, .status .resolved, .bool true, .byte 7#8, .byte 9#8, .status .loading, .status .loading, .status .resolved,
      .byte 1#8] (a, ()) ∧ a.mem.length = 6 ∧
      ∀ k, ¬(1 ≤ k ∧ k < 1 + 3) → ¬(3 ≤ k ∧ k < 3 + 2) → a.mem[k]? = [0xaa#8, 0#8, 0#8, 0#8, 0#8, 0xbb#8][k]? := by
  have hr := arenaPair_results
  generalize hx : runAll Call.runM arenaPairCalls ((protoOf arenaPairRing arenaPairDefs, Machine.init), ()) = r at hr
  unfold arenaResultsOf at hr
  split at hr
  · rename_i rs st
    obtain ⟨st, w⟩ := st
    cases hr
    exact arena_returns (i := 1) (n := 3) (o := 3) (m := 2) arenaPair_setup (by simp [AllDecodeSafe, arenaPairRing, DecodeSafeAll, DecodeSafe])
      (mem := [0xaa#8, 0#8, 0#8, 0#8, 0#8, 0xbb#8]) (by decide) (by decide) (by decide)
      (by simp [RequestsWithin, arenaPairRing, wireSizes, wireSize]; decide) (by simp [ResponsesWithin, arenaPairRing, retSize, wireSize]) 255 ()
      arenaPairCalls (by simp [Call.Ok, arenaPairCalls]) (fun _ => arenaDrainedB_sound _ _ (by decide +kernel)) hx
  · cases hr

/-- Requests at the elements 0 to 2, responses at the elements 1 and 2: the response 0x0709 is ready; the next request, put too early, replaces its first
byte. -/
example : ∃ rs a', runAll (Call.runAt pc) [.io (.put 5#8)]
      (⟨Dispatcher.make arenaPairRing .any arenaPairDefs, 255, [0#8, 7#8, 9#8], 0, 1, true, 2, 1, 0, 2⟩, ()) = .ret (.status .loading :: rs) (a', ()) ∧ rs.length = 0 ∧
      ∃ a'', Call.runAt pc (.io .get) (a', ()) = .ret (.byte 5#8) (a'', ()) :=
  C116_overwritten (j := 0) (by decide) (by decide) (by decide) (by decide) 5#8

end Upd
