import Verif.Lemmas.Overlap

/-!
# C93: a response is sent while it is being output
-/

namespace Upd

open Spec

variable {σ : Type}

/-- C93 as stated: a handler which sends the next byte of the output, if any, may run any number of times at any points of `put`: everything happens as if
it had run some number of times just before `put`, and some number of times just after. -/
def C93_Statement : Prop :=
  ∀ (σ : Type) (P : Platform) (K : Keyring) (f : Features) (defs : Nat → List Val → Eff σ (Option Val)) (st : BState σ) (x : Byte)
    (runs : CallPoint → Nat) (bottomFirst : Bool) (tx : Byte → Eff σ Unit), Setting P K f defs → ResponsesFit K false → AllDecodeSafe P K →
    (∀ y w, ∃ w', tx y w = .ret () w') → Reachable P K f defs false st →
    ∃ i j, Buf.putMany P (Buf.txIsr tx) runs bottomFirst x st =
      (do times (Buf.txIsr tx) i; let s ← Buf.put P x; times (Buf.txIsr tx) j; pure s : Eff (BState σ) Status) st

/-- A transmitter which discards the bytes. -/
def discard : Byte → Eff Unit Unit := fun _ w => .ret () w

/-- C93 does not hold: `call()` sets `m_obuf_bottom` to 0 before `m_obuf_next` (include/upd/buffered_dispatcher.hpp:261-262); in between, a handler which
runs though the output has been drained reads out of the output buffer. -/
theorem C93_full_statement_is_false : ¬ C93_Statement := by
  intro h
  obtain ⟨i, j, h1⟩ := h Unit pc echoRing .any echoDefs (drained, ()) 1#8 (fun pt => if pt = .betweenResets then 1 else 0) false
    discard (echo_setting .any) echo_fit echo_decode (fun _ w => ⟨w, rfl⟩) drained_reachable
  have h2 : Buf.putMany pc (Buf.txIsr discard) (fun pt => if pt = .betweenResets then 1 else 0) false 1#8 (drained, ()) =
    .fault .obufOverrun := rfl
  have h3 : Buf.put pc 1#8 (drained, ()) = .ret .resolved ({ drained with ibuf := [1#8, 5#8], obufNext := 0, obufBottom := 0 }, ()) := rfl
  rw [h2, Eff.bind_ret (times_none (b := drained) i rfl), Eff.bind_ret h3,
    Eff.bind_ret (times_none (b := { drained with ibuf := [1#8, 5#8], obufNext := 0, obufBottom := 0 }) j rfl)] at h1
  cases h1

section
variable {P : Platform} {K : Keyring} {f : Features} {defs : Nat → List Val → Eff σ (Option Val)}

theorem proto_mem {cb : Callback σ} (hcb : cb ∈ (protoOf K defs).cbs) : ∃ d ∈ K.decls, cb = ⟨d.sig, defs d.name⟩ := by
  obtain ⟨d, h1, h2⟩ := List.mem_map.mp hcb
  exact ⟨d, h1, h2.symm⟩

theorem proto_fit (ho : ResponsesFit K false) {b : Buf σ} (hlen : b.out.length = outRoom K false) :
    ∀ cb ∈ (protoOf K defs).cbs, retSize cb.sig.ret ≤ b.out.length := by
  intro cb hcb
  obtain ⟨d, h1, rfl⟩ := proto_mem hcb
  rw [hlen]
  exact ho d h1

theorem proto_safe (hs : AllDecodeSafe P K) : ∀ cb ∈ (protoOf K defs).cbs, DecodeSafeAll P (protoOf K defs).e (protoOf K defs).s cb.sig.params := by
  intro cb hcb
  obtain ⟨d, h1, rfl⟩ := proto_mem hcb
  exact hs d h1

/-- C93, exactly, partial: the handler runs between the two resets as many times as there are bytes to send, at most (any number of times if no byte of
the previous response has been read); if `m_obuf_bottom` is incremented before the byte is written, the handler does not run in between so many times
that it would catch up. Then what it does between the resets is what it would have done before `put`, and what it does while the response is output is
what it would have done after. If `put` completes no request, the handler has not run. Missing: the other numbers of runs
(`C93_full_statement_is_false`, `C93_bottom_first`). -/
theorem C93_exact_partial (h : Setting P K f defs) (ho : ResponsesFit K false) (hs : AllDecodeSafe P K) {b : Buf σ} {w : σ}
    (hr : Reachable P K f defs false (b, w)) {u : List Byte} (hu : Unread b u) {tx : Byte → Eff σ Unit} (htx : ∀ y w, ∃ w', tx y w = .ret () w')
    {runs : CallPoint → Nat} {bottomFirst : Bool} (hres : b.obufNext ≠ 0 → runs .betweenResets ≤ u.length)
    (hmid : bottomFirst = true → ∀ k, sentSoFar runs k + runs (.beforeStore k) ≤ k) {st : BState σ}
    (hst : times (Buf.txIsr tx) (if b.obufNext = 0 then 0 else runs .betweenResets) (b, w) = .ret () st) (x : Byte) :
    match Buf.put P x st with
    | .ret s (b1, w1) =>
      if s = .resolved then
        ∀ resp, Unread b1 resp → Buf.putMany P (Buf.txIsr tx) runs bottomFirst x (b, w) =
          (do times (Buf.txIsr tx) (sentSoFar runs resp.length); pure s : Eff (BState σ) Status) (b1, w1)
      else Buf.putMany P (Buf.txIsr tx) runs bottomFirst x (b, w) = Buf.put P x (b, w)
    | .threw t => Buf.putMany P (Buf.txIsr tx) runs bottomFirst x (b, w) = .threw t
    | .fault e => Buf.putMany P (Buf.txIsr tx) runs bottomFirst x (b, w) = .fault e := by
  obtain ⟨hb, hlen, hsh, m, hm⟩ := reachable_inv h hr
  obtain ⟨T, hT⟩ : ∃ T : Byte → σ → σ, ∀ y w, tx y w = .ret () (T y w) :=
    ⟨fun y w => Classical.choose (htx y w), fun y w => Classical.choose_spec (htx y w)⟩
  have hle : (if b.obufNext = 0 then 0 else runs .betweenResets) ≤ u.length := by
    split
    · omega
    · rename_i h0; exact hres h0
  rw [times_unread hT _ hu, Nat.min_eq_left hle] at hst
  cases hst
  have hcore := putMany_core hT h.valid hb hsh hm.inp hu (proto_fit ho hlen) (proto_safe hs) hmid hres rfl x w
  revert hcore
  cases he : Buf.put P x ({ b with obufNext := b.obufNext + (if b.obufNext = 0 then 0 else runs .betweenResets) },
      txAll T (u.take (if b.obufNext = 0 then 0 else runs .betweenResets)) w) with
  | threw t => exact id
  | fault e => exact id
  | ret s t =>
    obtain ⟨b1, w1⟩ := t
    by_cases hres' : s = .resolved
    · simp only [if_pos hres']
      rintro ⟨h0, hcore⟩ resp hresp
      have hsl := sentSoFar_le runs resp.length
      rw [hcore resp hresp, Eff.bind_ret (times_unread hT _ hresp), Nat.min_eq_left hsl, h0, Nat.zero_add]
      rfl
    · simp only [if_neg hres']
      intro hcore
      have := put_next_world h.valid (hb.same (same_next b _)) (relIn_next hm.inp _) hres' he b.obufNext w
      exact hcore.trans (Eq.symm this)

/-- What a dispatcher satisfies between two bytes put into it, for whoever sends the output. -/
structure Steady (P : Platform) (K : Keyring) (defs : Nat → List Val → Eff σ (Option Val)) (b : Buf σ) : Prop where
  ok : BufOk P (protoOf K defs) b
  own : b.shared = false
  inp : ∃ l, RelIn (protoOf K defs) b l
  outp : ∃ u, Unread b u
  len : b.out.length = outRoom K false

theorem steady_of (h : Setting P K f defs) {b : Buf σ} {w : σ} (hr : Reachable P K f defs false (b, w)) : Steady P K defs b := by
  obtain ⟨hb, hlen, hsh, m, hm⟩ := reachable_inv h hr
  exact ⟨hb, hsh, ⟨_, hm.inp⟩, ⟨_, hm.outp⟩, hlen⟩

theorem Steady.next {b : Buf σ} (h : Steady P K defs b) {n : Nat} (hn : n ≤ b.obufBottom) : Steady P K defs { b with obufNext := n } := by
  obtain ⟨hb, hsh, ⟨l, hl⟩, ⟨u, hu⟩, hlen⟩ := h
  exact ⟨hb.same (same_next b n), hsh, ⟨l, relIn_next hl n⟩, unread_exists hn hu.le, hlen⟩

theorem Steady.put {b b' : Buf σ} (hP : P.Valid) (h : Steady P K defs b) {x : Byte} {w w' : σ} {s : Status}
    (he : Buf.put P x (b, w) = .ret s (b', w')) : Steady P K defs b' := by
  obtain ⟨hb, hsh, ⟨l, hl⟩, ⟨u, hu⟩, hlen⟩ := h
  have := put_outcome hP (m := ⟨l, u⟩) ⟨hl, hu⟩ hb x w
  rw [he] at this
  obtain ⟨hs, h0⟩ := this
  refine ⟨hb.same hs, by rw [hs.shared, hsh], ?_, ?_, by rw [hs.outLen, hlen]⟩
  · rcases h0 with ⟨_, h1, _⟩ | ⟨_, h1, _⟩ | ⟨_, h1, _⟩ <;> exact ⟨_, h1⟩
  · rcases h0 with ⟨_, _, h1, _⟩ | ⟨_, _, h1, _⟩ | ⟨_, _, h1⟩
    · exact unread_any hu hs h1
    · exact unread_any hu hs h1
    · exact h1

theorem steady_serializable (hP : P.Valid) (ho : ResponsesFit K false) (hs : AllDecodeSafe P K) {b : Buf σ} (hb : Steady P K defs b) {u : List Byte}
    (hu : Unread b u) {tx : Byte → Eff σ Unit} {T : Byte → σ → σ} (hT : ∀ y w, tx y w = .ret () (T y w)) {runs : CallPoint → Nat} {bf : Bool}
    (hres : b.obufNext ≠ 0 → runs .betweenResets ≤ u.length) (hmid : bf = true → ∀ k, sentSoFar runs k + runs (.beforeStore k) ≤ k) (x : Byte) (w : σ) :
    ∃ i j, i ≤ runs .betweenResets ∧ Buf.putMany P (Buf.txIsr tx) runs bf x (b, w) =
      (do times (Buf.txIsr tx) i; let s ← Buf.put P x; times (Buf.txIsr tx) j; pure s : Eff (BState σ) Status) (b, w) := by
  obtain ⟨hok, hsh, ⟨l, hl⟩, _, hlen⟩ := hb
  have hle : (if b.obufNext = 0 then 0 else runs .betweenResets) ≤ u.length := by
    split
    · omega
    · rename_i h0; exact hres h0
  obtain ⟨i, hi⟩ : ∃ i, i = (if b.obufNext = 0 then 0 else runs .betweenResets) := ⟨_, rfl⟩
  have hcore := putMany_core hT hP hok hsh hl hu (proto_fit ho hlen) (proto_safe hs) hmid hres hi x w
  rw [← hi] at hle
  have hsend := times_unread hT i (w := w) hu
  rw [Nat.min_eq_left hle] at hsend
  have hri : i ≤ runs .betweenResets := by rw [hi]; split <;> omega
  revert hcore
  cases he : Buf.put P x ({ b with obufNext := b.obufNext + i }, txAll T (u.take i) w) with
  | threw t =>
    intro hcore
    exact ⟨i, 0, hri, by rw [Eff.bind_ret hsend, Eff.bind_threw he]; exact hcore⟩
  | fault e =>
    intro hcore
    exact ⟨i, 0, hri, by rw [Eff.bind_ret hsend, Eff.bind_fault he]; exact hcore⟩
  | ret s t =>
    obtain ⟨b1, w1⟩ := t
    by_cases hres' : s = .resolved
    · simp only [if_pos hres']
      rintro ⟨h0, hcore⟩
      obtain ⟨resp, hresp⟩ := (Steady.put (K := K) (defs := defs) hP (Steady.next ⟨hok, hsh, ⟨l, hl⟩, ⟨u, hu⟩, hlen⟩ (by
        have := hu.bottom; omega)) he).outp
      refine ⟨i, sentSoFar runs resp.length, hri, ?_⟩
      have hsl := sentSoFar_le runs resp.length
      rw [hcore resp hresp, Eff.bind_ret hsend, Eff.bind_ret he, Eff.bind_ret (times_unread hT _ hresp), Nat.min_eq_left hsl, h0, Nat.zero_add]
      rfl
    · simp only [if_neg hres']
      intro hcore
      have := put_next_world hP (hok.same (same_next b _)) (relIn_next hl _) hres' he b.obufNext w
      have hput : Buf.put P x (b, w) = .ret s ({ b1 with obufNext := b.obufNext }, w) := this
      refine ⟨0, 0, Nat.zero_le _, ?_⟩
      rw [hcore, Eff.bind_ret (show times (Buf.txIsr tx) 0 (b, w) = .ret () (b, w) from rfl), Eff.bind_ret hput]
      rfl

/-- C93, partial: under the conditions of `C93_exact_partial`, `put` and the runs of the handler may be ordered: everything happens as if the handler had
run some number of times just before `put`, and some number of times just after. -/
theorem C93_serializable_partial (h : Setting P K f defs) (ho : ResponsesFit K false) (hs : AllDecodeSafe P K) {b : Buf σ} {w : σ}
    (hr : Reachable P K f defs false (b, w)) {u : List Byte} (hu : Unread b u) {tx : Byte → Eff σ Unit} (htx : ∀ y w, ∃ w', tx y w = .ret () w')
    {runs : CallPoint → Nat} {bottomFirst : Bool} (hres : b.obufNext ≠ 0 → runs .betweenResets ≤ u.length)
    (hmid : bottomFirst = true → ∀ k, sentSoFar runs k + runs (.beforeStore k) ≤ k) (x : Byte) :
    ∃ i j, Buf.putMany P (Buf.txIsr tx) runs bottomFirst x (b, w) =
      (do times (Buf.txIsr tx) i; let s ← Buf.put P x; times (Buf.txIsr tx) j; pure s : Eff (BState σ) Status) (b, w) := by
  obtain ⟨i, j, _, h1⟩ := steady_serializable h.valid ho hs (steady_of h hr) hu (T := fun y w => Classical.choose (htx y w))
    (fun y w => Classical.choose_spec (htx y w)) hres hmid x w
  exact ⟨i, j, h1⟩

theorem txAll_accepts {tx : Byte → Eff σ Unit} {T : Byte → σ → σ} (hT : ∀ y w, tx y w = .ret () (T y w)) :
    ∀ (l : List Byte) (w : σ), Accepts tx w l (txAll T l w)
  | [], w => .nil w
  | y :: l, w => .cons (hT y w) (txAll_accepts hT l _)

/-- C93, what is sent, partial: if the handler does not run between the two resets, the bytes it sends while the response is being output are the first
bytes of the response, in order, and the other ones remain to be read. How many is what a transmitter would have sent which never sends a byte before
it has been output. Missing: as in `C93_exact_partial`. -/
theorem C93_sent_partial (h : Setting P K f defs) (ho : ResponsesFit K false) (hs : AllDecodeSafe P K) {b b1 : Buf σ} {w w1 : σ}
    (hr : Reachable P K f defs false (b, w)) {tx : Byte → Eff σ Unit} (htx : ∀ y w, ∃ w', tx y w = .ret () w') {runs : CallPoint → Nat}
    {bottomFirst : Bool} (hres : runs .betweenResets = 0) (hmid : bottomFirst = true → ∀ k, sentSoFar runs k + runs (.beforeStore k) ≤ k) {x : Byte}
    (hput : Buf.put P x (b, w) = .ret .resolved (b1, w1)) {resp : List Byte} (hresp : Unread b1 resp) :
    ∃ b2 w2, Buf.putMany P (Buf.txIsr tx) runs bottomFirst x (b, w) = .ret .resolved (b2, w2) ∧
      Accepts tx w1 (resp.take (sentSoFar runs resp.length)) w2 ∧ Unread b2 (resp.drop (sentSoFar runs resp.length)) := by
  obtain ⟨hb, hlen, hsh, m, hm⟩ := reachable_inv h hr
  obtain ⟨T, hT⟩ : ∃ T : Byte → σ → σ, ∀ y w, tx y w = .ret () (T y w) :=
    ⟨fun y w => Classical.choose (htx y w), fun y w => Classical.choose_spec (htx y w)⟩
  have hcore := putMany_core hT h.valid hb hsh hm.inp hm.outp (proto_fit ho hlen) (proto_safe hs) (i := 0) hmid (fun _ => by omega)
    (by split <;> omega) x w
  have hput' : Buf.put P x ({ b with obufNext := b.obufNext + 0 }, txAll T (m.out.take 0) w) = .ret .resolved (b1, w1) := hput
  rw [hput'] at hcore
  obtain ⟨h0, hcore⟩ := hcore
  refine ⟨_, _, hcore resp hresp, txAll_accepts hT _ _, ?_⟩
  have := unread_drop (sentSoFar runs resp.length) hresp (sentSoFar_le runs _)
  rwa [h0, Nat.zero_add] at this

/-- C93: until a request is completed, the order in which a byte is put and the handler runs does not matter: hence the handler may run at any point of
this `put`. -/
theorem C93_commutes (h : Setting P K f defs) {b b1 : Buf σ} {w w1 : σ} (hr : Reachable P K f defs false (b, w)) {tx : Byte → Eff σ Unit}
    (htx : ∀ y w, ∃ w', tx y w = .ret () w') {x : Byte} {s : Status} (hput : Buf.put P x (b, w) = .ret s (b1, w1)) (hs : s ≠ .resolved) (n : Nat) :
    (do times (Buf.txIsr tx) n; Buf.put P x : Eff (BState σ) Status) (b, w) =
      (do let s ← Buf.put P x; times (Buf.txIsr tx) n; pure s : Eff (BState σ) Status) (b, w) := by
  obtain ⟨hb, hlen, hsh, m, hm⟩ := reachable_inv h hr
  obtain ⟨T, hT⟩ : ∃ T : Byte → σ → σ, ∀ y w, tx y w = .ret () (T y w) :=
    ⟨fun y w => Classical.choose (htx y w), fun y w => Classical.choose_spec (htx y w)⟩
  have ho := put_outcome h.valid hm hb x w
  rw [hput] at ho
  obtain ⟨hsame, ho⟩ := ho
  have hos : OutSame b b1 ∧ w1 = w := by
    rcases ho with ⟨_, _, h1, h2⟩ | ⟨_, _, h1, h2⟩ | ⟨h1, _⟩
    · exact ⟨h1, h2⟩
    · exact ⟨h1, h2⟩
    · exact absurd h1 hs
  obtain ⟨hos, rfl⟩ := hos
  have hu : Unread b1 m.out := unread_keep hm.outp hsame hos (fun he => by rw [hsh] at he; cases he)
  rw [Eff.bind_ret (times_unread hT n hm.outp), Eff.bind_ret hput, Eff.bind_ret (times_unread hT n hu), hos.next]
  exact put_next_world h.valid hb hm.inp hs hput _ _

/-- Bytes are put; the handler runs the given number of times before each of them, and at the given points while it is put. -/
def overlapped (P : Platform) (isr : Eff (BState σ) Unit) (bottomFirst : Bool) : List (Nat × Byte × (CallPoint → Nat)) → Eff (BState σ) (List Status)
  | [] => pure []
  | (n, x, runs) :: l => do
    times isr n
    let s ← Buf.putMany P isr runs bottomFirst x
    let ss ← overlapped P isr bottomFirst l
    pure (s :: ss)

/-- Bytes are put; the handler runs the given number of times before each of them, and the given number of times after. -/
def inTurn (P : Platform) (isr : Eff (BState σ) Unit) : List (Nat × Byte × Nat) → Eff (BState σ) (List Status)
  | [] => pure []
  | (n, x, j) :: l => do
    times isr n
    let s ← Buf.put P x
    times isr j
    let ss ← inTurn P isr l
    pure (s :: ss)

theorem steady_session (hP : P.Valid) (ho : ResponsesFit K false) (hs : AllDecodeSafe P K) {tx : Byte → Eff σ Unit} {T : Byte → σ → σ}
    (hT : ∀ y w, tx y w = .ret () (T y w)) {bf : Bool} : ∀ {evs : List (Nat × Byte × (CallPoint → Nat))} {b : Buf σ} {w : σ}, Steady P K defs b →
    (∀ e ∈ evs, e.2.2 .betweenResets = 0 ∧ (bf = true → ∀ k, sentSoFar e.2.2 k + e.2.2 (.beforeStore k) ≤ k)) →
    ∃ js : List Nat, js.length = evs.length ∧
      overlapped P (Buf.txIsr tx) bf evs (b, w) = inTurn P (Buf.txIsr tx) (List.zipWith (fun e j => (e.1, e.2.1, j)) evs js) (b, w)
  | [], _, _, _, _ => ⟨[], rfl, rfl⟩
  | (n, x, runs) :: evs, b, w, hb, hev => by
    obtain ⟨u, hu⟩ := hb.outp
    have hsend := times_unread hT n (w := w) hu
    have hu' := unread_min n hu
    obtain ⟨b0, hb0⟩ : ∃ b0 : Buf σ, b0 = { b with obufNext := b.obufNext + min n u.length } := ⟨_, rfl⟩
    have hst0 : Steady P K defs b0 := hb0 ▸ hb.next (by have := hu.bottom; omega)
    rw [← hb0] at hsend hu'
    obtain ⟨h1, h2⟩ := hev _ (List.mem_cons_self ..)
    have h1 : runs .betweenResets = 0 := h1
    obtain ⟨i, j, hi, hij⟩ := steady_serializable hP ho hs hst0 hu' hT (runs := runs) (fun _ => by rw [h1]; exact Nat.zero_le _) h2 x (txAll T (u.take n) w)
    have hi0 : i = 0 := by omega
    subst hi0
    have hij : Buf.putMany P (Buf.txIsr tx) runs bf x (b0, txAll T (u.take n) w) =
      (do let s ← Buf.put P x; times (Buf.txIsr tx) j; pure s : Eff (BState σ) Status) (b0, txAll T (u.take n) w) := hij
    have hone : ∀ js, inTurn P (Buf.txIsr tx) (List.zipWith (fun e j => (e.1, e.2.1, j)) ((n, x, runs) :: evs) (j :: js)) (b, w) =
        (Buf.put P x >>= fun s => times (Buf.txIsr tx) j >>= fun _ =>
          inTurn P (Buf.txIsr tx) (List.zipWith (fun e j => (e.1, e.2.1, j)) evs js) >>= fun ss => pure (s :: ss)) (b0, txAll T (u.take n) w) := by
      intro js
      show (times (Buf.txIsr tx) n >>= _) (b, w) = _
      rw [Eff.bind_ret hsend]
    have hmany : overlapped P (Buf.txIsr tx) bf ((n, x, runs) :: evs) (b, w) =
        (Buf.putMany P (Buf.txIsr tx) runs bf x >>= fun s => overlapped P (Buf.txIsr tx) bf evs >>= fun ss => pure (s :: ss))
          (b0, txAll T (u.take n) w) := by
      show (times (Buf.txIsr tx) n >>= _) (b, w) = _
      rw [Eff.bind_ret hsend]
    cases he : Buf.put P x (b0, txAll T (u.take n) w) with
    | threw t =>
      refine ⟨j :: evs.map fun _ => 0, by simp, ?_⟩
      rw [Eff.bind_threw he] at hij
      rw [hmany, hone, Eff.bind_threw hij, Eff.bind_threw he]
    | fault e =>
      refine ⟨j :: evs.map fun _ => 0, by simp, ?_⟩
      rw [Eff.bind_fault he] at hij
      rw [hmany, hone, Eff.bind_fault hij, Eff.bind_fault he]
    | ret s t =>
      obtain ⟨b1, w1⟩ := t
      have hst1 := hst0.put hP he
      obtain ⟨u1, hu1⟩ := hst1.outp
      have hlast := times_unread hT j (w := w1) hu1
      rw [Eff.bind_ret he, Eff.bind_ret hlast] at hij
      obtain ⟨js, hjs, hrest⟩ := steady_session hP ho hs hT (w := txAll T (u1.take j) w1)
        (hst1.next (n := b1.obufNext + min j u1.length) (by have := hu1.bottom; omega)) (fun e he => hev e (List.mem_cons_of_mem _ he))
      refine ⟨j :: js, by simp [hjs], ?_⟩
      rw [hmany, hone, Eff.bind_ret (hij.trans rfl), Eff.bind_ret he, Eff.bind_ret hlast]
      cases hx : overlapped P (Buf.txIsr tx) bf evs ({ b1 with obufNext := b1.obufNext + min j u1.length }, txAll T (u1.take j) w1) with
      | threw t => rw [Eff.bind_threw hx, Eff.bind_threw (hrest ▸ hx)]
      | fault e => rw [Eff.bind_fault hx, Eff.bind_fault (hrest ▸ hx)]
      | ret ss t => rw [Eff.bind_ret hx, Eff.bind_ret (hrest ▸ hx)]

/-- C93, whole sessions, partial: if the handler never runs between the two resets (nor catches up with a byte not yet written), then however it
overlaps with the bytes put, everything happens as if it had run only between them. Missing: as in `C93_exact_partial`. -/
theorem C93_session_partial (h : Setting P K f defs) (ho : ResponsesFit K false) (hs : AllDecodeSafe P K) {b : Buf σ} {w : σ}
    (hr : Reachable P K f defs false (b, w)) {tx : Byte → Eff σ Unit} (htx : ∀ y w, ∃ w', tx y w = .ret () w') {bottomFirst : Bool}
    {evs : List (Nat × Byte × (CallPoint → Nat))}
    (hev : ∀ e ∈ evs, e.2.2 .betweenResets = 0 ∧ (bottomFirst = true → ∀ k, sentSoFar e.2.2 k + e.2.2 (.beforeStore k) ≤ k)) :
    ∃ js : List Nat, js.length = evs.length ∧ overlapped P (Buf.txIsr tx) bottomFirst evs (b, w) =
      inTurn P (Buf.txIsr tx) (List.zipWith (fun e j => (e.1, e.2.1, j)) evs js) (b, w) :=
  steady_session h.valid ho hs (T := fun y w => Classical.choose (htx y w)) (fun y w => Classical.choose_spec (htx y w)) (steady_of h hr) hev

end

/-! ## Concrete uses -/

/-- The functions of `pairRing`, and the bytes sent so far. -/
def loggedDefs : Nat → List Val → Eff (List Byte) (Option Val) := fun name _ w => .ret (if name = 1 then some (.int 0x1234) else none) w

/-- A transmitter which remembers the bytes. -/
def logTx : Byte → Eff (List Byte) Unit := fun y w => .ret () (w ++ [y])

theorem logged_setting (f : Features) : Setting pc pairRing f loggedDefs where
  valid := pc_valid
  ring := ⟨by decide, by simp [pairRing, SigOk, Ty.WFs, Ty.WF, PackedAll, Packed]⟩
  sup := pc_supported _ _
  sizes := by simp [pairRing, Ty.sizeof, wireSize]
  typed := by
    intro d hd args w r w' _ h
    simp only [pairRing, List.mem_cons, List.not_mem_nil, or_false] at hd
    rcases hd with rfl | rfl <;> cases h <;> simp [RetOk, Val.Fits]

theorem logged_fit : ResponsesFit pairRing false := by
  have h : neededOutput pairRing = 2 := rfl
  intro d hd
  simp only [pairRing, List.mem_cons, List.not_mem_nil, or_false] at hd
  rcases hd with rfl | rfl <;> simp [h, retSize, wireSize]

/-- A dispatcher which has received nothing. -/
def start : Buf (List Byte) := fresh pc pairRing .any loggedDefs 65535 false

theorem start_reachable : Reachable pc pairRing .any loggedDefs false (start, []) := ⟨65535, [], .start⟩

theorem logged_decode : AllDecodeSafe pc pairRing := by simp [AllDecodeSafe, pairRing, DecodeSafeAll, DecodeSafe]

theorem logTx_total : ∀ (y : Byte) (w : List Byte), ∃ w', logTx y w = .ret () w' := fun y w => ⟨w ++ [y], rfl⟩

/-- The dispatcher once it has called `get`. -/
def called : Buf (List Byte) := { start with ibuf := [0#8, pc.junk 1, pc.junk 2], obuf := [0x34#8, 0x12#8], obufBottom := 2 }

theorem start_put : Buf.put pc 0#8 (start, []) = .ret .resolved (called, []) := rfl

theorem called_unread : Unread called [0x34#8, 0x12#8] := ⟨rfl, by decide, rfl⟩

/-- The bytes sent. -/
def sentBy {α : Type} : Res (BState (List Byte)) α → List Byte
  | .ret _ (_, w) => w
  | _ => []

/-- The handler runs once, before the first byte is written. -/
def early : CallPoint → Nat
  | .beforeStore 0 => 1
  | _ => 0

/-- The condition on `m_obuf_bottom` is needed in C93: if it is incremented before the byte is written, a handler which runs in between sends whatever was
in the output buffer, and no order of `put` and of the handler explains that. -/
theorem C93_bottom_first : ¬ ∃ i j, Buf.putMany pc (Buf.txIsr logTx) early true 0#8 (start, []) =
    (do times (Buf.txIsr logTx) i; let s ← Buf.put pc 0#8; times (Buf.txIsr logTx) j; pure s : Eff (BState (List Byte)) Status) (start, []) := by
  rintro ⟨i, j, h⟩
  have h1 : sentBy (Buf.putMany pc (Buf.txIsr logTx) early true 0#8 (start, [])) = [0xaa#8] := by decide +kernel
  have hT : ∀ (y : Byte) (w : List Byte), logTx y w = .ret () (w ++ [y]) := fun _ _ => rfl
  rw [h, Eff.bind_ret (times_none (b := start) i rfl), Eff.bind_ret start_put, Eff.bind_ret (times_unread hT j called_unread)] at h1
  clear h
  match j, h1 with
  | 0, h1 => cases h1
  | 1, h1 => cases h1
  | j + 2, h1 =>
    have h1 : txAll (fun y w => w ++ [y]) (List.take j ([] : List Byte)) [0x34#8, 0x12#8] = [0xaa#8] := h1
    rw [List.take_nil] at h1
    cases h1

/-- Any speed of the transmitter: here it tries once after each byte, so that it sends the whole response. -/
example : ∃ b2 w2, Buf.putMany pc (Buf.txIsr logTx) (fun pt => if pt = .betweenResets then 0 else 1) false 0#8 (start, []) = .ret .resolved (b2, w2) ∧
    Accepts logTx [] [0x34#8, 0x12#8] w2 ∧ Unread b2 [] :=
  C93_sent_partial (logged_setting .any) logged_fit logged_decode start_reachable logTx_total (by simp) (by simp) start_put called_unread

/-- A slower one, which tries only after the first byte. -/
example : ∃ b2 w2, Buf.putMany pc (Buf.txIsr logTx) (fun pt => if pt = .afterByte 0 then 1 else 0) true 0#8 (start, []) = .ret .resolved (b2, w2) ∧
    Accepts logTx [] [0x34#8] w2 ∧ Unread b2 [0x12#8] :=
  C93_sent_partial (logged_setting .any) logged_fit logged_decode start_reachable logTx_total (by simp)
    (fun _ k => by simpa using sentSoFar_le _ k) start_put called_unread

/-- A response which is half read when the next request is completed: the handler runs once between the resets and sends the byte which remained. -/
example (tx : Byte → Eff Unit Unit) (htx : ∀ y w, ∃ w', tx y w = .ret () w') :
    ∃ i j, Buf.putMany pc (Buf.txIsr tx) (fun _ => 1) false 0#8 (halfRead, ()) =
      (do times (Buf.txIsr tx) i; let s ← Buf.put pc 0#8; times (Buf.txIsr tx) j; pure s : Eff (BState Unit) Status) (halfRead, ()) :=
  C93_serializable_partial (pair_setting .any) logged_fit logged_decode halfRead_reachable (u := [0x12#8]) ⟨rfl, by decide, rfl⟩ htx (by simp) (by simp) _

example (tx : Byte → Eff Unit Unit) (htx : ∀ y w, tx y w = .ret () w) :
    Buf.putMany pc (Buf.txIsr tx) (fun _ => 1) false 0#8 (halfRead, ()) =
      (do times (Buf.txIsr tx) (sentSoFar (fun _ => 1) 2); pure .resolved : Eff (BState Unit) Status) ({ halfRead with obufNext := 0 }, ()) := by
  have h1 : times (Buf.txIsr tx) 1 (halfRead, ()) = .ret () ({ halfRead with obufNext := 2 }, ()) :=
    times_unread (T := fun _ w => w) htx 1 (u := [0x12#8]) ⟨rfl, by decide, rfl⟩
  have h2 : Buf.put pc 0#8 ({ halfRead with obufNext := 2 }, ()) = .ret .resolved ({ halfRead with obufNext := 0 }, ()) := rfl
  have := C93_exact_partial (pair_setting .any) logged_fit logged_decode halfRead_reachable (u := [0x12#8]) (runs := fun _ => 1) (bottomFirst := false)
    ⟨rfl, by decide, rfl⟩ (fun y w => ⟨w, htx y w⟩) (by simp) (by simp) h1 0#8
  rw [h2] at this
  exact this [0x34#8, 0x12#8] ⟨rfl, by decide, rfl⟩

/-- A byte which completes no request. -/
example (n : Nat) : (do times (Buf.txIsr discard) n; Buf.put pc 1#8 : Eff (BState Unit) Status) (halfRead, ()) =
    (do let s ← Buf.put pc 1#8; times (Buf.txIsr discard) n; pure s : Eff (BState Unit) Status) (halfRead, ()) :=
  have h : Buf.put pc 1#8 (halfRead, ()) = .ret .loading ({ halfRead with
    ibuf := [1#8, pc.junk 1, pc.junk 2], ibufNext := 1, indexLoaded := true, loadCount := 2 }, ()) := rfl
  C93_commutes (pair_setting .any) halfRead_reachable (fun _ w => ⟨w, rfl⟩) h (by simp) n

/-- `get()` called twice in a row. -/
def twice (n : Nat) : List (Nat × Byte × (CallPoint → Nat)) :=
  [(n, 0#8, fun pt => if pt = .betweenResets then 0 else 1), (n, 0#8, fun pt => if pt = .afterByte 1 then 2 else 0)]

example (n : Nat) : ∃ js : List Nat, js.length = 2 ∧
    overlapped pc (Buf.txIsr logTx) false (twice n) (start, []) =
    inTurn pc (Buf.txIsr logTx) (List.zipWith (fun e j => (e.1, e.2.1, j)) (twice n) js) (start, []) :=
  C93_session_partial (bottomFirst := false) (evs := twice n) (logged_setting .any) logged_fit logged_decode start_reachable logTx_total (by simp [twice])

end Upd
