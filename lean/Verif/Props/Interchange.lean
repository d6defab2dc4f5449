import Verif.Lemmas.Interchange
import Verif.Props.Demo

/-!
# Buffered and unbuffered dispatchers are interchangeable (C101)
-/

namespace Upd
open Spec TypeList

variable {σ : Type} {P : Platform} {K : Keyring} {f f' : Features} {defs : Nat → List Val → Eff σ (Option Val)} {shared : Bool} {n : Nat}

theorem serve_same (h : Setting P K f defs) (ho : ∀ d ∈ K.decls, retSize d.sig.ret ≤ n) (prog : ServeProg σ) : ∀ {b : Buf σ} {D : Dispatcher σ} {p : Proto σ} {out : List Byte} {w : σ},
    Tracks P K f shared n b p ⟨[], out⟩ → Answers P p D → D.features = f' → ServeOk P K f f' prog →
      SameOutcome (prog.unbuffered P (D, w)) (prog.buffered P (b, w)) := by
  induction prog with
  | done r => intro b D p out w _ _ _ _; exact ⟨rfl, rfl⟩
  | act x next ih =>
    intro b D p out w ht ha hf hok
    unfold ServeProg.unbuffered ServeProg.buffered
    simp only
    cases x w with
    | ret r w' => exact ih r ht ha hf (hok r)
    | threw w' => exact rfl
    | fault g => exact rfl
  | serve src dest next ih =>
    intro b D p out w ht ha hf hok
    unfold ServeProg.unbuffered ServeProg.buffered
    have hstep := process_run h.valid ht ha ho src dest w
    simp only
    cases hr : D.run P (Lens.whole σ) src dest w with
    | ret i w' =>
      rw [hr] at hstep
      obtain ⟨b', out', h1, h2⟩ := hstep
      rw [h1]
      have e : ((if i < D.size then Status.resolved else Status.dropped) == .resolved) = decide (i < D.size) := by
        by_cases hi : i < D.size <;> simp [hi]
      simp only [e]
      exact ih _ h2 ha hf (hok _)
    | threw w' =>
      rw [hr] at hstep
      obtain ⟨b', h1⟩ := hstep
      rw [h1]
      exact rfl
    | fault g =>
      rw [hr] at hstep
      rw [hstep]
      exact rfl
  | replace i cb next ih =>
    intro b D p out w ht ha hf hok
    obtain ⟨h1, h2, hc, hok⟩ := hok
    have ht' : Tracks P K f shared n (b.replace i cb) (p.replace i cb) ⟨[], out⟩ := by
      rcases call_follows h.setup ht (.replace i cb) ⟨h1, hc⟩ (fun _ ⟨x, hx⟩ => by cases hx) w with ⟨_, _, ht⟩ | ⟨_, he, _⟩
      · exact ht
      · cases he
    exact ih ht' (ha.set (by rw [ha.e, ha.s]; exact Or.inl rfl)) hf hok
  | replaceStatic i cb next ih =>
    intro b D p out w ht ha hf hok
    obtain ⟨hc, hok⟩ := hok
    have ht' : Tracks P K f shared n (b.replaceStatic i cb) (p.replace i cb) ⟨[], out⟩ := by
      rcases call_follows h.setup ht (.replaceStatic i cb) hc (fun _ ⟨x, hx⟩ => by cases hx) w with ⟨_, _, ht⟩ | ⟨_, he, _⟩
      · exact ht
      · cases he
    exact ih ht' (ha.set (by rw [ha.e, ha.s]; exact makeAction_holds _ _ _ _)) hf hok

theorem serveOk_right {prog : ServeProg σ} (h : ServeOk P K f f' prog) : ServeOk P K f' f' prog := by
  induction prog with
  | done r => trivial
  | act x next ih => exact fun r => ih r (h r)
  | serve src dest next ih => exact fun ok => ih ok (h ok)
  | replace i cb next ih => exact ⟨h.2.1, h.2.1, h.2.2.1, ih h.2.2.2⟩
  | replaceStatic i cb next ih => exact ⟨h.1, ih h.2⟩

/-- C101: a program which lets its dispatcher process packets as a whole has the same result, the same effects on the rest of the world, the same exceptions and the same undefined
behaviours whether its dispatcher is unbuffered or buffered, with one or two buffers, and whatever kind of actions each has. It is so for any byte streams and any bytes (valid or not, and
also if the streams throw), any callbacks (also if they throw), and when callbacks are replaced in between. The buffered dispatcher is between two packets; the responses fit in its buffer (see C43). -/
theorem C101_interchange (h : Setting P K f defs) (ho : ResponsesFit K shared) {b : Buf σ} {w : σ} (hr : Reachable P K f defs shared (b, w)) (hp : Pending b [])
    (f' : Features) (prog : ServeProg σ) (hok : ServeOk P K f f' prog) :
    SameOutcome (prog.unbuffered P (Dispatcher.make K f' defs, w)) (prog.buffered P (b, w)) := by
  obtain ⟨_, _, _, out, hm⟩ := reachable_pending h hr hp
  exact serve_same h ho prog (reachable_tracks h hr hp hm.outp) (answers_make h.ring) rfl hok

/-- C101, for one packet: both calls return together, in the same world; the status tells whether the index is valid. -/
theorem C101_packet (h : Setting P K f defs) (ho : ResponsesFit K shared) {b : Buf σ} {w : σ} (hr : Reachable P K f defs shared (b, w)) (hp : Pending b [])
    (f' : Features) (src : Eff σ Byte) (dest : Byte → Eff σ Unit) :
    match (Dispatcher.make K f' defs).run P (Lens.whole σ) src dest w with
    | .ret i w' => ∃ b', Buf.process P src dest (b, w) = .ret (if i < K.decls.length then .resolved else .dropped) (b', w') ∧ Pending b' []
    | .threw w' => ∃ b', Buf.process P src dest (b, w) = .threw (b', w')
    | .fault g => Buf.process P src dest (b, w) = .fault g := by
  obtain ⟨_, _, _, out, hm⟩ := reachable_pending h hr hp
  have hstep := process_run h.valid (reachable_tracks h hr hp hm.outp) (answers_make (f := f') h.ring) ho src dest w
  have hsz : (Dispatcher.make K f' defs).size = K.decls.length := K.size_eq h.ring.1
  cases he : (Dispatcher.make K f' defs).run P (Lens.whole σ) src dest w with
  | ret i w' =>
    rw [he] at hstep
    obtain ⟨b', out', h1, h2⟩ := hstep
    rw [hsz] at h1
    exact ⟨b', h1, pending_relIn h2.rel.inp⟩
  | threw w' => rw [he] at hstep; exact hstep
  | fault g => rw [he] at hstep; exact hstep

/-- C101, for two buffered dispatchers: it does not matter whether the input and the output share their buffer. -/
theorem C101_single_double {f₂ : Features} {shared₂ : Bool} (h : Setting P K f defs) (h₂ : Setting P K f₂ defs) (ho : ResponsesFit K shared) (ho₂ : ResponsesFit K shared₂)
    {b b₂ : Buf σ} {w : σ} (hr : Reachable P K f defs shared (b, w)) (hr₂ : Reachable P K f₂ defs shared₂ (b₂, w)) (hp : Pending b []) (hp₂ : Pending b₂ [])
    (prog : ServeProg σ) (hok : ServeOk P K f f₂ prog) :
    SameOutcome (prog.buffered P (b, w)) (prog.buffered P (b₂, w)) := by
  have h1 := C101_interchange h ho hr hp f₂ prog hok
  have h2 := C101_interchange h₂ ho₂ hr₂ hp₂ f₂ prog (serveOk_right hok)
  cases hu : prog.unbuffered P (Dispatcher.make K f₂ defs, w) with
  | ret r st =>
    rw [hu] at h1 h2
    cases hb : prog.buffered P (b, w) <;> cases hb2 : prog.buffered P (b₂, w) <;> rw [hb] at h1 <;> rw [hb2] at h2 <;>
      first | exact h1.elim | exact h2.elim | exact ⟨h1.1.symm.trans h2.1, h1.2.symm.trans h2.2⟩
  | threw st =>
    rw [hu] at h1 h2
    cases hb : prog.buffered P (b, w) <;> cases hb2 : prog.buffered P (b₂, w) <;> rw [hb] at h1 <;> rw [hb2] at h2 <;>
      first | exact h1.elim | exact h2.elim | exact h1.symm.trans h2
  | fault g =>
    rw [hu] at h1 h2
    cases hb : prog.buffered P (b, w) <;> cases hb2 : prog.buffered P (b₂, w) <;> rw [hb] at h1 <;> rw [hb2] at h2 <;>
      first | exact h1.elim | exact h2.elim | exact h1.symm.trans h2

/-- Outcome of a packet cut by an exception, `w'` being the world in which the program goes on: the bytes left at the exception; then the outcome of the next call, the bytes left and the bytes
written. -/
def resumeUnbuffered (D : Dispatcher (List Byte × List (List Val) × List Byte)) (w w' : List Byte × List (List Val) × List Byte) :
    Option (List Byte × Nat × List Byte × List Byte) :=
  match D.run pc (Lens.whole _) demoSrc demoDest w with
  | .threw w₁ =>
    match D.run pc (Lens.whole _) demoSrc demoDest w' with
    | .ret i w₂ => some (w₁.1, i, w₂.1, w₂.2.2)
    | _ => none
  | _ => none

def resumeBuffered (b : Buf (List Byte × List (List Val) × List Byte)) (w w' : List Byte × List (List Val) × List Byte) :
    Option (List Byte × Status × List Byte × List Byte) :=
  match Buf.process pc demoSrc demoDest (b, w) with
  | .threw (b₁, w₁) =>
    match Buf.process pc demoSrc demoDest (b₁, w') with
    | .ret s (_, w₂) => some (w₁.1, s, w₂.1, w₂.2.2)
    | _ => none
  | _ => none

/-- The condition "processes packets as a whole" matters: if the source throws within a packet, and the program catches the exception and goes on with the bytes which come next, then the buffered
dispatcher has kept the bytes of the packet (it calls the first function on 300 and 7), while the unbuffered one takes the next byte for an index (it calls the second function). -/
theorem C101_after_exception :
    resumeUnbuffered (Dispatcher.make ledRing .any ledDefs) ([0#8, 0x2c#8], [], []) ([1#8, 7#8], [], []) = some ([], 1, [7#8], []) ∧
    resumeBuffered (fresh pc ledRing .any ledDefs (2 ^ 64 - 1) false) ([0#8, 0x2c#8], [], []) ([1#8, 7#8], [], []) =
      some ([], .resolved, [], [0x33#8, 0x01#8]) := by
  decide +kernel

/-- A program which serves a packet, replaces the first callback if the index was valid, and serves another packet. -/
def serveTwo : ServeProg (List Byte × List (List Val) × List Byte) :=
  .serve demoSrc demoDest fun ok => if ok then .replaceStatic 0 subCb (.serve demoSrc demoDest fun _ => .done none) else .done (some (.int 1))

theorem serveTwo_ok (f f' : Features) : ServeOk pc ledRing f f' serveTwo := by
  intro ok
  cases ok
  · trivial
  · exact ⟨subCb_suits, fun _ => trivial⟩

example (f f' : Features) (shared : Bool) (w : List Byte × List (List Val) × List Byte) :
    SameOutcome (serveTwo.unbuffered pc (Dispatcher.make ledRing f' ledDefs, w)) (serveTwo.buffered pc (fresh pc ledRing f ledDefs (2 ^ 64 - 1) shared, w)) :=
  C101_interchange (led_setting f) (led_fit shared) (led_start f shared w) (fresh_pending _ _ _ _ _ _) f' serveTwo (serveTwo_ok f f')

example (f f' : Features) (w : List Byte × List (List Val) × List Byte) :
    SameOutcome (serveTwo.buffered pc (fresh pc ledRing f ledDefs (2 ^ 64 - 1) true, w)) (serveTwo.buffered pc (fresh pc ledRing f' ledDefs (2 ^ 64 - 1) false, w)) :=
  C101_single_double (led_setting f) (led_setting f') (led_fit true) (led_fit false) (led_start f true w) (led_start f' false w) (fresh_pending _ _ _ _ _ _)
    (fresh_pending _ _ _ _ _ _) serveTwo (serveTwo_ok f f')

/-- What it does on two requests of the first function: the sum, then the difference. -/
example : (match serveTwo.unbuffered pc (Dispatcher.make ledRing .weakReference ledDefs, ([0#8, 5#8, 0#8, 3#8, 0#8, 5#8, 0#8, 3#8], [], [])) with
    | .ret _ (_, w) => w.2.2
    | _ => []) = [8#8, 0#8, 2#8, 0#8] := by decide +kernel

/-- The dispatchers also stop in the same state of the world when the source ends within a packet. -/
example (f : Features) :
    match Buf.process pc demoSrc demoDest (fresh pc ledRing f ledDefs (2 ^ 64 - 1) true, ([0#8, 5#8], [], [])) with
    | .threw (_, w') => w' = ([], [], [])
    | _ => False := by
  have := C101_packet (led_setting f) (led_fit true) (led_start f true ([0#8, 5#8], [], [])) (fresh_pending _ _ _ _ _ _) .any demoSrc demoDest
  obtain ⟨b', hb⟩ := (show ∃ b', Buf.process pc demoSrc demoDest (fresh pc ledRing f ledDefs (2 ^ 64 - 1) true, ([0#8, 5#8], [], [])) = .threw (b', ([], [], [])) from this)
  rw [hb]

end Upd
