import Verif.Lemmas.Pipeline
import Verif.Props.Net

/-! # C79: requests sent without waiting for the responses -/

namespace Upd
open Spec TypeList

variable {σ : Type} {P Q : Platform} {K : Keyring} {f : Features} {defs : Nat → List Val → Eff σ (Option Val)} {shared : Bool}

/-- **C79.** The caller writes the requests one after the other, and reads the responses on its own (`⟨false, true⟩`). The callee puts no byte while
`is_loaded()`. The devices and the channels take their steps in any order. Whatever the order: no step fails; what the calls have returned so far are the
first results of the same calls made locally; the system comes to rest after the same number of steps; at rest, all the calls have returned, the state of
the callee is the one which the local calls produce, and no byte is left anywhere. -/
theorem C79_pipelined (hP : P.Valid) (hs : Supported P K.e K.s) (hQ : Setting Q K f defs)
    (ht : ∀ d ∈ K.decls, WellTyped P K.s ⟨d.sig, defs d.name⟩) (ho : ResponsesFit K shared) {capUp capDown : Nat} (hcu : 1 ≤ capUp) (hcd : 1 ≤ capDown)
    {calls : List (Nat × List Val)} (hc : CallsOk P Q K calls) {b : Buf σ} {w : σ} (hr : Reachable Q K f defs shared (b, w)) (hp : Pending b [])
    (hu : Unread b []) {rs : List (Option Val)} {w' : σ} (hl : localCalls defs calls w = .ret rs w') :
    ∃ N, ∀ n S, PipeRuns P Q K ⟨false, true⟩ capUp capDown n (Pipe.start calls b w) S →
      n ≤ N ∧
      (∀ a r, Pipe.step P Q K ⟨false, true⟩ capUp capDown a S = some r → ∃ S', r = .ret () S') ∧
      S.results <+: rs ∧
      (PipeStuck P Q K ⟨false, true⟩ capUp capDown S ↔ n = N) ∧
      (n = N → PipeDone rs w' S) := by
  obtain ⟨qs, h1, h2⟩ := calls_reqs hQ.ring hc
  have hpl : Plan P Q K qs rs := plan ht h2 (by rw [h1]; exact hl)
  obtain ⟨N, h0⟩ := pipe_start (P := P) (cu := capUp) (cd := capDown) h1 hr hp hu hl
  refine ⟨N, fun n S hrun => ?_⟩
  obtain ⟨s, b, m, p, out, n', h3, hN⟩ := pipe_runs hP hs hQ ht ho rfl hpl h0 hrun
  have hstuck : n = N → PipeStuck P Q K ⟨false, true⟩ capUp capDown S := by
    intro e a
    cases hst : Pipe.step P Q K ⟨false, true⟩ capUp capDown a S with
    | none => rfl
    | some r =>
      obtain ⟨_, _, _, _, _, _, _, _, _, h⟩ := pipe_step hP hs hQ ht ho rfl hpl h3 hst
      omega
  have hdone := fun h => pipe_stuck hP hs hQ hpl (D := ⟨false, true⟩) hcu hcd (fun e => by cases e) h3 h
  refine ⟨by omega, fun a r hst => ?_, ⟨rs.drop m, by rw [h3.results]; exact List.take_append_drop ..⟩, ⟨fun h => ?_, hstuck⟩, fun e => ?_⟩
  · obtain ⟨S', _, _, _, _, _, _, h, _⟩ := pipe_step hP hs hQ ht ho rfl hpl h3 hst
    exact ⟨S', h⟩
  · have := (hdone h).1
    omega
  · obtain ⟨_, g1, g2, g3, g4, g5, g6, g7, g8, g9, g10⟩ := hdone (hstuck e)
    exact ⟨g1, g2, ⟨g3, g4, g5, g6⟩, ⟨g7, g8⟩, g9, g10⟩

/-- **C79**, when the caller writes all the requests before it reads a response (`⟨true, true⟩`). Whatever the order of the steps, no step fails, the
results are the right ones, and the system comes to rest. If the requests and the responses fit in the channels (`WritableFirst`), it always comes to rest
with everything done; otherwise, it always comes to rest with requests which are not written: no call ever returns. -/
theorem C79_writing_first (hP : P.Valid) (hs : Supported P K.e K.s) (hQ : Setting Q K f defs)
    (ht : ∀ d ∈ K.decls, WellTyped P K.s ⟨d.sig, defs d.name⟩) (ho : ResponsesFit K shared) {capUp capDown : Nat} (hcu : 1 ≤ capUp) (hcd : 1 ≤ capDown)
    {ask reply : Nat → Nat} (hsize : ∀ d ∈ K.decls, ask d.name = K.idxBytes + wireSizes d.sig.params ∧ reply d.name = retSize d.sig.ret)
    {calls : List (Nat × List Val)} (hc : CallsOk P Q K calls) {b : Buf σ} {w : σ} (hr : Reachable Q K f defs shared (b, w)) (hp : Pending b [])
    (hu : Unread b []) {rs : List (Option Val)} {w' : σ} (hl : localCalls defs calls w = .ret rs w') :
    ∃ N, ∀ n S, PipeRuns P Q K ⟨true, true⟩ capUp capDown n (Pipe.start calls b w) S →
      n ≤ N ∧
      (∀ a r, Pipe.step P Q K ⟨true, true⟩ capUp capDown a S = some r → ∃ S', r = .ret () S') ∧
      S.results <+: rs ∧
      (WritableFirst ask reply capUp capDown calls → PipeStuck P Q K ⟨true, true⟩ capUp capDown S → PipeDone rs w' S) ∧
      (¬WritableFirst ask reply capUp capDown calls → S.results = [] ∧ ¬(S.todo = [] ∧ S.sending = [])) := by
  obtain ⟨qs, h1, h2⟩ := calls_reqs hQ.ring hc
  have hpl : Plan P Q K qs rs := plan ht h2 (by rw [h1]; exact hl)
  obtain ⟨N, h0⟩ := pipe_start (P := P) (cu := capUp) (cd := capDown) h1 hr hp hu hl
  have hw := writable_iff (cu := capUp) (cd := capDown) hQ.ring hsize hpl
  rw [h1] at hw
  refine ⟨N, fun n S hrun => ?_⟩
  obtain ⟨s, b, m, p, out, n', h3, hN⟩ := pipe_runs hP hs hQ ht ho rfl hpl h0 hrun
  refine ⟨by omega, fun a r hst => ?_, ⟨rs.drop m, by rw [h3.results]; exact List.take_append_drop ..⟩, fun hfit hst => ?_, fun hfit => ?_⟩
  · obtain ⟨S', _, _, _, _, _, _, h, _⟩ := pipe_step hP hs hQ ht ho rfl hpl h3 hst
    exact ⟨S', h⟩
  · obtain ⟨_, g1, g2, g3, g4, g5, g6, g7, g8, g9, g10⟩ := pipe_stuck hP hs hQ hpl hcu hcd (fun _ => hw.1 hfit) h3 hst
    exact ⟨g1, g2, ⟨g3, g4, g5, g6⟩, ⟨g7, g8⟩, g9, g10⟩
  · have : ∃ j, j ≤ qs.length ∧ capDown < (joined (answersTo qs rs) j).length ∧ capUp < (flat (qs.drop j)).length := by
      refine Classical.byContradiction fun hno => hfit (hw.2 fun j hj => ?_)
      refine Classical.byContradiction fun h => hno ⟨j, hj, ?_, ?_⟩
      · exact Nat.lt_of_not_le fun e => h (.inl e)
      · exact Nat.lt_of_not_le fun e => h (.inr e)
    obtain ⟨j, hj, g1, g2⟩ := this
    obtain ⟨k1, _, k3⟩ := pipe_blocked_runs hP hs hQ ht ho rfl rfl hpl h0 ⟨rfl, rfl⟩ hj g1 g2 hrun
    exact ⟨k1, k3⟩

private def isSingle (z : Int) : List (Option Val) → Bool
  | [some (.int y)] => y == z
  | _ => false

private theorem isSingle_eq {z : Int} {l : List (Option Val)} (h : isSingle z l = true) : l = [some (.int z)] := by
  unfold isSingle at h
  split at h
  · rw [beq_iff_eq.1 h]
  · cases h

/-- **C79**: waiting while `is_loaded()` matters, even with one buffer for requests and another one for responses. A callee which puts each byte as soon as
it arrives may replace the response to a request by the response to the following one: the first call returns what the second one should have, and the
second one never returns. -/
theorem C79_replaced_response :
    ∃ n S, PipeRuns avr pc ledRing ⟨false, false⟩ 255 255 n
        (Pipe.start [(1, [.int 300, .int 7]), (3, [.arr [.int 4, .int 5]])] (fresh pc ledRing .any ledDefs 255 false) ([], [], [])) S ∧
      PipeStuck avr pc ledRing ⟨false, false⟩ 255 255 S ∧ S.results = [some (.int 65535)] ∧ S.awaiting ≠ [] := by
  let start : Pipe (List Byte × List (List Val) × List Byte) :=
    Pipe.start [(1, [.int 300, .int 7]), (3, [.arr [.int 4, .int 5]])] (fresh pc ledRing .any ledDefs 255 false) ([], [], [])
  let steps : List PipeStep := .call :: List.replicate 4 .send ++ .call :: List.replicate 3 .send ++ List.replicate 7 .put ++ List.replicate 2 .get ++
    List.replicate 2 .receive ++ [.finish]
  let ok (S : Pipe (List Byte × List (List Val) × List Byte)) : Bool :=
    ([.call, .send, .receive, .finish, .put, .get].all fun a => (Pipe.step avr pc ledRing ⟨false, false⟩ 255 255 a S).isNone) &&
      isSingle 65535 S.results && !S.awaiting.isEmpty
  have h : (Pipe.exec avr pc ledRing ⟨false, false⟩ 255 255 steps start).any ok = true := by decide +kernel
  cases hx : Pipe.exec avr pc ledRing ⟨false, false⟩ 255 255 steps start with
  | none => rw [hx] at h; cases h
  | some S =>
    rw [hx] at h
    have h : ok S = true := h
    simp only [ok, Bool.and_eq_true, List.all_cons, List.all_nil, Bool.and_true, Option.isNone_iff_eq_none, Bool.not_eq_true',
      List.isEmpty_eq_false_iff] at h
    obtain ⟨⟨⟨a1, a2, a3, a4, a5, a6⟩, h2⟩, h3⟩ := h
    obtain ⟨n, hrun⟩ := pipe_exec (.zero start) hx
    refine ⟨n, S, hrun, fun a => ?_, isSingle_eq h2, h3⟩
    cases a <;> assumption

/-! ## Non-vacuity -/

/-- An 8-bit caller and a PC which hosts the functions, with channels of one byte. -/
example : ∃ N, ∀ n S, PipeRuns avr pc ledRing ⟨false, true⟩ 1 1 n (Pipe.start ledCalls (fresh pc ledRing .any ledDefs 255 true) ([], [], [])) S →
    n ≤ N ∧ (n = N → S.results = [some (.int 307), some (.int (-1)), none]) := by
  obtain ⟨N, h⟩ := C79_pipelined avr_valid (avr_supported _ _) (led_setting .any) led_typed_avr (led_fit true) (Nat.le_refl 1) (Nat.le_refl 1)
    ledCalls_ok ⟨255, _, .start⟩ (fresh_pending _ _ _ _ _ _) (fresh_unread _ _ _ _ _ _) ledCalls_local
  exact ⟨N, fun n S hr => ⟨(h n S hr).1, fun e => ((h n S hr).2.2.2.2 e).results⟩⟩

/-- Sizes of the requests and of the responses. -/
def ledAsk : Nat → Nat
  | 1 => 4
  | 2 => 1
  | _ => 3

def ledReply : Nat → Nat
  | 2 => 0
  | _ => 2

theorem led_sizes : ∀ d ∈ ledRing.decls, ledAsk d.name = ledRing.idxBytes + wireSizes d.sig.params ∧ ledReply d.name = retSize d.sig.ret := by
  decide +kernel

/-- Room for four bytes of responses is enough to write the three requests first. -/
example : WritableFirst ledAsk ledReply 1 4 ledCalls := by
  intro a c h
  left
  have : (a.map fun x => ledReply x.1).sum + (c.map fun x => ledReply x.1).sum = 4 := by
    rw [← List.sum_append, ← List.map_append, ← h]
    rfl
  omega

/-- Room for one byte is not: the response to the first request does not fit, nor do the requests which follow. -/
example : ¬WritableFirst ledAsk ledReply 3 1 ledCalls := by
  intro h
  have := h [(1, [.int 300, .int 7])] [(3, [.arr [.int 4, .int 5]]), (2, [])] rfl
  revert this
  decide

/-- So that the devices wait for each other. -/
example (n : Nat) (S : Pipe (List Byte × List (List Val) × List Byte))
    (hr : PipeRuns avr pc ledRing ⟨true, true⟩ 3 1 n (Pipe.start ledCalls (fresh pc ledRing .any ledDefs 255 true) ([], [], [])) S) : S.results = [] := by
  obtain ⟨N, h⟩ := C79_writing_first avr_valid (avr_supported _ _) (led_setting .any) led_typed_avr (led_fit true) (show 1 ≤ 3 by decide)
    (Nat.le_refl 1) led_sizes ledCalls_ok ⟨255, _, .start⟩ (fresh_pending _ _ _ _ _ _) (fresh_unread _ _ _ _ _ _) ledCalls_local
  refine ((h n S hr).2.2.2.2 fun h => ?_).1
  have := h [(1, [.int 300, .int 7])] [(3, [.arr [.int 4, .int 5]]), (2, [])] rfl
  revert this
  decide

end Upd
