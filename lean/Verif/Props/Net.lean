import Verif.Lemmas.Net
import Verif.Props.Session

/-! # C75: remote calls between devices which run at the same time -/

namespace Upd
open Spec TypeList

variable {σ : Type} {P Q : Platform} {K : Keyring} {f : Features} {defs : Nat → List Val → Eff σ (Option Val)} {shared : Bool}

/-- **C75.** The caller, the callee and the channels take their steps in any order. Whatever the order: no step fails; what the calls have returned so
far are the first results of the same calls made locally; the system comes to rest after the same number of steps; at rest, all the calls have
returned, the state of the callee is the one which the local calls produce, and no byte is left anywhere, neither in the channels nor in the buffers. -/
theorem C75_asynchronous (hP : P.Valid) (hs : Supported P K.e K.s) (hQ : Setting Q K f defs)
    (ht : ∀ d ∈ K.decls, WellTyped P K.s ⟨d.sig, defs d.name⟩) (ho : ResponsesFit K shared) {capUp capDown : Nat} (hcu : 1 ≤ capUp) (hcd : 1 ≤ capDown)
    {calls : List (Nat × List Val)} (hc : CallsOk P Q K calls) {b : Buf σ} {w : σ} (hr : Reachable Q K f defs shared (b, w)) (hp : Pending b [])
    (hu : Unread b []) {rs : List (Option Val)} {w' : σ} (hl : localCalls defs calls w = .ret rs w') :
    ∃ N, ∀ n S, NetRuns P Q K capUp capDown n (Net.start calls b w) S →
      n ≤ N ∧
      (∀ a r, Net.step P Q K capUp capDown a S = some r → ∃ S', r = .ret () S') ∧
      S.results <+: rs ∧
      (NetStuck P Q K capUp capDown S ↔ n = N) ∧
      (n = N → S.results = rs ∧ S.world = w' ∧ S.todo = [] ∧ S.phase = .idle ∧ S.up = [] ∧ S.down = [] ∧ Pending S.callee [] ∧
        Unread S.callee []) := by
  obtain ⟨N, h0⟩ := net_start hQ.ring hc hr hp hu hl
  refine ⟨N, fun n S hrun => ?_⟩
  obtain ⟨n', h1, hN⟩ := net_runs hP hs hQ ht ho h0 hrun
  have hstuck : n = N → NetStuck P Q K capUp capDown S := by
    intro e a
    cases hst : Net.step P Q K capUp capDown a S with
    | none => rfl
    | some r =>
      obtain ⟨_, _, _, _, h⟩ := net_step hP hs hQ ht ho h1 hst
      omega
  refine ⟨by omega, fun a r hst => ?_, net_prefix h1, ⟨fun h => ?_, hstuck⟩, fun e => (net_stuck hP hs hQ hcu hcd h1 (hstuck e)).2⟩
  · obtain ⟨S', _, h, _⟩ := net_step hP hs hQ ht ho h1 hst
    exact ⟨S', h⟩
  · have := (net_stuck hP hs hQ hcu hcd h1 h).1
    omega

/-! ## Non-vacuity -/

/-- An 8-bit caller and a PC which hosts the functions, with channels of one byte. -/
example : ∃ N, ∀ n S, NetRuns avr pc ledRing 1 1 n (Net.start ledCalls (fresh pc ledRing .any ledDefs 255 true) ([], [], [])) S →
    n ≤ N ∧ (n = N → S.results = [some (.int 307), some (.int (-1)), none]) := by
  obtain ⟨N, h⟩ := C75_asynchronous avr_valid (avr_supported _ _) (led_setting .any) led_typed_avr (led_fit true) (Nat.le_refl 1) (Nat.le_refl 1)
    ledCalls_ok ⟨255, _, .start⟩ (fresh_pending _ _ _ _ _ _) (fresh_unread _ _ _ _ _ _) ledCalls_local
  exact ⟨N, fun n S hr => ⟨(h n S hr).1, fun e => ((h n S hr).2.2.2.2 e).1⟩⟩

end Upd
