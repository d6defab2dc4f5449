import Verif.Lemmas.Hub
import Verif.Props.Relay

/-!
# A program which calls the functions of several devices

C99: a program whose calls go to any number of devices of different platforms, keyrings and policies behaves as the one which calls the functions itself.
-/

namespace Upd
open Spec TypeList

variable {σ α : Type} {P : Platform} {sites : List (Site × HubKind)} {defs : Nat → Nat → List Val → Eff σ (Option Val)}

/-- C99. Whatever the program does with the results of the calls, it has the outcome of the program which calls the functions itself: same result, same effects on
the rest of the world (which the devices may share), same exception. All the devices are ready afterwards. -/
theorem C99_hub (hP : P.Valid) (hs : ∀ (i : Nat) (s : Site × HubKind), sites[i]? = some s → SiteOk P (defs i) s) :
    ∀ (p : HubProg σ α) (ds : List (Dev σ)) (w : σ), AllReady sites defs (ds, w) → ProgOk P sites defs p w →
    HubOutcome sites defs (here defs p w) (p.remote P (sites.map (·.1)) (ds, w))
  | .done a, ds, w, hr, _ => ⟨ds, rfl, hr⟩
  | .act x next, ds, w, hr, hp => by
    unfold here HubProg.remote
    cases hx : x w with
    | fault f => rw [Eff.bind_fault hx]; dsimp only; exact rfl
    | threw w' => rw [Eff.bind_threw hx]; dsimp only; exact ⟨ds, rfl⟩
    | ret r w' =>
      rw [Eff.bind_ret hx]
      dsimp only
      exact C99_hub hP hs (next r) ds w' ⟨hr.1, fun i s d h1 h2 => ready_world (hr.2 i s d h1 h2) w'⟩ (hp r w' hx)
  | .call dev name args next, ds, w, hr, hp => by
    obtain ⟨⟨s, hsi, he, hfit⟩, hnext⟩ := hp
    have hlt : dev < ds.length := by
      have := (List.getElem?_eq_some_iff.mp hsi).1
      have h1 := hr.1
      dsimp only at h1
      omega
    have hdi : ds[dev]? = some ds[dev] := List.getElem?_eq_getElem hlt
    have hok := hs dev s hsi
    obtain ⟨i, hi, rfl, hk⟩ := s.1.K.get11_isSome hok.ring.1 he
    obtain ⟨hfP, hfQ⟩ := hfit _ (List.getElem_mem hi) rfl
    have hc := dev_call hP hok hi hfP hfQ (hr.2 dev s _ hsi hdi)
    have hsm : (sites.map (·.1))[dev]? = some s.1 := by rw [List.getElem?_map, hsi]; rfl
    unfold here HubProg.remote
    dsimp only
    rw [hsm, hdi]
    dsimp only
    rw [hk]
    dsimp only at hc ⊢
    cases hx : defs dev s.1.K.decls[i].name args w with
    | fault f => rw [hx] at hc; dsimp only at hc; rw [Eff.bind_fault hx, hc]; exact rfl
    | threw w' =>
      rw [hx] at hc
      obtain ⟨d', h1⟩ := hc
      rw [Eff.bind_threw hx, h1]
      exact ⟨_, rfl⟩
    | ret r w' =>
      rw [hx] at hc
      obtain ⟨d', h1, h2⟩ := hc
      rw [Eff.bind_ret hx, h1]
      refine C99_hub hP hs (next r) _ w' ⟨by rw [List.length_set]; exact hr.1, ?_⟩ (hnext r w' hx)
      intro j s' d h3 h4
      dsimp only at h4
      by_cases hj : j = dev
      · subst hj
        rw [List.getElem?_set_self hlt] at h4
        rw [hsi] at h3
        injection h3 with h3; injection h4 with h4
        subst h3; subst h4
        exact h2
      · rw [List.getElem?_set_ne (Ne.symm hj)] at h4
        exact ready_world (hr.2 j s' d h3 h4) w'

/-- C99. New devices are ready. -/
theorem C99_new (sites : List (Site × HubKind)) (defs : Nat → Nat → List Val → Eff σ (Option Val)) (sizeMax : Nat) (w : σ) :
    AllReady sites defs (newDevs defs sizeMax 0 sites, w) := by
  refine ⟨(newDevs_length ..).symm, ?_⟩
  intro i s d h1 h2
  have := newDevs_get defs sizeMax sites 0 i s d h1 h2
  subst this
  rw [Nat.zero_add]
  obtain ⟨⟨Q, K⟩, k⟩ := s
  cases k with
  | buffered f shared => exact ⟨rfl, rfl, ⟨sizeMax, _, .start⟩, fresh_pending _ _ _ _ _ _⟩
  | unbuffered f => exact ⟨rfl, rfl, rfl⟩

/-! Example: a program reads a sensor and drives a motor accordingly, `n` times. The sensor is an 8-bit microcontroller; the motor is driven by a computer whose keyring is
big-endian. -/

def sensorRing : Keyring := ⟨.little, .twosComplement, [⟨1, [], some (.uint 1)⟩]⟩

def motorRing : Keyring := ⟨.big, .signMagnitude, [⟨2, [], none⟩, ⟨1, [.uint 2], none⟩]⟩

/-- The measures rise with time; the motor records its orders. -/
def plantDefs (dev : Nat) (name : Nat) (args : List Val) : Eff (Nat × List (List Val)) (Option Val) := fun w =>
  if dev = 0 then .ret (some (.int ((w.1 % 256 : Nat) : Int))) (w.1 + 1, w.2)
  else if name = 1 then .ret none (w.1, w.2 ++ [args])
  else .threw w

def plantSites : List (Site × HubKind) := [(⟨avr, sensorRing⟩, .unbuffered .any), (⟨pc, motorRing⟩, .buffered .any true)]

/-- The motor is stopped if the measure is 0: this function throws. -/
def regulate : Nat → HubProg (Nat × List (List Val)) Unit
  | 0 => .done ()
  | n + 1 => .call 0 1 [] fun
    | some (.int 0) => .call 1 2 [] fun _ => .done ()
    | some v => .call 1 1 [v] fun _ => regulate n
    | none => .done ()

theorem plant_ok : ∀ (i : Nat) (s : Site × HubKind), plantSites[i]? = some s → SiteOk pc (plantDefs i) s
  | 0, s, h => by
    simp only [plantSites, List.getElem?_cons_zero, Option.some.injEq] at h
    subst h
    have ht : ∀ P : Platform, ∀ d ∈ sensorRing.decls, WellTyped P sensorRing.s ⟨d.sig, plantDefs 0 d.name⟩ := by
      intro P d hd args w r w' _ h
      simp only [sensorRing, List.mem_singleton] at hd
      subst hd
      simp only [plantDefs, if_true] at h
      injection h with h _
      subst h
      simp only [RetOk, Val.Fits]
      omega
    exact ⟨avr_valid, by simp [KeyringOk, sensorRing, SigOk, Ty.WFs, Ty.WF, PackedAll, Packed], pc_supported _ _, avr_supported _ _, ht pc, ht avr,
      fun f shared h => by cases h⟩
  | 1, s, h => by
    simp only [plantSites, List.getElem?_cons_succ, List.getElem?_cons_zero, Option.some.injEq] at h
    subst h
    have ht : ∀ P : Platform, ∀ d ∈ motorRing.decls, WellTyped P motorRing.s ⟨d.sig, plantDefs 1 d.name⟩ := by
      intro P d hd args w r w' _ h
      simp only [motorRing, List.mem_cons, List.not_mem_nil, or_false] at hd
      rcases hd with rfl | rfl
      · simp [plantDefs] at h
      · simp only [plantDefs] at h
        injection h with h _
        subst h
        trivial
    exact ⟨pc_valid, by simp [KeyringOk, motorRing, SigOk, Ty.WFs, Ty.WF, PackedAll, Packed], pc_supported _ _, pc_supported _ _, ht pc, ht pc,
      fun f shared h => by
        injection h with h1 h2; subst h1; subst h2
        exact ⟨by simp [ResponsesFit, motorRing, retSize], by simp [motorRing, wireSize, Ty.sizeof]⟩⟩
  | i + 2, s, h => by simp [plantSites] at h

theorem regulate_ok : ∀ (n : Nat) (w : Nat × List (List Val)), ProgOk pc plantSites plantDefs (regulate n) w
  | 0, _ => trivial
  | n + 1, w => by
    refine ⟨⟨_, rfl, ⟨_, List.mem_singleton.2 rfl, rfl⟩, ?_⟩, ?_⟩
    · intro d hd _
      simp only [sensorRing, List.mem_singleton] at hd
      subst hd
      simp [Val.FitsAll]
    · intro r w' h
      simp only [plantDefs, if_true] at h
      injection h with h1 h2
      subst h1
      dsimp only
      split
      · refine ⟨⟨_, rfl, ⟨⟨2, [], none⟩, by simp [motorRing], rfl⟩, ?_⟩, fun _ _ _ => trivial⟩
        intro d hd hn
        simp only [motorRing, List.mem_cons, List.not_mem_nil, or_false] at hd
        rcases hd with rfl | rfl
        · simp [Val.FitsAll]
        · cases hn
      · rename_i v _ hv
        injection hv with hv
        subst hv
        refine ⟨⟨_, rfl, ⟨⟨1, [.uint 2], none⟩, by simp [motorRing], rfl⟩, ?_⟩, fun _ w'' _ => regulate_ok n w''⟩
        intro d hd hn
        simp only [motorRing, List.mem_cons, List.not_mem_nil, or_false] at hd
        rcases hd with rfl | rfl
        · cases hn
        · simp only [Val.FitsAll, Val.Fits]
          have h1 : (0 : Int) ≤ ((w.1 % 256 : Nat) : Int) ∧ ((w.1 % 256 : Nat) : Int) < 256 ^ 2 := by omega
          exact ⟨⟨h1, trivial⟩, h1, trivial⟩
      · trivial

example (n : Nat) (w : Nat × List (List Val)) :
    HubOutcome plantSites plantDefs (here plantDefs (regulate n) w)
      ((regulate n).remote pc [⟨avr, sensorRing⟩, ⟨pc, motorRing⟩] (newDevs plantDefs 255 0 plantSites, w)) :=
  C99_hub pc_valid plant_ok (regulate n) _ w (C99_new ..) (regulate_ok n w)

/-- Three measures. -/
example : ∃ ds, (regulate 3).remote pc [⟨avr, sensorRing⟩, ⟨pc, motorRing⟩] (newDevs plantDefs 255 0 plantSites, (254, [])) =
    .threw (ds, (257, [[.int 254], [.int 255]])) := by
  have h := C99_hub pc_valid plant_ok (regulate 3) _ (254, []) (C99_new plantSites plantDefs 255 _) (regulate_ok 3 _)
  have hl : here plantDefs (regulate 3) (254, []) = .threw (257, [[.int 254], [.int 255]]) := by rfl
  rw [hl] at h
  exact h

end Upd
