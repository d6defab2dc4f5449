import Verif.Lemmas.Relay
import Verif.Spec.Hub

/-! # A program which calls the functions of several devices -/

namespace Upd
open Spec TypeList

variable {σ α : Type} {P : Platform}

theorem ready_world {s : Site} {fns : Nat → List Val → Eff σ (Option Val)} {w : σ} {k : HubKind} {d : Dev σ} (h : Ready s fns w k d) (w' : σ) :
    Ready s fns w' k d := by
  cases k <;> cases d
  · exact ⟨h.1, h.2.1, reachable_world h.2.2.1 _, h.2.2.2⟩
  · exact h
  · exact h
  · exact h

/-- A call to a device. -/
theorem dev_call {s : Site × HubKind} {fns : Nat → List Val → Eff σ (Option Val)} (hP : P.Valid) (hs : SiteOk P fns s) {i : Nat}
    (hi : i < s.1.K.decls.length) {args : List Val} (hfP : Val.FitsAll (Safe P s.1.K.s) s.1.K.decls[i].sig.params args)
    (hfQ : Val.FitsAll (Safe s.1.Q s.1.K.s) s.1.K.decls[i].sig.params args) {w : σ} {d : Dev σ} (hd : Ready s.1 fns w s.2 d) :
    match fns s.1.K.decls[i].name args w with
    | .ret r w' => ∃ d', d.call P s.1.Q ⟨s.1.K.e, s.1.K.s, s.1.K.idxBytes, i, s.1.K.decls[i].sig⟩ args w = .ret r (d', w') ∧ Ready s.1 fns w' s.2 d'
    | .threw w' => ∃ d', d.call P s.1.Q ⟨s.1.K.e, s.1.K.s, s.1.K.idxBytes, i, s.1.K.decls[i].sig⟩ args w = .threw (d', w')
    | .fault f => d.call P s.1.Q ⟨s.1.K.e, s.1.K.s, s.1.K.idxBytes, i, s.1.K.decls[i].sig⟩ args w = .fault f := by
  obtain ⟨⟨Q, K⟩, k⟩ := s
  obtain ⟨hQ, hK, hcr, hce, htP, htQ, hb⟩ := hs
  have hro : ∀ r w', fns K.decls[i].name args w = .ret r w' → RetOk P K.s K.decls[i].sig.ret r :=
    fun r w' h => htP _ (List.getElem_mem hi) args w r w' hfP h
  cases k with
  | buffered f shared =>
    cases d with
    | unbuffered D up down => exact absurd hd id
    | buffered b up down =>
      obtain ⟨rfl, rfl, hr, hp⟩ := hd
      obtain ⟨hfit, hsz⟩ := hb f shared rfl
      have hset : Setting Q K f fns := ⟨hQ, hK, hce, hsz, htQ⟩
      have h := relay_call hP hK hcr (buffered_server hset hfit) hi hfP hfQ (w := w) (t := (b, ⟨[], [], w⟩)) ⟨hr, hp⟩ rfl
      dsimp only at hro ⊢
      cases hx : fns K.decls[i].name args w with
      | fault e =>
        rw [hx] at h
        dsimp only at h ⊢
        unfold Dev.call
        dsimp only
        rw [h]
      | threw w' =>
        rw [hx] at h
        obtain ⟨⟨b', l⟩, h1, h2⟩ := h
        have h2 : l = _ := h2
        subst h2
        refine ⟨.buffered b' [] [], ?_⟩
        unfold Dev.call
        dsimp only at h1 ⊢
        rw [h1]
      | ret r w' =>
        rw [hx] at h
        obtain ⟨⟨b', l⟩, h1, h3, h2⟩ := h (hro r w' hx)
        have h2 : l = _ := h2
        subst h2
        refine ⟨.buffered b' [] [], ?_, rfl, rfl, h3.1, h3.2⟩
        unfold Dev.call
        dsimp only at h1 ⊢
        rw [h1]
  | unbuffered f =>
    cases d with
    | buffered b up down => exact absurd hd id
    | unbuffered D up down =>
      obtain ⟨rfl, rfl, rfl⟩ := hd
      have h := relay_call hP hK hcr (unbuffered_server (f := f) hQ hK hce htQ) hi hfP hfQ (w := w) (t := ⟨[], [], w⟩) trivial rfl
      dsimp only at hro ⊢
      cases hx : fns K.decls[i].name args w with
      | fault e =>
        rw [hx] at h
        dsimp only at h ⊢
        unfold Dev.call
        dsimp only
        rw [h]
      | threw w' =>
        rw [hx] at h
        obtain ⟨l, h1, h2⟩ := h
        have h2 : l = _ := h2
        subst h2
        refine ⟨.unbuffered (Dispatcher.make K f (hosted fns)) [] [], ?_⟩
        unfold Dev.call
        dsimp only at h1 ⊢
        rw [h1]
      | ret r w' =>
        rw [hx] at h
        obtain ⟨l, h1, _, h2⟩ := h (hro r w' hx)
        have h2 : l = _ := h2
        subst h2
        refine ⟨.unbuffered _ [] [], ?_, rfl, rfl, rfl⟩
        unfold Dev.call
        dsimp only at h1 ⊢
        rw [h1]

theorem newDevs_get (defs : Nat → Nat → List Val → Eff σ (Option Val)) (n : Nat) : ∀ (sites : List (Site × HubKind)) (i j : Nat) (s : Site × HubKind) (d : Dev σ),
    sites[j]? = some s → (newDevs defs n i sites)[j]? = some d → d = newDev s.1 (defs (i + j)) n s.2
  | [], _, _, _, _, h, _ => by cases h
  | x :: sites, i, 0, s, d, h, h' => by
    simp only [List.getElem?_cons_zero, Option.some.injEq, newDevs] at h h'
    subst h; exact h'.symm
  | x :: sites, i, j + 1, s, d, h, h' => by
    simp only [List.getElem?_cons_succ, newDevs] at h h'
    have := newDevs_get defs n sites (i + 1) j s d h h'
    rwa [Nat.add_assoc, Nat.add_comm 1 j] at this

theorem newDevs_length (defs : Nat → Nat → List Val → Eff σ (Option Val)) (n : Nat) : ∀ (sites : List (Site × HubKind)) (i : Nat),
    (newDevs defs n i sites).length = sites.length
  | [], _ => rfl
  | _ :: sites, i => by simp only [newDevs, List.length_cons, newDevs_length defs n sites]

end Upd
