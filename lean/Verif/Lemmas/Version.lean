import Verif.Spec.Version
import Verif.Lemmas.Session

/-!
# Keys of two versions of a keyring
-/

namespace Upd
open Spec TypeList

variable {σ τ : Type} {P Q : Platform} {K K' : Keyring} {f : Features} {defs : Nat → List Val → Eff σ (Option Val)}

theorem Spec.Extends.length_le (h : Extends K K') : K.decls.length ≤ K'.decls.length := h.decls.length_le

theorem Spec.Extends.getElem (h : Extends K K') {i : Nat} (hi : i < K.decls.length) : K'.decls[i]'(Nat.lt_of_lt_of_le hi h.length_le) = K.decls[i] :=
  (h.decls.getElem hi).symm

theorem Spec.Extends.idxBytes (h : Extends K K') (hl : K'.decls.length < 2 ^ 64) : K'.idxBytes = K.idxBytes := by
  have hle := h.length_le
  have h1 := h.range 1 (by simp)
  have h2 := h.range 2 (by simp)
  have h4 := h.range 4 (by simp)
  unfold Keyring.idxBytes
  rcases smallestUnsigned_cases _ hl with h' | h' | h' | h' <;>
  rcases smallestUnsigned_cases K.decls.length (by omega) with h'' | h'' | h'' | h'' <;>
    (rw [h'.1, h''.1]; try omega)

theorem Spec.Extends.get11 (h : Extends K K') (hl : K'.decls.length < 2 ^ 64) {n : Nat} (hn : ∃ d ∈ K.decls, d.name = n) :
    K'.get11 n = K.get11 n := by
  have hle := h.length_le
  obtain ⟨more, hm⟩ := h.decls
  obtain ⟨i, hi, hni, hk⟩ := K.get11_isSome (Nat.lt_of_le_of_lt hle hl) hn
  have hf : find11 n 0 (K.decls.map (·.name)) = some i := by
    have := hk
    unfold Keyring.get11 at this
    cases hf : find11 n 0 (K.decls.map (·.name)) with
    | none => rw [hf] at this; simp [Keyring.keyAt] at this
    | some j =>
      rw [hf] at this
      obtain ⟨l, hl', h1, _⟩ := (find11_spec _ _ _ _).mp hf
      have hjl : j < K.decls.length := by
        have : j = l := by omega
        subst this
        rw [List.getElem?_eq_some_iff] at h1
        obtain ⟨h2, _⟩ := h1
        simpa using h2
      rw [K.keyAt_eq (Nat.lt_of_le_of_lt hle hl) hjl] at this
      injection this with this
      have := congrArg Key.index this
      have : j = i := this
      rw [this]
  have hf' : find11 n 0 (K'.decls.map (·.name)) = some i := by
    rw [find11_spec] at hf ⊢
    obtain ⟨j, hj, h1, h2⟩ := hf
    have hij : i = j := by omega
    subst hij
    refine ⟨i, by omega, ?_, fun m hm' h3 => h2 m hm' ?_⟩
    · rw [← hm, List.map_append, List.getElem?_append_left (by simpa using hi)]; exact h1
    · rw [← hm, List.map_append, List.getElem?_append_left (by simp; omega)] at h3; exact h3
  rw [hk]
  unfold Keyring.get11
  rw [hf', K'.keyAt_eq hl (Nat.lt_of_lt_of_le hi hle)]
  rw [h.getElem hi, h.e, h.s, h.idxBytes hl]

/-- A callee which serves the later version serves the earlier one. -/
theorem Server.older (h : Extends K K') (hl : K'.decls.length < 2 ^ 64) {L : Lens τ (Link σ)} {serve : Eff τ Unit} {Inv : τ → Prop}
    (hS : Server Q K' defs L serve Inv) : Server Q K defs L serve Inv where
  get_put := hS.get_put
  inv_put := hS.inv_put
  step := by
    intro i hi args rest down w t hf hinv hg
    have hi' := Nat.lt_of_lt_of_le hi h.length_le
    have hd : K'.decls[i] = K.decls[i] := h.getElem hi
    have := hS.step i hi' args rest down w t (by rw [hd, h.s]; exact hf) hinv (by rw [hd, h.e, h.s, h.idxBytes hl]; exact hg)
    rw [hd, h.e, h.s] at this
    exact this

theorem blockingCalls_newer (h : Extends K K') (hl : K'.decls.length < 2 ^ 64) {L : Lens τ (Link σ)} {serve : Eff τ Unit} :
    ∀ {calls : List (Nat × List Val)}, CallsOk P Q K calls → blockingCalls P K' L serve calls = blockingCalls P K L serve calls
  | [], _ => rfl
  | (name, args) :: calls, hc => by
    rw [blockingCalls, blockingCalls, h.get11 hl (hc _ (List.mem_cons_self ..)).1,
      blockingCalls_newer h hl fun c hc' => hc c (List.mem_cons_of_mem _ hc')]

end Upd
