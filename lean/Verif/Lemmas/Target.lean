import Verif.Spec.Target
import Verif.Lemmas.Session

/-!
# Keyrings whose types have the same serialized form
-/

namespace Upd
open Spec

variable {σ τ : Type}

mutual
/-- Types which only differ by the sizes of classes. -/
inductive Alike : Ty → Ty → Prop
  | bool : Alike .bool .bool
  | uint (n) : Alike (.uint n) (.uint n)
  | sint (n) : Alike (.sint n) (.sint n)
  | arr {t u} (n) : Alike t u → Alike (.arr t n) (.arr u n)
  | user {fs gs} (a b) : AlikeAll fs gs → Alike (.user a fs) (.user b gs)

inductive AlikeAll : List Ty → List Ty → Prop
  | nil : AlikeAll [] []
  | cons {t u ts us} : Alike t u → AlikeAll ts us → AlikeAll (t :: ts) (u :: us)
end

theorem alike_intTy (b : Bool) (n : Nat) : Alike (intTy b n) (intTy b n) := by
  cases b
  · exact .uint n
  · exact .sint n

mutual
theorem alike_of_agree {T U : Target} : ∀ {t : NTy}, Agree T U t → Alike (T.ty t) (U.ty t)
  | .bool, _ => by rw [Target.ty, Target.ty]; exact .bool
  | .char, h => by
    rw [Agree] at h
    rw [Target.ty, Target.ty, h]; exact alike_intTy _ _
  | .wchar, h => by
    rw [Agree] at h
    rw [Target.ty, Target.ty, h.1, h.2]; exact alike_intTy _ _
  | .std i s, h => by
    rw [Agree] at h
    rw [Target.ty, Target.ty, h]; exact alike_intTy _ _
  | .fixed n s, _ => by rw [Target.ty, Target.ty]; exact alike_intTy _ _
  | .size s, h => by
    rw [Agree] at h
    rw [Target.ty, Target.ty, h]; exact alike_intTy _ _
  | .arr t n, h => by
    rw [Agree] at h
    rw [Target.ty, Target.ty]; exact .arr n (alike_of_agree h)
  | .cls id fs, h => by
    rw [Agree] at h
    rw [Target.ty, Target.ty]; exact .user _ _ (alikeAll_of_agree h)

theorem alikeAll_of_agree {T U : Target} : ∀ {ts : List NTy}, AgreeAll T U ts → AlikeAll (T.tys ts) (U.tys ts)
  | [], _ => by rw [Target.tys, Target.tys]; exact .nil
  | t :: ts, h => by
    rw [AgreeAll] at h
    rw [Target.tys, Target.tys]; exact .cons (alike_of_agree h.1) (alikeAll_of_agree h.2)
end

mutual
theorem Alike.fits {leaf : Nat → Int → Prop} : ∀ {t u : Ty} {v : Val}, Alike t u → (v.Fits leaf t ↔ v.Fits leaf u)
  | _, _, v, .bool => Iff.rfl
  | _, _, v, .uint n => Iff.rfl
  | _, _, v, .sint n => Iff.rfl
  | _, _, v, .arr n h => by
    cases v <;> simp only [Val.Fits]
    exact and_congr Iff.rfl (forall_congr' fun v => imp_congr Iff.rfl h.fits)
  | _, _, v, .user _ _ h => by
    cases v <;> simp only [Val.Fits]
    exact h.fits

theorem AlikeAll.fits {leaf : Nat → Int → Prop} : ∀ {ts us : List Ty} {vs : List Val}, AlikeAll ts us → (Val.FitsAll leaf ts vs ↔ Val.FitsAll leaf us vs)
  | _, _, vs, .nil => Iff.rfl
  | _, _, vs, .cons h hs => by
    cases vs <;> simp only [Val.FitsAll]
    rw [h.fits, hs.fits]
end

mutual
theorem Alike.wire {e : Endian} {s : Mode} : ∀ {t u : Ty} {v : Val}, Alike t u → wire e s t v = wire e s u v
  | _, _, v, .bool => rfl
  | _, _, v, .uint n => rfl
  | _, _, v, .sint n => rfl
  | _, _, v, .arr n h => by
    cases v <;> simp only [Spec.wire]
    congr 1
    funext v
    exact h.wire
  | _, _, v, .user _ _ h => by
    cases v <;> simp only [Spec.wire]
    exact h.wires

theorem AlikeAll.wires {e : Endian} {s : Mode} : ∀ {ts us : List Ty} {vs : List Val}, AlikeAll ts us → wires e s ts vs = wires e s us vs
  | _, _, vs, .nil => rfl
  | _, _, vs, .cons h hs => by
    cases vs <;> simp only [Spec.wires]
    rw [h.wire, hs.wires]
end

/-- Keyrings with the same functions, whose types have the same serialized form. -/
structure RingAlike (K K' : Keyring) : Prop where
  e : K'.e = K.e
  s : K'.s = K.s
  len : K'.decls.length = K.decls.length
  decl : ∀ i (hi : i < K.decls.length) (hi' : i < K'.decls.length), K'.decls[i].name = K.decls[i].name ∧
    AlikeAll K.decls[i].sig.params K'.decls[i].sig.params ∧
    ∀ (e : Endian) (s : Mode) (r : Option Val), response e s K.decls[i].sig.ret r = response e s K'.decls[i].sig.ret r

theorem ringAlike_of_agree {T U : Target} {H : Header} (h : HeaderAgree T U H) : RingAlike (H.on T) (H.on U) where
  e := rfl
  s := rfl
  len := by simp [Header.on]
  decl := by
    intro i hi hi'
    have hj : i < H.decls.length := by simpa [Header.on] using hi
    have h1 : (H.on T).decls[i] = H.decls[i].on T := by simp [Header.on]
    have h2 : (H.on U).decls[i] = H.decls[i].on U := by simp [Header.on]
    have h3 := h _ (List.getElem_mem hj)
    rw [h1, h2]
    refine ⟨rfl, alikeAll_of_agree h3.1, fun e s r => ?_⟩
    unfold NDecl.on
    cases hr : H.decls[i].ret with
    | none => rfl
    | some t =>
      cases r with
      | none => rfl
      | some v => exact (alike_of_agree (h3.2 t hr)).wire

theorem RingAlike.idxBytes {K K' : Keyring} (h : RingAlike K K') : K'.idxBytes = K.idxBytes := by
  unfold Keyring.idxBytes; rw [h.len]

theorem RingAlike.request {K K' : Keyring} (h : RingAlike K K') {i : Nat} (hi : i < K.decls.length) (hi' : i < K'.decls.length) (args : List Val) :
    request K'.e K'.s K'.idxBytes i K'.decls[i].sig.params args = request K.e K.s K.idxBytes i K.decls[i].sig.params args := by
  unfold Spec.request
  rw [h.e, h.s, h.idxBytes, (h.decl i hi hi').2.1.wires]

/-- A callee which serves one serves the other. -/
theorem Server.alike {Q : Platform} {K K' : Keyring} {defs : Nat → List Val → Eff σ (Option Val)} (h : RingAlike K K') {L : Lens τ (Link σ)}
    {serve : Eff τ Unit} {Inv : τ → Prop} (hS : Server Q K' defs L serve Inv) : Server Q K defs L serve Inv where
  get_put := hS.get_put
  inv_put := hS.inv_put
  step := by
    intro i hi args rest down w t hf hinv hg
    have hi' : i < K'.decls.length := by rw [h.len]; exact hi
    obtain ⟨hn, hp, hr⟩ := h.decl i hi hi'
    have := hS.step i hi' args rest down w t (by rw [h.s]; exact hp.fits.1 hf) hinv (by rw [h.request hi hi']; exact hg)
    rw [hn, h.e, h.s] at this
    simp only [← hr] at this
    exact this

theorem calls_of_peers {T U : Target} {H : Header} (h : HeaderAgree T U H) {calls : List (Nat × List Val)} (hc : PeersOk T U H calls) :
    CallsOk T.plat U.plat (H.on T) calls := by
  intro c hm
  obtain ⟨he, hf⟩ := hc.1 c hm
  refine ⟨he, fun d hd hn => ⟨(hf d hd hn).1, ?_⟩⟩
  obtain ⟨d', hd', rfl⟩ := List.mem_map.1 hd
  have h1 := ((hc.2 c hm).2 (d'.on U) (List.mem_map.2 ⟨d', hd', rfl⟩) hn).1
  exact (alikeAll_of_agree (h d' hd').1).fits.2 h1

mutual
theorem agree_of_portable {T U : Target} : ∀ {t : NTy}, Portable t → Agree T U t
  | .bool, _ => by rw [Agree]; trivial
  | .char, h => by rw [Portable] at h; exact h.elim
  | .wchar, h => by rw [Portable] at h; exact h.elim
  | .std .char s, _ => by rw [Agree]; rfl
  | .std .short s, h => by simp [Portable] at h
  | .std .int s, h => by simp [Portable] at h
  | .std .long s, h => by simp [Portable] at h
  | .std .longLong s, _ => by rw [Agree]; rfl
  | .fixed n s, _ => by rw [Agree]; trivial
  | .size s, h => by rw [Portable] at h; exact h.elim
  | .arr t n, h => by
    rw [Portable] at h
    rw [Agree]; exact agree_of_portable h
  | .cls id fs, h => by
    rw [Portable] at h
    rw [Agree]; exact agreeAll_of_portable h

theorem agreeAll_of_portable {T U : Target} : ∀ {ts : List NTy}, PortableAll ts → AgreeAll T U ts
  | [], _ => by rw [AgreeAll]; trivial
  | t :: ts, h => by
    rw [PortableAll] at h
    rw [AgreeAll]; exact ⟨agree_of_portable h.1, agreeAll_of_portable h.2⟩
end

/-- A target and another one, which differ on everything they can differ on. -/
def smallTarget (P : Platform) : Target := ⟨{ P with intBytes := 2 }, true, 4, true, 2, 4, 2, fun _ => 1⟩
def largeTarget (P : Platform) : Target := ⟨{ P with intBytes := 8 }, false, 2, false, 8, 8, 8, fun _ => 1⟩

mutual
theorem portable_of_agree {P : Platform} : ∀ {t : NTy}, Agree (smallTarget P) (largeTarget P) t → Portable t
  | .bool, _ => by rw [Portable]; trivial
  | .char, h => by rw [Agree] at h; cases h
  | .wchar, h => by rw [Agree] at h; cases h.1
  | .std .char s, _ => by rw [Portable]; trivial
  | .std .short s, h => by rw [Agree] at h; cases h
  | .std .int s, h => by rw [Agree] at h; cases h
  | .std .long s, h => by rw [Agree] at h; cases h
  | .std .longLong s, _ => by rw [Portable]; trivial
  | .fixed n s, _ => by rw [Portable]; trivial
  | .size s, h => by rw [Agree] at h; cases h
  | .arr t n, h => by
    rw [Agree] at h
    rw [Portable]; exact portable_of_agree h
  | .cls id fs, h => by
    rw [Agree] at h
    rw [Portable]; exact portableAll_of_agree h

theorem portableAll_of_agree {P : Platform} : ∀ {ts : List NTy}, AgreeAll (smallTarget P) (largeTarget P) ts → PortableAll ts
  | [], _ => by rw [PortableAll]; trivial
  | t :: ts, h => by
    rw [AgreeAll] at h
    rw [PortableAll]; exact ⟨portable_of_agree h.1, portableAll_of_agree h.2⟩
end

end Upd
