import Verif.Spec.Retry
import Verif.Lemmas.Session
import Verif.Lemmas.Deferred
import Verif.Props.Key

/-! Helper lemmas: calls which are repeated until there is a response. -/

namespace Upd
open Spec TypeList

variable {σ τ α β : Type} {P Q : Platform} {K : Keyring} {f : Features} {defs : Nat → List Val → Eff σ (Option Val)} {shared : Bool}

theorem yields_timeout (m rest up : List Byte) (w : σ) : Yields (Link.readOrTimeout (σ := σ)) ⟨up, m ++ rest, w⟩ m ⟨up, rest, w⟩ := by
  induction m with
  | nil => exact .nil _
  | cons x m ih => exact .cons rfl ih

theorem tryRead_ret (hP : P.Valid) {k : Key} (hs : Supported P k.e k.s) (hg : SigOk k.sig) {r : Option Val} (hr : RetOk P k.s k.sig.ret r) (up rest : List Byte) (w : σ) :
    tryRead P k ⟨up, response k.e k.s k.sig.ret r ++ rest, w⟩ = .ret (some r) ⟨up, rest, w⟩ := by
  unfold tryRead
  rw [C31_read_value hP hs hg hr _ (yields_timeout _ _ _ _)]

theorem tryRead_void {k : Key} (h : k.sig.ret = none) (l : Link σ) : tryRead P k l = .ret (some none) l := by
  unfold tryRead Key.readFrom
  rw [h]
  rfl

theorem tryRead_timeout (hP : P.Valid) {k : Key} (hs : Supported P k.e k.s) (hg : SigOk k.sig) {t : Ty} (ht : k.sig.ret = some t) (h1 : 1 ≤ wireSize t) (up : List Byte) (w : σ) :
    tryRead P k ⟨up, [], w⟩ = .ret none ⟨up, [], w⟩ := by
  obtain ⟨hw, hp⟩ := hg.2.2 t ht
  have hws : Ty.WFs [t] := by simp [Ty.WFs, hw]
  have hps : PackedAll [t] := by simp [PackedAll, hp]
  have hr : k.readFrom P Link.readOrTimeout (⟨up, [], w⟩ : Link σ) = .threw ⟨up, [], w⟩ := by
    unfold Key.readFrom
    rw [ht]
    simp only
    rw [readFrom_eq hP hs hws (packedAll_loose _ hps), packedAll_serSizes _ hps]
    obtain ⟨n, hn⟩ : ∃ n, wireSizes [t] = n + 1 := ⟨wireSizes [t] - 1, by simp only [wireSizes]; omega⟩
    rw [hn]
    exact Eff.bind_threw (Eff.bind_threw rfl)
  unfold tryRead
  rw [hr]

/-- The outcome of what is done with the link is the one of what is done without library. -/
def Reaches (L : Lens τ (Link σ)) (Inv : τ → Prop) : Res σ α → Res τ α → Prop
  | .ret a w, y => ∃ t down, y = .ret a t ∧ Inv t ∧ L.get t = ⟨[], down, w⟩
  | .threw w, y => ∃ t, y = .threw t ∧ (L.get t).world = w
  | .fault e, y => y = .fault e

theorem Reaches.bind {L : Lens τ (Link σ)} {Inv : τ → Prop} {x : Eff σ α} {y : Eff τ α} {k : α → Eff σ β} {k' : α → Eff τ β} {w : σ} {t : τ} (h : Reaches L Inv (x w) (y t))
    (hk : ∀ a w' t' down, Inv t' → L.get t' = ⟨[], down, w'⟩ → Reaches L Inv (k a w') (k' a t')) : Reaches L Inv ((x >>= k) w) ((y >>= k') t) := by
  cases hx : x w with
  | fault e =>
    rw [hx] at h
    rw [Eff.bind_fault hx]
    exact Eff.bind_fault h
  | threw w' =>
    rw [hx] at h
    obtain ⟨t', h1, h2⟩ := h
    rw [Eff.bind_threw hx]
    exact ⟨t', Eff.bind_threw h1, h2⟩
  | ret a w' =>
    rw [hx] at h
    obtain ⟨t', down, h1, h2, h3⟩ := h
    rw [Eff.bind_ret hx, Eff.bind_ret h1]
    exact hk a w' t' down h2 h3

/-- One attempt, without library. -/
def attemptSpec (f : Eff σ (Option Val)) (returns : Bool) : Fate → Eff σ (Option (Option Val))
  | .arrives => f >>= fun r => pure (some r)
  | .requestLost => pure (if returns then none else some none)
  | .responseLost => f >>= fun _ => pure (if returns then none else some none)
  | .late => f >>= fun _ => pure (if returns then none else some none)

theorem retriedCall_cons (f : Eff σ (Option Val)) (returns : Bool) (fate : Fate) (fates : List Fate) :
    retriedCall f returns (fate :: fates) = (attemptSpec f returns fate >>= fun r =>
      match r with
      | some v => pure (v, fates)
      | none => retriedCall f returns fates) := by
  cases fate <;> cases returns <;> simp [retriedCall, attemptSpec, bind_assoc]

section
variable {L : Lens τ (Link σ)} {serve : Eff τ Unit} {Inv : τ → Prop}

/-- The response of an attempt is not there. -/
theorem read_nothing (hP : P.Valid) (hK : KeyringOk K) (hs : Supported P K.e K.s) (ha : Audible K) (hS : Server Q K defs L serve Inv) {i : Nat} (hi : i < K.decls.length)
    {w : σ} {t : τ} (hinv : Inv t) (hl : L.get t = ⟨[], [], w⟩) :
    ∃ t', Eff.zoom L (tryRead P ⟨K.e, K.s, K.idxBytes, i, K.decls[i].sig⟩) t = .ret (if K.decls[i].sig.ret.isSome then none else some none) t' ∧ Inv t' ∧ L.get t' = ⟨[], [], w⟩ := by
  have hmem := List.getElem_mem hi
  refine ⟨L.put ⟨[], [], w⟩ t, zoom_ret ?_, hS.inv_put _ _ hinv, hS.get_put _ _⟩
  rw [hl]
  cases hr : K.decls[i].sig.ret with
  | none => exact tryRead_void (k := ⟨K.e, K.s, K.idxBytes, i, K.decls[i].sig⟩) hr _
  | some u => exact tryRead_timeout hP (k := ⟨K.e, K.s, K.idxBytes, i, K.decls[i].sig⟩) hs (hK.2 _ hmem) hr (ha _ hmem u hr) _ _

/-- An attempt. -/
theorem attempt_lands (hP : P.Valid) (hK : KeyringOk K) (hs : Supported P K.e K.s) (ht : ∀ d ∈ K.decls, WellTyped P K.s ⟨d.sig, defs d.name⟩) (ha : Audible K)
    (hS : Server Q K defs L serve Inv) {i : Nat} (hi : i < K.decls.length) {args : List Val} (hfP : Val.FitsAll (Safe P K.s) K.decls[i].sig.params args)
    (hfQ : Val.FitsAll (Safe Q K.s) K.decls[i].sig.params args) (fate : Fate) {w : σ} {t : τ} {down : List Byte} (hinv : Inv t) (hl : L.get t = ⟨[], down, w⟩) :
    Reaches L Inv (attemptSpec (defs K.decls[i].name args) K.decls[i].sig.ret.isSome fate w)
      (attempt P L serve true ⟨K.e, K.s, K.idxBytes, i, K.decls[i].sig⟩ args fate t) := by
  have hmem := List.getElem_mem hi
  have hflush : Eff.zoom L Link.dropDown t = .ret () (L.put ⟨[], [], w⟩ t) := zoom_ret (by rw [hl]; rfl)
  have hsend := send_request hP hK hs hi hfP (hS.get_put ⟨[], [], w⟩ t)
  rw [List.nil_append] at hsend
  have hinv1 := hS.inv_put ⟨[], [], w⟩ t hinv
  have hinv2 := hS.inv_put ⟨request K.e K.s K.idxBytes i K.decls[i].sig.params args, [], w⟩ _ hinv1
  have hget2 := hS.get_put ⟨request K.e K.s K.idxBytes i K.decls[i].sig.params args, [], w⟩ (L.put ⟨[], [], w⟩ t)
  generalize L.put ⟨request K.e K.s K.idxBytes i K.decls[i].sig.params args, [], w⟩ (L.put ⟨[], [], w⟩ t) = t2 at hsend hinv2 hget2
  have hserve := hS.step i hi args [] [] w t2 hfQ hinv2 (by rw [hget2, List.append_nil])
  unfold attempt
  simp only [if_true]
  rw [Eff.bind_ret hflush, Eff.bind_ret hsend]
  -- what happens when the request arrives
  have hcont : ∀ (k : Option Val → Eff σ (Option (Option Val))) (k' : Unit → Eff τ (Option (Option Val))),
      (∀ r w' t', Inv t' → L.get t' = ⟨[], response K.e K.s K.decls[i].sig.ret r, w'⟩ → RetOk P K.s K.decls[i].sig.ret r → Reaches L Inv (k r w') (k' () t')) →
      Reaches L Inv ((defs K.decls[i].name args >>= k) w) ((serve >>= k') t2) := by
    intro k k' hk
    cases hd : defs K.decls[i].name args w with
    | fault e => rw [hd] at hserve; rw [Eff.bind_fault hd]; exact Eff.bind_fault hserve
    | threw w' =>
      rw [hd] at hserve
      obtain ⟨t', h1, h2⟩ := hserve
      rw [Eff.bind_threw hd]
      exact ⟨t', Eff.bind_threw h1, by rw [h2]⟩
    | ret r w' =>
      rw [hd] at hserve
      obtain ⟨t', h1, h2, h3⟩ := hserve
      rw [Eff.bind_ret hd, Eff.bind_ret h1]
      exact hk r w' t' h2 h3 (ht _ hmem _ _ _ _ hfP hd)
  cases fate with
  | arrives =>
    refine hcont _ _ fun r w' t' h2 h3 hr => ?_
    refine ⟨L.put ⟨[], [], w'⟩ t', [], ?_, hS.inv_put _ _ h2, hS.get_put _ _⟩
    refine zoom_ret ?_
    rw [h3, ← List.append_nil (response K.e K.s K.decls[i].sig.ret r)]
    exact tryRead_ret hP (k := ⟨K.e, K.s, K.idxBytes, i, K.decls[i].sig⟩) hs (hK.2 _ hmem) hr _ _ _
  | requestLost =>
    have hdrop : Eff.zoom L Link.dropUp t2 = .ret () (L.put ⟨[], [], w⟩ t2) := zoom_ret (by rw [hget2]; rfl)
    obtain ⟨t', h1, h2, h3⟩ := read_nothing hP hK hs ha hS hi (hS.inv_put ⟨[], [], w⟩ t2 hinv2) (hS.get_put _ _)
    refine ⟨t', [], ?_, h2, h3⟩
    exact (Eff.bind_ret hdrop).trans h1
  | responseLost =>
    refine hcont _ _ fun r w' t' h2 h3 hr => ?_
    have hdrop : Eff.zoom L Link.dropDown t' = .ret () (L.put ⟨[], [], w'⟩ t') := zoom_ret (by rw [h3]; rfl)
    obtain ⟨t'', h4, h5, h6⟩ := read_nothing hP hK hs ha hS hi (hS.inv_put ⟨[], [], w'⟩ t' h2) (hS.get_put _ _)
    exact ⟨t'', [], (Eff.bind_ret hdrop).trans h4, h5, h6⟩
  | late =>
    refine hcont _ _ fun r w' t' h2 h3 hr => ?_
    have hdrop : Eff.zoom L Link.delay t' = .ret (response K.e K.s K.decls[i].sig.ret r) (L.put ⟨[], [], w'⟩ t') := zoom_ret (by rw [h3]; rfl)
    obtain ⟨t'', h4, h5, h6⟩ := read_nothing hP hK hs ha hS hi (hS.inv_put ⟨[], [], w'⟩ t' h2) (hS.get_put _ _)
    have hdel : Eff.zoom L (Link.deliver (response K.e K.s K.decls[i].sig.ret r)) t'' = .ret () (L.put ⟨[], response K.e K.s K.decls[i].sig.ret r, w'⟩ t'') :=
      zoom_ret (by rw [h6]; rfl)
    exact ⟨_, _, (Eff.bind_ret hdrop).trans ((Eff.bind_ret h4).trans ((Eff.bind_ret hdel).trans rfl)), hS.inv_put _ _ h5, hS.get_put _ _⟩

/-- A call. -/
theorem retryCall_lands (hP : P.Valid) (hK : KeyringOk K) (hs : Supported P K.e K.s) (ht : ∀ d ∈ K.decls, WellTyped P K.s ⟨d.sig, defs d.name⟩) (ha : Audible K)
    (hS : Server Q K defs L serve Inv) {i : Nat} (hi : i < K.decls.length) {args : List Val} (hfP : Val.FitsAll (Safe P K.s) K.decls[i].sig.params args)
    (hfQ : Val.FitsAll (Safe Q K.s) K.decls[i].sig.params args) : ∀ (fates : List Fate) {w : σ} {t : τ} {down : List Byte}, Inv t → L.get t = ⟨[], down, w⟩ →
    Reaches L Inv (retriedCall (defs K.decls[i].name args) K.decls[i].sig.ret.isSome fates w)
      (retryCall P L serve true ⟨K.e, K.s, K.idxBytes, i, K.decls[i].sig⟩ args fates t)
  | [], w, t, down, _, hl => ⟨t, rfl, by rw [hl]⟩
  | fate :: fates, w, t, down, hinv, hl => by
    rw [retriedCall_cons, retryCall]
    refine Reaches.bind (attempt_lands hP hK hs ht ha hS hi hfP hfQ fate hinv hl) fun r w' t' down' h1 h2 => ?_
    cases r with
    | some v => exact ⟨t', down', rfl, h1, h2⟩
    | none => exact retryCall_lands hP hK hs ht ha hS hi hfP hfQ fates h1 h2

/-- A program. -/
theorem retrying_lands (hP : P.Valid) (hK : KeyringOk K) (hs : Supported P K.e K.s) (ht : ∀ d ∈ K.decls, WellTyped P K.s ⟨d.sig, defs d.name⟩) (ha : Audible K)
    (hS : Server Q K defs L serve Inv) : ∀ (prog : Talk σ α) (fates : List Fate) {w : σ} {t : τ} {down : List Byte}, TalkFits P Q K prog → Inv t → L.get t = ⟨[], down, w⟩ →
    Reaches L Inv (retried K defs prog fates w) (prog.retrying P K L serve true fates t)
  | .done a, fates, w, t, down, _, hinv, hl => ⟨t, down, rfl, hinv, hl⟩
  | .look k, fates, w, t, down, hok, hinv, hl => by
    have h1 : (Talk.look k).retrying P K L serve true fates t = (k w).retrying P K L serve true fates t := by
      show (k (L.get t).world).retrying P K L serve true fates t = _
      rw [hl]
    rw [h1]
    exact retrying_lands hP hK hs ht ha hS (k w) fates (hok w) hinv hl
  | .act x k, fates, w, t, down, hok, hinv, hl => by
    show Reaches L Inv ((x >>= fun _ => retried K defs k fates) w) ((Eff.zoom L (Eff.zoom Link.rest x) >>= fun _ => k.retrying P K L serve true fates) t)
    refine Reaches.bind ?_ fun _ w' t' down' h1 h2 => retrying_lands hP hK hs ht ha hS k fates hok h1 h2
    cases hx : x w with
    | fault e => exact zoom_fault (zoom_fault (by rw [hl]; exact hx))
    | threw w' => exact ⟨_, zoom_threw (zoom_threw (L := Link.rest) (by rw [hl]; exact hx)), by rw [hS.get_put]; rfl⟩
    | ret u w' =>
      refine ⟨_, down, zoom_ret (zoom_ret (L := Link.rest) (by rw [hl]; exact hx)), hS.inv_put _ _ hinv, ?_⟩
      rw [hS.get_put, hl]
      rfl
  | .call i args k, fates, w, t, down, hok, hinv, hl => by
    obtain ⟨⟨d, hd, hfP, hfQ⟩, hk⟩ := hok
    obtain ⟨hi, rfl⟩ := List.getElem?_eq_some_iff.mp hd
    have h1 : (Talk.call i args k).retrying P K L serve true fates =
        (retryCall P L serve true ⟨K.e, K.s, K.idxBytes, i, K.decls[i].sig⟩ args fates >>= fun r => (k r.1).retrying P K L serve true r.2) := by
      rw [Talk.retrying, K.keyAt_eq hK.1 hi]
    have h2 : retried K defs (.call i args k) fates =
        (retriedCall (defs K.decls[i].name args) K.decls[i].sig.ret.isSome fates >>= fun r => retried K defs (k r.1) r.2) := by
      rw [retried, hd]
    rw [h1, h2]
    exact Reaches.bind (retryCall_lands hP hK hs ht ha hS hi hfP hfQ fates hinv hl) fun r w' t' down' h3 h4 =>
      retrying_lands hP hK hs ht ha hS (k r.1) r.2 (hk r.1) h3 h4

end

end Upd
