import Verif.Lemmas.Session
import Verif.Lemmas.Cases
import Verif.Spec.Relay

/-! # Relays -/

namespace Upd
open Spec TypeList

variable {σ τ : Type}

/-- What a key reads is a value of the return type. -/
theorem readFrom_retOk {P : Platform} (hP : P.Valid) {k : Key} (hs : Supported P k.e k.s) (hg : SigOk k.sig) {src : Eff τ Byte} {w w' : τ}
    {r : Option Val} (h : k.readFrom P src w = .ret r w') : RetOk P k.s k.sig.ret r := by
  unfold Key.readFrom at h
  cases hret : k.sig.ret with
  | none => rw [hret] at h; injection h with h1 _; subst h1; trivial
  | some t =>
    rw [hret] at h
    obtain ⟨hw, hp⟩ := hg.2.2 t hret
    have hws : Ty.WFs [t] := by simp [Ty.WFs, hw]
    have hps : PackedAll [t] := by simp [PackedAll, hp]
    simp only at h
    rw [readFrom_eq hP hs hws (packedAll_loose _ hps)] at h
    obtain ⟨bs, w1, h1, h2⟩ := Eff.bind_eq_ret h
    rw [View.get_eq P (Tuple.self k.e k.s [t]) (by simp [Tuple.self])] at h2
    have h2 : (Eff.lift (readAs P k.e k.s t bs 0) >>= fun v => pure (some v)) w1 = .ret r w' := h2
    have hl := (getN_length h1).1
    rcases readAs_cases hP hs t bs 0 hw (packed_loose t hp) (by rw [hl]; simp [Ty.serSizes]) with ⟨v, h3, h4⟩ | ⟨f, h3, _⟩
    · rw [h3] at h2
      injection h2 with h5 _
      subst h5
      exact h4
    · rw [h3] at h2; cases h2

section
variable {P Q : Platform} {K : Keyring} {defs : Nat → List Val → Eff σ (Option Val)}

/-- A call in blocking mode. -/
theorem relay_call {fns : Nat → List Val → Eff σ (Option Val)} (hP : P.Valid) (hK : KeyringOk K) (hs : Supported P K.e K.s)
    {L : Lens τ (Link σ)} {serve : Eff τ Unit} {Inv : τ → Prop}
    (hS : Server Q K fns L serve Inv) {i : Nat} (hi : i < K.decls.length) {args : List Val}
    (hfP : Val.FitsAll (Safe P K.s) K.decls[i].sig.params args) (hfQ : Val.FitsAll (Safe Q K.s) K.decls[i].sig.params args) {w : σ} {t : τ}
    (hinv : Inv t) (hl : L.get t = ⟨[], [], w⟩) :
    match fns K.decls[i].name args w with
    | .ret r w' => RetOk P K.s K.decls[i].sig.ret r →
        ∃ t', blockingCall P L serve ⟨K.e, K.s, K.idxBytes, i, K.decls[i].sig⟩ args t = .ret r t' ∧ Inv t' ∧ L.get t' = ⟨[], [], w'⟩
    | .threw w' => ∃ t', blockingCall P L serve ⟨K.e, K.s, K.idxBytes, i, K.decls[i].sig⟩ args t = .threw t' ∧ L.get t' = ⟨[], [], w'⟩
    | .fault f => blockingCall P L serve ⟨K.e, K.s, K.idxBytes, i, K.decls[i].sig⟩ args t = .fault f := by
  have h1 := send_request hP hK hs hi hfP hl
  rw [List.nil_append] at h1
  have h2 := hS.step i hi args [] [] w _ hfQ (hS.inv_put ⟨request K.e K.s K.idxBytes i K.decls[i].sig.params args, [], w⟩ t hinv)
    (by rw [hS.get_put, List.append_nil])
  cases hd : fns K.decls[i].name args w with
  | fault e =>
    rw [hd] at h2
    show blockingCall .. = _
    unfold blockingCall; rw [Eff.bind_ret h1]; exact Eff.bind_fault h2
  | threw w' =>
    rw [hd] at h2
    obtain ⟨t', h3, h4⟩ := h2
    exact ⟨t', by unfold blockingCall; rw [Eff.bind_ret h1]; exact Eff.bind_threw h3, h4⟩
  | ret r w' =>
    intro hr
    rw [hd] at h2
    obtain ⟨t1, h3, h4, h5⟩ := h2
    have h6 := receive_response hP hK hs hi hr (up := []) (down := []) (w := w') (t := t1) (L := L) (by rw [h5]; simp)
    exact ⟨_, by unfold blockingCall; rw [Eff.bind_ret h1, Eff.bind_ret h3]; exact h6, hS.inv_put _ _ h4, hS.get_put _ _⟩

/-- Functions called through keys return values of their return types. -/
theorem fns_typed (hP : P.Valid) (hK : KeyringOk K) (hs : Supported P K.e K.s) (ho : OneSignature K)
    (ht : ∀ d ∈ K.decls, WellTyped P K.s ⟨d.sig, defs d.name⟩) :
    ∀ (ns : List Node), ∀ d ∈ K.decls, WellTyped P K.s ⟨d.sig, Chain.fns K defs P ns d.name⟩
  | [] => ht
  | n :: ns => by
    intro d hd args W r W' _ hr
    obtain ⟨i, hi, hn, hk⟩ := K.get11_isSome hK.1 ⟨d, hd, rfl⟩
    have hr : (match K.get11 d.name with
      | none => Eff.lift (.error .illTyped)
      | some k => blockingCall P n.link (n.serve K (Chain.fns K defs n.plat ns)) k args) W = .ret r W' := hr
    rw [hk] at hr
    dsimp only at hr
    unfold blockingCall at hr
    obtain ⟨_, w1, _, hr⟩ := Eff.bind_eq_ret hr
    obtain ⟨_, w2, _, hr⟩ := Eff.bind_eq_ret hr
    obtain ⟨_, hr, _⟩ := zoom_eq_ret hr
    have := readFrom_retOk hP (k := ⟨K.e, K.s, K.idxBytes, i, K.decls[i].sig⟩) hs (hK.2 _ (List.getElem_mem hi)) hr
    rwa [ho _ (List.getElem_mem hi) d hd hn] at this

theorem nodeOk_valid {n : Node} (h : NodeOk K n) : n.plat.Valid ∧ Supported n.plat K.e K.s := by
  cases n with
  | buffered P f shared => exact ⟨h.1, h.2.1⟩
  | unbuffered P f => exact h

/-- One call. -/
theorem chain_call (hK : KeyringOk K) (ho : OneSignature K) : ∀ (ns : List Node) (P : Platform) (W : Chain σ ns) (name : Nat) (args : List Val),
    P.Valid → Supported P K.e K.s → (∀ n ∈ ns, NodeOk K n) →
    (∀ Q ∈ P :: ns.map Node.plat, ∀ d ∈ K.decls, WellTyped Q K.s ⟨d.sig, defs d.name⟩) → (∃ d ∈ K.decls, d.name = name) →
    (∀ Q ∈ P :: ns.map Node.plat, ∀ d ∈ K.decls, d.name = name → Val.FitsAll (Safe Q K.s) d.sig.params args) → Idle K defs ns W →
    RowOutcome K defs ns (defs name args (bottom ns W)) (Chain.fns K defs P ns name args W)
  | [], P, W, name, args, _, _, _, _, _, _, _ => by
    show RowOutcome K defs [] (defs name args W) (defs name args W)
    cases h : defs name args W with
    | fault f => exact rfl
    | threw w => exact ⟨w, rfl, rfl⟩
    | ret r w => exact ⟨w, rfl, trivial, rfl⟩
  | n :: ns, P, W, name, args, hP, hs, hn, ht, he, hf, hw => by
    obtain ⟨i, hi, rfl, hk⟩ := K.get11_isSome hK.1 he
    have hbc : Chain.fns K defs P (n :: ns) K.decls[i].name args =
        blockingCall P n.link (n.serve K (Chain.fns K defs n.plat ns)) ⟨K.e, K.s, K.idxBytes, i, K.decls[i].sig⟩ args := by
      show (match K.get11 K.decls[i].name with
        | none => Eff.lift (.error .illTyped)
        | some k => blockingCall P n.link (n.serve K (Chain.fns K defs n.plat ns)) k args) = _
      rw [hk]
    rw [hbc]
    have hin : ∀ Q ∈ n.plat :: ns.map Node.plat, Q ∈ P :: (n :: ns).map Node.plat := fun Q hQ => List.mem_cons_of_mem _ hQ
    obtain ⟨hv, hsn⟩ := nodeOk_valid (hn n (List.mem_cons_self ..))
    have htn := fns_typed hv hK hsn ho (fun d hd => ht _ (hin _ (List.mem_cons_self ..)) d hd) ns
    have hfP := hf P (List.mem_cons_self ..) _ (List.getElem_mem hi) rfl
    have hfn := hf _ (hin _ (List.mem_cons_self ..)) _ (List.getElem_mem hi) rfl
    have ih := fun W' hW' => chain_call hK ho ns n.plat W' K.decls[i].name args hv hsn (fun m hm => hn m (List.mem_cons_of_mem _ hm))
      (fun Q hQ => ht Q (hin Q hQ)) he (fun Q hQ => hf Q (hin Q hQ)) hW'
    have hro : ∀ w r w', defs K.decls[i].name args w = .ret r w' → RetOk P K.s K.decls[i].sig.ret r :=
      fun w r w' h => ht P (List.mem_cons_self ..) _ (List.getElem_mem hi) args w r w' hfP h
    have hnok := hn n (List.mem_cons_self ..)
    cases n with
    | buffered Q f shared =>
      obtain ⟨b, ⟨up, down, w⟩⟩ := (W : BState (Link (Chain σ ns)))
      obtain ⟨h1, h2, h3, h4, h5⟩ := hw
      have h1 : up = [] := h1
      have h2 : down = [] := h2
      subst h1; subst h2
      have hset : Setting Q K f (Chain.fns K defs Q ns) := ⟨hnok.1, hK, hnok.2.1, hnok.2.2.2, htn⟩
      have h := relay_call hP hK hs (buffered_server hset hnok.2.2.1) hi hfP hfn (w := w) (t := (b, ⟨[], [], w⟩)) ⟨h3, h4⟩ rfl
      have ih := ih w h5
      show RowOutcome K defs _ (defs K.decls[i].name args (bottom ns w)) _
      cases hd : defs K.decls[i].name args (bottom ns w) with
      | fault e =>
        rw [hd] at ih
        have ih : Chain.fns K defs Q ns K.decls[i].name args w = _ := ih
        rw [ih] at h
        exact h
      | threw w1 =>
        rw [hd] at ih
        obtain ⟨W1, h6, h7⟩ := ih
        have h6 : Chain.fns K defs Q ns K.decls[i].name args w = _ := h6
        rw [h6] at h
        obtain ⟨⟨b', l⟩, h8, h9⟩ := h
        have h9 : l = _ := h9
        subst h9
        exact ⟨_, h8, h7⟩
      | ret r w1 =>
        rw [hd] at ih
        obtain ⟨W1, h6, h7, h7'⟩ := ih
        have h6 : Chain.fns K defs Q ns K.decls[i].name args w = _ := h6
        rw [h6] at h
        obtain ⟨⟨b', l⟩, h8, ⟨h9, h9'⟩, h10⟩ := h (hro _ _ _ hd)
        have h10 : l = _ := h10
        subst h10
        exact ⟨_, h8, ⟨rfl, rfl, h9, h9', h7⟩, h7'⟩
    | unbuffered Q f =>
      obtain ⟨up, down, w⟩ := (W : Link (Chain σ ns))
      obtain ⟨h1, h2, h5⟩ := hw
      have h1 : up = [] := h1
      have h2 : down = [] := h2
      subst h1; subst h2
      have h := relay_call hP hK hs (unbuffered_server (f := f) (defs := Chain.fns K defs Q ns) hnok.1 hK hnok.2 htn) hi hfP hfn (w := w) (t := ⟨[], [], w⟩) trivial rfl
      have ih := ih w h5
      show RowOutcome K defs _ (defs K.decls[i].name args (bottom ns w)) _
      cases hd : defs K.decls[i].name args (bottom ns w) with
      | fault e =>
        rw [hd] at ih
        have ih : Chain.fns K defs Q ns K.decls[i].name args w = _ := ih
        rw [ih] at h
        exact h
      | threw w1 =>
        rw [hd] at ih
        obtain ⟨W1, h6, h7⟩ := ih
        have h6 : Chain.fns K defs Q ns K.decls[i].name args w = _ := h6
        rw [h6] at h
        obtain ⟨l, h8, h9⟩ := h
        have h9 : l = _ := h9
        subst h9
        exact ⟨_, h8, h7⟩
      | ret r w1 =>
        rw [hd] at ih
        obtain ⟨W1, h6, h7, h7'⟩ := ih
        have h6 : Chain.fns K defs Q ns K.decls[i].name args w = _ := h6
        rw [h6] at h
        obtain ⟨l, h8, _, h10⟩ := h (hro _ _ _ hd)
        have h10 : l = _ := h10
        subst h10
        exact ⟨_, h8, ⟨rfl, rfl, h7⟩, h7'⟩

end

end Upd
