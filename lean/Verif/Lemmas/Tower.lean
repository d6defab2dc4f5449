import Verif.Lemmas.Relay
import Verif.Lemmas.Deferred
import Verif.Spec.Tower

/-! Helper lemmas: layers of devices. -/

namespace Upd
open Spec TypeList

variable {σ τ α : Type}

theorem node_get_put (n : Node) (l : Link τ) (W : n.State τ) : n.link.get (n.link.put l W) = l := by
  cases n <;> rfl

theorem rest_get_put : ∀ (ts : List (Tier σ)) (w : σ) (W : Tower σ ts), (Tower.rest ts).get ((Tower.rest ts).put w W) = w
  | [], _, _ => rfl
  | t :: ts, w, W => (congrArg (fun l : Link (Tower σ ts) => (Tower.rest ts).get l.world) (node_get_put t.node _ W)).trans (rest_get_put ts w _)

theorem settled_put : ∀ (ts : List (Tier σ)) (w : σ) (W : Tower σ ts), Settled ts W → Settled ts ((Tower.rest ts).put w W)
  | [], _, _, _ => trivial
  | ⟨.buffered Q f shared, K, body⟩ :: ts, w, W, h => by
    obtain ⟨b, l⟩ := (W : BState (Link (Tower σ ts)))
    obtain ⟨h1, h2, h3, h4, h5⟩ := h
    exact ⟨h1, h2, reachable_world h3 _, h4, settled_put ts w _ h5⟩
  | ⟨.unbuffered Q f, K, body⟩ :: ts, w, W, h => ⟨h.1, h.2.1, settled_put ts w _ h.2.2⟩

/-- What a correct program returns is as expected, whatever the state of the devices. -/
theorem sound_post {P : Platform} {post : α → Prop} {ts : List (Tier σ)} (hP : P.Valid)
    (hts : ∀ t, ts.head? = some t → Supported P t.ring.e t.ring.s ∧ KeyringOk t.ring) :
    ∀ (prog : Talk σ α), TalkSound P post ts prog → ∀ (W W' : Tower σ ts) (a : α), prog.on (Tower.rest ts) (Tower.call ts P) W = .ret a W' → post a
  | .done a, hp, W, W', a', h => by
    injection h with h _
    exact h ▸ hp
  | .look k, hp, W, W', a, h => sound_post hP hts (k ((Tower.rest ts).get W)) (hp _) W W' a h
  | .act x k, hp, W, W', a, h => by
    obtain ⟨_, W1, _, h⟩ := Eff.bind_eq_ret h
    exact sound_post hP hts k hp W1 W' a h
  | .call i args k, hp, W, W', a, h => by
    obtain ⟨r, W1, h1, h⟩ := Eff.bind_eq_ret h
    obtain ⟨t, d, ht, hd, _, _, hk⟩ := hp
    refine sound_post hP hts (k r) (hk r ?_) W1 W' a h
    obtain ⟨hs, hK⟩ := hts t ht
    match ts, ht with
    | _ :: ts, rfl =>
      obtain ⟨hi, rfl⟩ := List.getElem?_eq_some_iff.mp hd
      unfold Tower.call at h1
      rw [t.ring.keyAt_eq hK.1 hi] at h1
      dsimp only at h1
      unfold blockingCall at h1
      obtain ⟨_, w1, _, h1⟩ := Eff.bind_eq_ret h1
      obtain ⟨_, w2, _, h1⟩ := Eff.bind_eq_ret h1
      obtain ⟨_, h1, _⟩ := zoom_eq_ret h1
      exact readFrom_retOk hP (k := ⟨t.ring.e, t.ring.s, t.ring.idxBytes, i, t.ring.decls[i].sig⟩) hs (hK.2 _ (List.getElem_mem hi)) h1

theorem sound_mono {P : Platform} {post post' : α → Prop} {ts : List (Tier σ)} (hpp : ∀ a, post a → post' a) :
    ∀ (prog : Talk σ α), TalkSound P post ts prog → TalkSound P post' ts prog
  | .done a, h => hpp a h
  | .look k, h => fun w => sound_mono hpp (k w) (h w)
  | .act _ k, h => sound_mono hpp k h
  | .call _ _ k, ⟨t, d, h1, h2, h3, h4, h5⟩ => ⟨t, d, h1, h2, h3, h4, fun r hr => sound_mono hpp (k r) (h5 r hr)⟩

theorem towerOk_head {P : Platform} {ts : List (Tier σ)} (h : TowerOk P ts) :
    ∀ t, ts.head? = some t → Supported P t.ring.e t.ring.s ∧ KeyringOk t.ring := by
  intro t ht
  match ts, ht with
  | _ :: _, rfl => exact ⟨h.2.1, h.2.2.1⟩

/-- The functions which a device serves return values which can be encoded by itself and decoded by its caller. -/
theorem served_post {P : Platform} {t : Tier σ} {ts : List (Tier σ)} (h : TowerOk P (t :: ts)) {d : Decl} (hd : d ∈ t.ring.decls) {args : List Val}
    (ha : Val.FitsAll (Safe t.node.plat t.ring.s) d.sig.params args) {W W' : Tower σ ts} {r : Option Val} (hr : Tower.served t ts d.name args W = .ret r W') :
    RetOk P t.ring.s d.sig.ret r ∧ RetOk t.node.plat t.ring.s d.sig.ret r :=
  sound_post (nodeOk_valid h.2.2.2.1).1 (towerOk_head h.2.2.2.2.2) _ (h.2.2.2.2.1 d hd args ha) W W' r hr

/-- A settled device serves requests, and is settled after. -/
theorem tier_server {P : Platform} : ∀ {t : Tier σ} {ts : List (Tier σ)} (_ : TowerOk P (t :: ts)) {W : Tower σ (t :: ts)} (_ : Settled (t :: ts) W),
    ∃ Inv : t.node.State (Tower σ ts) → Prop,
      Server t.node.plat t.ring (Tower.served t ts) t.node.link (t.node.serve t.ring (Tower.served t ts)) Inv ∧ Inv W ∧
      (∃ w, t.node.link.get W = ⟨[], [], w⟩ ∧ Settled ts w) ∧
      ∀ (W' : t.node.State (Tower σ ts)) w', Inv W' → t.node.link.get W' = ⟨[], [], w'⟩ → Settled ts w' → Settled (t :: ts) W'
  | ⟨.buffered Q f shared, K, body⟩, ts, h, W, hw => by
    obtain ⟨b, ⟨up, down, w⟩⟩ := (W : BState (Link (Tower σ ts)))
    obtain ⟨h1, h2, h3, h4, h5⟩ := hw
    have h1 : up = [] := h1
    have h2 : down = [] := h2
    subst h1; subst h2
    have hset : Setting Q K f (Tower.served ⟨.buffered Q f shared, K, body⟩ ts) :=
      ⟨h.2.2.2.1.1, h.2.2.1, h.2.2.2.1.2.1, h.2.2.2.1.2.2.2, fun d hd args w r w' ha hr => (served_post h hd ha hr).2⟩
    refine ⟨_, buffered_server hset h.2.2.2.1.2.2.1, ⟨h3, h4⟩, ⟨w, rfl, h5⟩, ?_⟩
    rintro ⟨b', l'⟩ w' ⟨h6, h7⟩ h8 h9
    have h8 : l' = _ := h8
    subst h8
    exact ⟨rfl, rfl, h6, h7, h9⟩
  | ⟨.unbuffered Q f, K, body⟩, ts, h, W, hw => by
    obtain ⟨up, down, w⟩ := (W : Link (Tower σ ts))
    obtain ⟨h1, h2, h5⟩ := hw
    have h1 : up = [] := h1
    have h2 : down = [] := h2
    subst h1; subst h2
    refine ⟨_, unbuffered_server (f := f) h.2.2.2.1.1 h.2.2.1 h.2.2.2.1.2 (fun d hd args w r w' ha hr => (served_post h hd ha hr).2), trivial, ⟨w, rfl, h5⟩, ?_⟩
    intro l' w' _ h8 h9
    have h8 : l' = _ := h8
    subst h8
    exact ⟨rfl, rfl, h9⟩

/-- A program, provided that calls are correct. -/
theorem talk_on {P : Platform} {post : α → Prop} {ts : List (Tier σ)}
    (hcall : ∀ (W : Tower σ ts), Settled ts W → ∀ t d i args, ts.head? = some t → t.ring.decls[i]? = some d → Val.FitsAll (Safe P t.ring.s) d.sig.params args →
      Val.FitsAll (Safe t.node.plat t.ring.s) d.sig.params args →
      TowerOutcome ts (layered ts i args ((Tower.rest ts).get W)) (Tower.call ts P i args W) ∧
        ∀ r w', layered ts i args ((Tower.rest ts).get W) = .ret r w' → RetOk P t.ring.s d.sig.ret r) :
    ∀ (prog : Talk σ α), TalkSound P post ts prog → ∀ (W : Tower σ ts), Settled ts W →
      TowerOutcome ts (ordinary (layered ts) prog ((Tower.rest ts).get W)) (prog.on (Tower.rest ts) (Tower.call ts P) W)
  | .done a, _, W, hw => ⟨W, rfl, hw, rfl⟩
  | .look k, hp, W, hw => talk_on hcall (k _) (hp _) W hw
  | .act x k, hp, W, hw => by
    show TowerOutcome ts ((x >>= fun _ => ordinary (layered ts) k) ((Tower.rest ts).get W))
      ((Eff.zoom (Tower.rest ts) x >>= fun _ => k.on (Tower.rest ts) (Tower.call ts P)) W)
    cases hx : x ((Tower.rest ts).get W) with
    | fault e => rw [Eff.bind_fault hx]; exact Eff.bind_fault (zoom_fault hx)
    | threw w => rw [Eff.bind_threw hx]; exact ⟨_, Eff.bind_threw (zoom_threw hx), rest_get_put ts _ _⟩
    | ret a w =>
      have ih := talk_on hcall k hp _ (settled_put ts w W hw)
      rw [rest_get_put] at ih
      rw [Eff.bind_ret hx, Eff.bind_ret (zoom_ret hx)]
      exact ih
  | .call i args k, hp, W, hw => by
    obtain ⟨t, d, ht, hd, hf, hf', hk⟩ := hp
    obtain ⟨h1, h2⟩ := hcall W hw t d i args ht hd hf hf'
    show TowerOutcome ts ((layered ts i args >>= fun r => ordinary (layered ts) (k r)) ((Tower.rest ts).get W))
      ((Tower.call ts P i args >>= fun r => (k r).on (Tower.rest ts) (Tower.call ts P)) W)
    cases hx : layered ts i args ((Tower.rest ts).get W) with
    | fault e => rw [hx] at h1; rw [Eff.bind_fault hx]; exact Eff.bind_fault h1
    | threw w =>
      rw [hx] at h1
      obtain ⟨W', h3, h4⟩ := h1
      rw [Eff.bind_threw hx]
      exact ⟨W', Eff.bind_threw h3, h4⟩
    | ret r w =>
      rw [hx] at h1
      obtain ⟨W', h3, h4, h5⟩ := h1
      have ih := talk_on hcall (k r) (hk r (h2 r w hx)) W' h4
      rw [h5] at ih
      rw [Eff.bind_ret hx, Eff.bind_ret h3]
      exact ih

/-- One call. -/
theorem tower_call : ∀ (ts : List (Tier σ)) (P : Platform), TowerOk P ts → ∀ (W : Tower σ ts), Settled ts W → ∀ t d i args, ts.head? = some t →
    t.ring.decls[i]? = some d → Val.FitsAll (Safe P t.ring.s) d.sig.params args → Val.FitsAll (Safe t.node.plat t.ring.s) d.sig.params args →
    TowerOutcome ts (layered ts i args ((Tower.rest ts).get W)) (Tower.call ts P i args W) ∧
      ∀ r w', layered ts i args ((Tower.rest ts).get W) = .ret r w' → RetOk P t.ring.s d.sig.ret r
  | [], _, _, _, _, _, _, _, _, ht, _, _, _ => by cases ht
  | t :: ts, P, h, W, hw, _, d, i, args, rfl, hd, hf, hf' => by
    obtain ⟨hi, rfl⟩ := List.getElem?_eq_some_iff.mp hd
    have hmem := List.getElem_mem hi
    obtain ⟨Inv, hS, hinv, ⟨w, hl, hw'⟩, hback⟩ := tier_server h hw
    have hrc := relay_call h.1 h.2.2.1 h.2.1 hS hi hf hf' hinv hl
    have ih := talk_on (tower_call ts t.node.plat h.2.2.2.2.2) _ (h.2.2.2.2.1 _ hmem args hf') w hw'
    have hb : (Tower.rest (t :: ts)).get W = (Tower.rest ts).get w := by
      show (Tower.rest ts).get (t.node.link.get W).world = _
      rw [hl]
    have hlay : layered (t :: ts) i args = ordinary (layered ts) (t.body t.ring.decls[i].name args) := by
      show (match t.ring.decls[i]? with | none => _ | some d => _) = _
      rw [hd]
    have hcall : Tower.call (t :: ts) P i args = blockingCall P t.node.link (t.node.serve t.ring (Tower.served t ts))
        ⟨t.ring.e, t.ring.s, t.ring.idxBytes, i, t.ring.decls[i].sig⟩ args := by
      conv => lhs; unfold Tower.call
      rw [t.ring.keyAt_eq h.2.2.1.1 hi]
      rfl
    rw [hlay, hcall, hb]
    have hback' : ∀ (W' : Tower σ (t :: ts)) w', t.node.link.get W' = ⟨[], [], w'⟩ → (Tower.rest (t :: ts)).get W' = (Tower.rest ts).get w' := by
      intro W' w' hg
      show (Tower.rest ts).get (t.node.link.get W').world = _
      rw [hg]
    cases hx : ordinary (layered ts) (t.body t.ring.decls[i].name args) ((Tower.rest ts).get w) with
    | fault e =>
      rw [hx] at ih
      have ih : Tower.served t ts t.ring.decls[i].name args w = _ := ih
      rw [ih] at hrc
      exact ⟨hrc, by intro _ _ hc; cases hc⟩
    | threw w1 =>
      rw [hx] at ih
      obtain ⟨W1, h1, h2⟩ := ih
      have h1 : Tower.served t ts t.ring.decls[i].name args w = _ := h1
      rw [h1] at hrc
      obtain ⟨W2, h3, h4⟩ := hrc
      exact ⟨⟨W2, h3, (hback' W2 _ h4).trans h2⟩, by intro _ _ hc; cases hc⟩
    | ret r w1 =>
      rw [hx] at ih
      obtain ⟨W1, h1, h2, h2'⟩ := ih
      have h1 : Tower.served t ts t.ring.decls[i].name args w = _ := h1
      have hro := (served_post h hmem hf' h1).1
      rw [h1] at hrc
      obtain ⟨W2, h3, h4, h5⟩ := hrc hro
      refine ⟨⟨W2, h3, hback W2 _ h4 h5 h2, (hback' W2 _ h5).trans h2'⟩, ?_⟩
      intro r' w' hc
      injection hc with hc _
      exact hc ▸ hro

end Upd
