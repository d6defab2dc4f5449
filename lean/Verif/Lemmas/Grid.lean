import Verif.Lemmas.Relay
import Verif.Lemmas.Deferred
import Verif.Lemmas.Tower
import Verif.Spec.Grid

/-! Helper lemmas: networks of devices. -/

namespace Upd
open Spec TypeList

variable {σ τ α : Type}

theorem behind_get_put (n : Node) (w : τ) (W : n.State τ) : n.behind.get (n.behind.put w W) = w := by
  cases n <;> rfl

theorem grid_get_put : ∀ (ts : List (Outpost σ)) (w : σ) (W : Grid σ ts), (Grid.rest ts).get ((Grid.rest ts).put w W) = w
  | [], _, _ => rfl
  | t :: ts, w, W => (congrArg (Grid.rest ts).get (behind_get_put t.node _ W)).trans (grid_get_put ts w _)

/-- What is behind a device at rest is at rest. -/
theorem rest_behind : ∀ {t : Outpost σ} {ts : List (Outpost σ)} {W : Grid σ (t :: ts)}, AtRest (t :: ts) W → AtRest ts (t.node.behind.get W)
  | ⟨.buffered Q f shared, K, body⟩, ts, W, h => by
    obtain ⟨b, l⟩ := (W : BState (Link (Grid σ ts)))
    exact h.2.2.2.2
  | ⟨.unbuffered Q f, K, body⟩, ts, W, h => h.2.2

theorem rest_put_behind : ∀ {t : Outpost σ} {ts : List (Outpost σ)} {W : Grid σ (t :: ts)} {w : Grid σ ts}, AtRest (t :: ts) W → AtRest ts w →
    AtRest (t :: ts) (t.node.behind.put w W)
  | ⟨.buffered Q f shared, K, body⟩, ts, W, w, h, hw => by
    obtain ⟨b, l⟩ := (W : BState (Link (Grid σ ts)))
    obtain ⟨h1, h2, h3, h4, _⟩ := h
    exact ⟨h1, h2, reachable_world h3 _, h4, hw⟩
  | ⟨.unbuffered Q f, K, body⟩, ts, W, w, h, hw => ⟨h.1, h.2.1, hw⟩

theorem rest_put : ∀ (ts : List (Outpost σ)) (w : σ) (W : Grid σ ts), AtRest ts W → AtRest ts ((Grid.rest ts).put w W)
  | [], _, _, _ => trivial
  | t :: ts, w, W, h => rest_put_behind h (rest_put ts w _ (rest_behind h))

/-- What a device calls return can be encoded. -/
theorem grid_retOk {P : Platform} (hP : P.Valid) : ∀ {ts : List (Outpost σ)} {dev i : Nat} {args : List Val} {t : Outpost σ} {d : Decl} {W W' : Grid σ ts} {r : Option Val},
    ts[dev]? = some t → Supported P t.ring.e t.ring.s → KeyringOk t.ring → t.ring.decls[i]? = some d → Grid.call ts P dev i args W = .ret r W' →
    RetOk P t.ring.s d.sig.ret r
  | t :: ts, 0, i, args, _, d, W, W', r, rfl, hs, hK, hd, h => by
    obtain ⟨hi, rfl⟩ := List.getElem?_eq_some_iff.mp hd
    unfold Grid.call at h
    dsimp only at h
    rw [t.ring.keyAt_eq hK.1 hi] at h
    dsimp only at h
    unfold blockingCall at h
    obtain ⟨_, w1, _, h⟩ := Eff.bind_eq_ret h
    obtain ⟨_, w2, _, h⟩ := Eff.bind_eq_ret h
    obtain ⟨_, h, _⟩ := zoom_eq_ret h
    exact readFrom_retOk hP (k := ⟨t.ring.e, t.ring.s, t.ring.idxBytes, i, t.ring.decls[i].sig⟩) hs (hK.2 _ (List.getElem_mem hi)) h
  | t' :: ts, dev + 1, i, args, t, d, W, W', r, ht, hs, hK, hd, h => by
    unfold Grid.call at h
    obtain ⟨_, h, _⟩ := zoom_eq_ret h
    exact grid_retOk hP (ts := ts) (dev := dev) (by simpa using ht) hs hK hd h

/-- What is known about each device. -/
theorem gridOk_at {P : Platform} : ∀ {clients : Nat → Platform → Prop} {ts : List (Outpost σ)} {dev : Nat} {t : Outpost σ}, GridOk clients ts → ts[dev]? = some t → clients dev P →
    P.Valid ∧ Supported P t.ring.e t.ring.s ∧ KeyringOk t.ring
  | _, _ :: _, 0, _, h, rfl, hc => ⟨(h.1 P hc).1, (h.1 P hc).2, h.2.1⟩
  | _, t' :: ts, dev + 1, t, h, ht, hc => gridOk_at (ts := ts) (dev := dev) h.2.2.2.2 (by simpa using ht) hc

/-- What a correct program returns is as expected, whatever the state of the devices. -/
theorem script_post {P : Platform} {post : α → Prop} {clients : Nat → Platform → Prop} {ts : List (Outpost σ)} (hts : GridOk clients ts) :
    ∀ (prog : Script σ α), ScriptSound P post clients ts prog → ∀ (W W' : Grid σ ts) (a : α), prog.on (Grid.rest ts) (Grid.call ts P) W = .ret a W' → post a
  | .done a, hp, W, W', a', h => by
    injection h with h _
    exact h ▸ hp
  | .look k, hp, W, W', a, h => script_post hts (k ((Grid.rest ts).get W)) (hp _) W W' a h
  | .act x k, hp, W, W', a, h => by
    obtain ⟨_, W1, _, h⟩ := Eff.bind_eq_ret h
    exact script_post hts k hp W1 W' a h
  | .call dev i args k, hp, W, W', a, h => by
    obtain ⟨r, W1, h1, h⟩ := Eff.bind_eq_ret h
    obtain ⟨hc, t, d, ht, hd, _, _, hk⟩ := hp
    obtain ⟨hP, hs, hK⟩ := gridOk_at hts ht hc
    exact script_post hts (k r) (hk r (grid_retOk hP ht hs hK hd h1)) W1 W' a h

theorem script_mono {P : Platform} {post post' : α → Prop} {clients : Nat → Platform → Prop} {ts : List (Outpost σ)} (hpp : ∀ a, post a → post' a) :
    ∀ (prog : Script σ α), ScriptSound P post clients ts prog → ScriptSound P post' clients ts prog
  | .done a, h => hpp a h
  | .look k, h => fun w => script_mono hpp (k w) (h w)
  | .act _ k, h => script_mono hpp k h
  | .call _ _ _ k, ⟨hc, t, d, h1, h2, h3, h4, h5⟩ => ⟨hc, t, d, h1, h2, h3, h4, fun r hr => script_mono hpp (k r) (h5 r hr)⟩

/-- The functions which a device serves return values which can be encoded by itself and decoded by its callers. -/
theorem outpost_post {clients : Nat → Platform → Prop} {t : Outpost σ} {ts : List (Outpost σ)} (h : GridOk clients (t :: ts)) {d : Decl} (hd : d ∈ t.ring.decls) {args : List Val}
    (ha : Val.FitsAll (Safe t.node.plat t.ring.s) d.sig.params args) {W W' : Grid σ ts} {r : Option Val} (hr : Grid.served t ts d.name args W = .ret r W') :
    (∀ P, clients 0 P → RetOk P t.ring.s d.sig.ret r) ∧ RetOk t.node.plat t.ring.s d.sig.ret r :=
  script_post h.2.2.2.2 _ (h.2.2.2.1 d hd args ha) W W' r hr

/-- A device at rest serves requests, and is at rest after. -/
theorem outpost_server {clients : Nat → Platform → Prop} : ∀ {t : Outpost σ} {ts : List (Outpost σ)} (_ : GridOk clients (t :: ts)) {W : Grid σ (t :: ts)} (_ : AtRest (t :: ts) W),
    ∃ Inv : t.node.State (Grid σ ts) → Prop,
      Server t.node.plat t.ring (Grid.served t ts) t.node.link (t.node.serve t.ring (Grid.served t ts)) Inv ∧ Inv W ∧
      (∃ w, t.node.link.get W = ⟨[], [], w⟩ ∧ AtRest ts w) ∧
      ∀ (W' : t.node.State (Grid σ ts)) w', Inv W' → t.node.link.get W' = ⟨[], [], w'⟩ → AtRest ts w' → AtRest (t :: ts) W'
  | ⟨.buffered Q f shared, K, body⟩, ts, h, W, hw => by
    obtain ⟨b, ⟨up, down, w⟩⟩ := (W : BState (Link (Grid σ ts)))
    obtain ⟨h1, h2, h3, h4, h5⟩ := hw
    have h1 : up = [] := h1
    have h2 : down = [] := h2
    subst h1; subst h2
    have hset : Setting Q K f (Grid.served ⟨.buffered Q f shared, K, body⟩ ts) :=
      ⟨h.2.2.1.1, h.2.1, h.2.2.1.2.1, h.2.2.1.2.2.2, fun d hd args w r w' ha hr => (outpost_post h hd ha hr).2⟩
    refine ⟨_, buffered_server hset h.2.2.1.2.2.1, ⟨h3, h4⟩, ⟨w, rfl, h5⟩, ?_⟩
    rintro ⟨b', l'⟩ w' ⟨h6, h7⟩ h8 h9
    have h8 : l' = _ := h8
    subst h8
    exact ⟨rfl, rfl, h6, h7, h9⟩
  | ⟨.unbuffered Q f, K, body⟩, ts, h, W, hw => by
    obtain ⟨up, down, w⟩ := (W : Link (Grid σ ts))
    obtain ⟨h1, h2, h5⟩ := hw
    have h1 : up = [] := h1
    have h2 : down = [] := h2
    subst h1; subst h2
    refine ⟨_, unbuffered_server (f := f) h.2.2.1.1 h.2.1 h.2.2.1.2 (fun d hd args w r w' ha hr => (outpost_post h hd ha hr).2), trivial, ⟨w, rfl, h5⟩, ?_⟩
    intro l' w' _ h8 h9
    have h8 : l' = _ := h8
    subst h8
    exact ⟨rfl, rfl, h9⟩

/-- A program, provided that calls are correct. -/
theorem script_on {P : Platform} {post : α → Prop} {clients : Nat → Platform → Prop} {ts : List (Outpost σ)}
    (hcall : ∀ (W : Grid σ ts), AtRest ts W → ∀ dev t d i args, clients dev P → ts[dev]? = some t → t.ring.decls[i]? = some d → Val.FitsAll (Safe P t.ring.s) d.sig.params args →
      Val.FitsAll (Safe t.node.plat t.ring.s) d.sig.params args →
      GridOutcome ts (netted ts dev i args ((Grid.rest ts).get W)) (Grid.call ts P dev i args W) ∧
        ∀ r w', netted ts dev i args ((Grid.rest ts).get W) = .ret r w' → RetOk P t.ring.s d.sig.ret r) :
    ∀ (prog : Script σ α), ScriptSound P post clients ts prog → ∀ (W : Grid σ ts), AtRest ts W →
      GridOutcome ts (scripted (netted ts) prog ((Grid.rest ts).get W)) (prog.on (Grid.rest ts) (Grid.call ts P) W)
  | .done a, _, W, hw => ⟨W, rfl, hw, rfl⟩
  | .look k, hp, W, hw => script_on hcall (k _) (hp _) W hw
  | .act x k, hp, W, hw => by
    show GridOutcome ts ((x >>= fun _ => scripted (netted ts) k) ((Grid.rest ts).get W))
      ((Eff.zoom (Grid.rest ts) x >>= fun _ => k.on (Grid.rest ts) (Grid.call ts P)) W)
    cases hx : x ((Grid.rest ts).get W) with
    | fault e => rw [Eff.bind_fault hx]; exact Eff.bind_fault (zoom_fault hx)
    | threw w => rw [Eff.bind_threw hx]; exact ⟨_, Eff.bind_threw (zoom_threw hx), grid_get_put ts _ _⟩
    | ret a w =>
      have ih := script_on hcall k hp _ (rest_put ts w W hw)
      rw [grid_get_put] at ih
      rw [Eff.bind_ret hx, Eff.bind_ret (zoom_ret hx)]
      exact ih
  | .call dev i args k, hp, W, hw => by
    obtain ⟨hc, t, d, ht, hd, hf, hf', hk⟩ := hp
    obtain ⟨h1, h2⟩ := hcall W hw dev t d i args hc ht hd hf hf'
    show GridOutcome ts ((netted ts dev i args >>= fun r => scripted (netted ts) (k r)) ((Grid.rest ts).get W))
      ((Grid.call ts P dev i args >>= fun r => (k r).on (Grid.rest ts) (Grid.call ts P)) W)
    cases hx : netted ts dev i args ((Grid.rest ts).get W) with
    | fault e => rw [hx] at h1; rw [Eff.bind_fault hx]; exact Eff.bind_fault h1
    | threw w =>
      rw [hx] at h1
      obtain ⟨W', h3, h4⟩ := h1
      rw [Eff.bind_threw hx]
      exact ⟨W', Eff.bind_threw h3, h4⟩
    | ret r w =>
      rw [hx] at h1
      obtain ⟨W', h3, h4, h5⟩ := h1
      have ih := script_on hcall (k r) (hk r (h2 r w hx)) W' h4
      rw [h5] at ih
      rw [Eff.bind_ret hx, Eff.bind_ret h3]
      exact ih

/-- Calls of the devices by a caller of platform `P` are correct. -/
def GridCalls (ts : List (Outpost σ)) (clients : Nat → Platform → Prop) (P : Platform) : Prop :=
  ∀ (W : Grid σ ts), AtRest ts W → ∀ dev t d i args, clients dev P → ts[dev]? = some t → t.ring.decls[i]? = some d → Val.FitsAll (Safe P t.ring.s) d.sig.params args →
    Val.FitsAll (Safe t.node.plat t.ring.s) d.sig.params args →
    GridOutcome ts (netted ts dev i args ((Grid.rest ts).get W)) (Grid.call ts P dev i args W) ∧
      ∀ r w', netted ts dev i args ((Grid.rest ts).get W) = .ret r w' → RetOk P t.ring.s d.sig.ret r

/-- A call of the first device. -/
theorem grid_call_here {t : Outpost σ} {ts : List (Outpost σ)} {clients : Nat → Platform → Prop} {P : Platform} (h : GridOk clients (t :: ts))
    (hnext : GridCalls ts (fun dev => clients (dev + 1)) t.node.plat) {W : Grid σ (t :: ts)} (hw : AtRest (t :: ts) W) {d : Decl} {i : Nat} {args : List Val} (hc : clients 0 P)
    (hd : t.ring.decls[i]? = some d) (hf : Val.FitsAll (Safe P t.ring.s) d.sig.params args) (hf' : Val.FitsAll (Safe t.node.plat t.ring.s) d.sig.params args) :
    GridOutcome (t :: ts) (netted (t :: ts) 0 i args ((Grid.rest (t :: ts)).get W)) (Grid.call (t :: ts) P 0 i args W) ∧
      ∀ r w', netted (t :: ts) 0 i args ((Grid.rest (t :: ts)).get W) = .ret r w' → RetOk P t.ring.s d.sig.ret r := by
  obtain ⟨hi, rfl⟩ := List.getElem?_eq_some_iff.mp hd
  have hmem := List.getElem_mem hi
  obtain ⟨hP, hsup⟩ := h.1 P hc
  obtain ⟨Inv, hS, hinv, ⟨w, hl, hw'⟩, hback⟩ := outpost_server h hw
  have hrc := relay_call hP h.2.1 hsup hS hi hf hf' hinv hl
  have ih := script_on hnext _ (h.2.2.2.1 _ hmem args hf') w hw'
  have hback' : ∀ (W' : Grid σ (t :: ts)) w', t.node.link.get W' = ⟨[], [], w'⟩ → (Grid.rest (t :: ts)).get W' = (Grid.rest ts).get w' := by
    intro W' w' hg
    show (Grid.rest ts).get (t.node.link.get W').world = _
    rw [hg]
  have hlay : netted (t :: ts) 0 i args = scripted (netted ts) (t.body t.ring.decls[i].name args) := by
    show (match t.ring.decls[i]? with | none => _ | some d => _) = _
    rw [hd]
  have hcall : Grid.call (t :: ts) P 0 i args = blockingCall P t.node.link (t.node.serve t.ring (Grid.served t ts))
      ⟨t.ring.e, t.ring.s, t.ring.idxBytes, i, t.ring.decls[i].sig⟩ args := by
    conv => lhs; unfold Grid.call
    dsimp only
    rw [t.ring.keyAt_eq h.2.1.1 hi]
    rfl
  rw [hlay, hcall, hback' W w hl]
  cases hx : scripted (netted ts) (t.body t.ring.decls[i].name args) ((Grid.rest ts).get w) with
  | fault e =>
    rw [hx] at ih
    have ih : Grid.served t ts t.ring.decls[i].name args w = _ := ih
    rw [ih] at hrc
    exact ⟨hrc, by intro _ _ hc; cases hc⟩
  | threw w1 =>
    rw [hx] at ih
    obtain ⟨W1, h1, h2⟩ := ih
    have h1 : Grid.served t ts t.ring.decls[i].name args w = _ := h1
    rw [h1] at hrc
    obtain ⟨W2, h3, h4⟩ := hrc
    exact ⟨⟨W2, h3, (hback' W2 _ h4).trans h2⟩, by intro _ _ hc; cases hc⟩
  | ret r w1 =>
    rw [hx] at ih
    obtain ⟨W1, h1, h2, h2'⟩ := ih
    have h1 : Grid.served t ts t.ring.decls[i].name args w = _ := h1
    have hro := (outpost_post h hmem hf' h1).1 P hc
    rw [h1] at hrc
    obtain ⟨W2, h3, h4, h5⟩ := hrc hro
    refine ⟨⟨W2, h3, hback W2 _ h4 h5 h2, (hback' W2 _ h5).trans h2'⟩, ?_⟩
    intro r' w' hc
    injection hc with hc _
    exact hc ▸ hro

/-- A call of another device. -/
theorem grid_call_behind {t' : Outpost σ} {ts : List (Outpost σ)} {clients : Nat → Platform → Prop} {P : Platform}
    (hnext : GridCalls ts (fun dev => clients (dev + 1)) P) {W : Grid σ (t' :: ts)} (hw : AtRest (t' :: ts) W) {t : Outpost σ} {d : Decl} {dev i : Nat} {args : List Val}
    (hc : clients (dev + 1) P) (ht : (t' :: ts)[dev + 1]? = some t) (hd : t.ring.decls[i]? = some d) (hf : Val.FitsAll (Safe P t.ring.s) d.sig.params args)
    (hf' : Val.FitsAll (Safe t.node.plat t.ring.s) d.sig.params args) :
    GridOutcome (t' :: ts) (netted (t' :: ts) (dev + 1) i args ((Grid.rest (t' :: ts)).get W)) (Grid.call (t' :: ts) P (dev + 1) i args W) ∧
      ∀ r w', netted (t' :: ts) (dev + 1) i args ((Grid.rest (t' :: ts)).get W) = .ret r w' → RetOk P t.ring.s d.sig.ret r := by
  obtain ⟨h1, h2⟩ := hnext (t'.node.behind.get W) (rest_behind hw) dev t d i args hc (by simpa using ht) hd hf hf'
  refine ⟨?_, h2⟩
  show GridOutcome (t' :: ts) (netted ts dev i args ((Grid.rest ts).get (t'.node.behind.get W))) (Eff.zoom t'.node.behind (Grid.call ts P dev i args) W)
  cases hx : netted ts dev i args ((Grid.rest ts).get (t'.node.behind.get W)) with
  | fault e => rw [hx] at h1; exact zoom_fault h1
  | threw w =>
    rw [hx] at h1
    obtain ⟨W', h3, h4⟩ := h1
    exact ⟨_, zoom_threw h3, (congrArg (Grid.rest ts).get (behind_get_put t'.node W' W)).trans h4⟩
  | ret r w =>
    rw [hx] at h1
    obtain ⟨W', h3, h4, h5⟩ := h1
    exact ⟨_, zoom_ret h3, rest_put_behind hw h4, (congrArg (Grid.rest ts).get (behind_get_put t'.node W' W)).trans h5⟩

/-- All the calls. -/
theorem grid_call (ts : List (Outpost σ)) : ∀ (clients : Nat → Platform → Prop) (P : Platform), GridOk clients ts → GridCalls ts clients P := by
  induction ts with
  | nil => intro _ _ _ _ _ dev t _ _ _ _ ht; simp at ht
  | cons t' ts ih =>
    intro clients P h W hw dev t d i args hc ht hd hf hf'
    cases dev with
    | zero =>
      injection ht with ht
      subst ht
      exact grid_call_here h (ih _ _ h.2.2.2.2) hw hc hd hf hf'
    | succ dev => exact grid_call_behind (ih _ _ h.2.2.2.2) hw hc ht hd hf hf'

end Upd
