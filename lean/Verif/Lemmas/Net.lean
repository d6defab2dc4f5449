import Verif.Lemmas.Session
import Verif.Spec.Net

/-! # Two devices which run at the same time -/

namespace Upd
open Spec TypeList

variable {σ : Type}

theorem fresh_unread (P : Platform) (K : Keyring) (f : Features) (defs : Nat → List Val → Eff σ (Option Val)) (sizeMax : Nat)
    (shared : Bool) : Unread (fresh P K f defs sizeMax shared) [] := by
  cases shared <;> exact ⟨rfl, Nat.zero_le _, slice_zero _ _⟩

/-- A call of the `i`th function of the keyring. -/
structure Req (K : Keyring) where
  i : Nat
  hi : i < K.decls.length
  args : List Val

namespace Req
variable {K : Keyring}

def decl (r : Req K) : Decl := K.decls[r.i]'r.hi

def key (r : Req K) : Key := ⟨K.e, K.s, K.idxBytes, r.i, r.decl.sig⟩

def call (r : Req K) : Nat × List Val := (r.decl.name, r.args)

def bytes (r : Req K) : List Byte := request K.e K.s K.idxBytes r.i r.decl.sig.params r.args

/-- Number of bytes of the response. -/
def size (r : Req K) : Nat := retSize r.decl.sig.ret

structure Ok (P Q : Platform) (r : Req K) : Prop where
  get : K.get11 r.decl.name = some r.key
  fitsP : Val.FitsAll (Safe P K.s) r.decl.sig.params r.args
  fitsQ : Val.FitsAll (Safe Q K.s) r.decl.sig.params r.args

/-- Number of steps taken by a call. -/
def cost (r : Req K) : Nat := 3 + 2 * r.bytes.length + 2 * r.size

theorem mem (r : Req K) : r.decl ∈ K.decls := List.getElem_mem r.hi

end Req

section
variable {P Q : Platform} {K : Keyring} {f : Features} {defs : Nat → List Val → Eff σ (Option Val)} {shared : Bool}

theorem calls_reqs (hK : KeyringOk K) : ∀ {calls : List (Nat × List Val)}, CallsOk P Q K calls →
    ∃ rs : List (Req K), rs.map Req.call = calls ∧ ∀ r ∈ rs, r.Ok P Q
  | [], _ => ⟨[], rfl, by simp⟩
  | (name, args) :: calls, hc => by
    obtain ⟨he, hfit⟩ := hc (name, args) (List.mem_cons_self ..)
    obtain ⟨i, hi, rfl, hk⟩ := K.get11_isSome hK.1 he
    obtain ⟨hfP, hfQ⟩ := hfit _ (List.getElem_mem hi) rfl
    obtain ⟨rs, h1, h2⟩ := calls_reqs hK (calls := calls) fun c h => hc c (List.mem_cons_of_mem _ h)
    refine ⟨⟨i, hi, args⟩ :: rs, by rw [List.map_cons, h1]; rfl, fun r hr => ?_⟩
    rcases List.mem_cons.1 hr with rfl | hr
    · exact ⟨hk, hfP, hfQ⟩
    · exact h2 r hr

theorem Req.bytes_pos (hK : KeyringOk K) (r : Req K) : 0 < r.bytes.length := by
  have := (idxBytes_pos hK.1).1
  show 0 < (request K.e K.s K.idxBytes r.i r.decl.sig.params r.args).length
  rw [request, List.length_append, wireBytes_length]
  have h3 : K.idxBytes = smallestUnsigned K.decls.length := rfl
  omega

theorem Req.message (hP : P.Valid) (hK : KeyringOk K) (hs : Supported P K.e K.s) {r : Req K} (h : r.Ok P Q) :
    r.key.message P r.args = .ok r.bytes :=
  message_eq hP hs (idxBytes_pos hK.1).1 (Nat.lt_trans r.hi (idxBytes_pos hK.1).2) (hK.2 _ r.mem) h.fitsP

theorem yields_take (m rest : List Byte) : Yields takeByte (m ++ rest) m rest := by
  induction m with
  | nil => exact .nil _
  | cons x m ih => exact .cons rfl ih

/-- Reading a response which is complete. -/
theorem Req.read (hP : P.Valid) (hK : KeyringOk K) (hs : Supported P K.e K.s) (r : Req K) {v : Option Val}
    (hv : RetOk P K.s r.decl.sig.ret v) :
    r.key.readFrom P takeByte (response K.e K.s r.decl.sig.ret v) = .ret v [] :=
  C31_read_value hP (k := r.key) hs (hK.2 _ r.mem) hv _ (by have := yields_take (response K.e K.s r.decl.sig.ret v) []; rwa [List.append_nil] at this)

theorem getN_starved : ∀ {n : Nat} {l : List Byte}, l.length < n → getN takeByte n l = .fault .starved
  | 0, _, h => absurd h (Nat.not_lt_zero _)
  | n + 1, [], _ => Eff.bind_fault rfl
  | n + 1, x :: l, h => by
    have : getN takeByte n l = .fault .starved := getN_starved (by simpa using h)
    show (takeByte >>= fun b => getN takeByte n >>= fun bs => pure (b :: bs)) (x :: l) = _
    rw [Eff.bind_ret (show takeByte (x :: l) = .ret x l from rfl)]
    exact Eff.bind_fault this

/-- Reading a response which is not. -/
theorem Req.starved (hP : P.Valid) (hK : KeyringOk K) (hs : Supported P K.e K.s) (r : Req K) {got : List Byte} (h : got.length < r.size) :
    r.key.readFrom P takeByte got = .fault .starved := by
  unfold Req.size at h
  cases hr : r.decl.sig.ret with
  | none => rw [hr] at h; exact absurd h (Nat.not_lt_zero _)
  | some t =>
    rw [hr] at h
    have hg := (hK.2 _ r.mem).2.2 t hr
    have hw : Ty.WFs [t] := ⟨hg.1, trivial⟩
    have hl : PackedAll [t] := ⟨hg.2, trivial⟩
    have hr' : r.key.sig.ret = some t := hr
    unfold Key.readFrom
    rw [hr']
    refine Eff.bind_fault ?_
    show Tuple.readFrom P K.e K.s [t] takeByte got = _
    rw [readFrom_eq hP hs hw (packedAll_loose _ hl)]
    refine getN_starved ?_
    rw [packedAll_serSizes _ hl]
    simpa [wireSizes, retSize] using h

/-- The first of local calls. -/
theorem localCalls_cons {name : Nat} {args : List Val} {calls : List (Nat × List Val)} {w W : σ} {vs : List (Option Val)}
    (h : localCalls defs ((name, args) :: calls) w = .ret vs W) :
    ∃ v w1 vs', defs name args w = .ret v w1 ∧ localCalls defs calls w1 = .ret vs' W ∧ vs = v :: vs' := by
  have h : (defs name args >>= fun r => localCalls defs calls >>= fun rs => pure (r :: rs)) w = .ret vs W := h
  cases h1 : defs name args w with
  | fault e => rw [Eff.bind_fault h1] at h; cases h
  | threw w' => rw [Eff.bind_threw h1] at h; cases h
  | ret v w1 =>
    rw [Eff.bind_ret h1] at h
    cases h2 : localCalls defs calls w1 with
    | fault e => rw [Eff.bind_fault h2] at h; cases h
    | threw w' => rw [Eff.bind_threw h2] at h; cases h
    | ret vs' w2 =>
      rw [Eff.bind_ret h2] at h
      cases h
      exact ⟨v, w1, vs', rfl, h2, rfl⟩

theorem localCalls_length : ∀ {calls : List (Nat × List Val)} {w W : σ} {vs : List (Option Val)}, localCalls defs calls w = .ret vs W →
    vs.length = calls.length
  | [], w, W, vs, h => by cases h; rfl
  | (name, args) :: calls, w, W, vs, h => by
    obtain ⟨v, w1, vs', _, h2, rfl⟩ := localCalls_cons h
    simp [localCalls_length h2]

/-- Local calls return values of the right types. -/
theorem localCalls_typed (ht : ∀ d ∈ K.decls, WellTyped P K.s ⟨d.sig, defs d.name⟩) : ∀ {a b : List (Req K)} {r : Req K} {w W : σ}
    {vs : List (Option Val)}, (∀ u ∈ a ++ r :: b, u.Ok P Q) → localCalls defs ((a ++ r :: b).map Req.call) w = .ret vs W →
    ∃ v, vs.drop a.length = v :: vs.drop (a.length + 1) ∧ RetOk P K.s r.decl.sig.ret v
  | [], b, r, w, W, vs, hok, h => by
    obtain ⟨v, w1, vs', h1, _, rfl⟩ := localCalls_cons h
    exact ⟨v, rfl, ht _ r.mem _ _ _ _ (hok r (by simp)).fitsP h1⟩
  | x :: a, b, r, w, W, vs, hok, h => by
    obtain ⟨v, w1, vs', _, h2, rfl⟩ := localCalls_cons h
    obtain ⟨v, h3, h4⟩ := localCalls_typed ht (a := a) (fun r hr => hok r (List.mem_cons_of_mem _ hr)) h2
    exact ⟨v, by simpa using h3, h4⟩

/-- Bytes of successive requests. -/
def flat (us : List (Req K)) : List Byte := (us.map Req.bytes).flatten

theorem flat_cons (r : Req K) (us : List (Req K)) : flat (r :: us) = r.bytes ++ flat us := rfl

theorem flat_append (us us' : List (Req K)) : flat (us ++ us') = flat us ++ flat us' := by simp [flat]

/-- Steps which the calls not begun yet will take. -/
def costs (ts : List (Req K)) : Nat := (ts.map Req.cost).sum

/-- What relates the caller to the rest, according to what it is doing; `us`: requests begun and not served yet, `vs`: what they will return, followed
by what the calls not begun will return, `R`: all the results, `m`: number of steps left, besides the calls not begun. -/
inductive PhaseInv (P : Platform) (K : Keyring) (R : List (Option Val)) (us : List (Req K)) (vs : List (Option Val)) (p up down out : List Byte)
    (results : List (Option Val)) : Phase → Nat → Prop
  | idle : (∀ u ∈ us, u.size = 0) → p ++ up = flat us → down = [] → out = [] → R = results ++ vs.drop us.length →
      PhaseInv P K R us vs p up down out results .idle up.length
  | sending {us' : List (Req K)} {r : Req K} {left : List Byte} : us = us' ++ [r] → (∀ u ∈ us', u.size = 0) → p ++ up ++ left = flat us → down = [] →
      out = [] → R = results ++ vs.drop us'.length →
      PhaseInv P K R us vs p up down out results (.sending r.key left) (2 + up.length + 2 * left.length + 2 * r.size)
  | waiting {us' : List (Req K)} {r : Req K} : us = us' ++ [r] → (∀ u ∈ us', u.size = 0) → p ++ up = flat us → down = [] →
      out = [] → R = results ++ vs.drop us'.length →
      PhaseInv P K R us vs p up down out results (.receiving r.key []) (1 + up.length + 2 * r.size)
  | sent {r : Req K} {v : Option Val} : us = [] → up = [] → RetOk P K.s r.decl.sig.ret v →
      down ++ out = response K.e K.s r.decl.sig.ret v → R = results ++ v :: vs →
      PhaseInv P K R us vs p up down out results (.sending r.key []) (2 + down.length + 2 * out.length)
  | receiving {r : Req K} {v : Option Val} {got : List Byte} : us = [] → up = [] → RetOk P K.s r.decl.sig.ret v →
      got ++ down ++ out = response K.e K.s r.decl.sig.ret v → R = results ++ v :: vs →
      PhaseInv P K R us vs p up down out results (.receiving r.key got) (1 + down.length + 2 * out.length)

/-- Invariant of the system, where `n` steps are left. -/
structure NetInv (P Q : Platform) (K : Keyring) (f : Features) (defs : Nat → List Val → Eff σ (Option Val)) (shared : Bool) (R : List (Option Val)) (W : σ)
    (S : Net σ) (n : Nat) : Prop where
  reach : Reachable Q K f defs shared (S.callee, S.world)
  ex : ∃ (us ts : List (Req K)) (vs : List (Option Val)) (p out : List Byte) (m : Nat), (∀ r ∈ us ++ ts, r.Ok P Q) ∧ S.todo = ts.map Req.call ∧
    localCalls defs ((us ++ ts).map Req.call) S.world = .ret vs W ∧ Pending S.callee p ∧ Unread S.callee out ∧
    (∀ r us', us = r :: us' → p.length < r.bytes.length) ∧ (us = [] → p = []) ∧
    PhaseInv P K R us vs p S.up S.down out S.results S.phase m ∧ n = m + costs ts

/-- The beginning of a concatenation. -/
theorem append_split {α : Type} {p t b c : List α} {x : α} (h : p ++ x :: t = b ++ c) (hl : p.length < b.length) :
    ∃ rest, b = p ++ x :: rest ∧ t = rest ++ c := by
  induction p generalizing b with
  | nil =>
    cases b with
    | nil => exact absurd hl (Nat.not_lt_zero _)
    | cons y b =>
      obtain ⟨h1, h2⟩ := List.cons.inj h
      exact ⟨b, by rw [h1]; rfl, h2⟩
  | cons z p ih =>
    cases b with
    | nil => exact absurd hl (Nat.not_lt_zero _)
    | cons y b =>
      obtain ⟨h3, h4⟩ := List.cons.inj h
      obtain ⟨rest, h1, h2⟩ := ih h4 (by simpa using hl)
      exact ⟨rest, by rw [h1, h3]; rfl, h2⟩

theorem response_size (hK : KeyringOk K) {r : Req K} {v : Option Val} (hv : RetOk P K.s r.decl.sig.ret v) :
    (response K.e K.s r.decl.sig.ret v).length = r.size := response_length (hK.2 _ r.mem) hv

/-- The callee receives a byte of a request. -/
theorem put_byte (hQ : Setting Q K f defs) (ht : ∀ d ∈ K.decls, WellTyped P K.s ⟨d.sig, defs d.name⟩) (ho : ResponsesFit K shared)
    {b : Buf σ} {w W : σ} {us ts : List (Req K)} {vs : List (Option Val)} {p t : List Byte} {x : Byte}
    (hr : Reachable Q K f defs shared (b, w)) (hok : ∀ r ∈ us ++ ts, r.Ok P Q) (hl : localCalls defs ((us ++ ts).map Req.call) w = .ret vs W)
    (hp : Pending b p) (hu : Unread b []) (hlt : ∀ r us', us = r :: us' → p.length < r.bytes.length) (he : p ++ x :: t = flat us) :
    ∃ r us', us = r :: us' ∧
      ((∃ b', Buf.put Q x (b, w) = .ret .loading (b', w) ∧ Reachable Q K f defs shared (b', w) ∧ Pending b' (p ++ [x]) ∧ Unread b' [] ∧
          (p ++ [x]).length < r.bytes.length) ∨
        (t = flat us' ∧ ∃ b' v w1 vs', Buf.put Q x (b, w) = .ret .resolved (b', w1) ∧ Reachable Q K f defs shared (b', w1) ∧ Pending b' [] ∧
          Unread b' (response K.e K.s r.decl.sig.ret v) ∧ RetOk P K.s r.decl.sig.ret v ∧ vs = v :: vs' ∧
          localCalls defs ((us' ++ ts).map Req.call) w1 = .ret vs' W)) := by
  cases us with
  | nil => exact absurd he (by simp [flat])
  | cons r us' =>
    refine ⟨r, us', rfl, ?_⟩
    have hrok := hok r (by simp)
    obtain ⟨rest, h1, h2⟩ := append_split he (hlt r us' rfl)
    by_cases hrest : rest = []
    · right
      subst hrest
      refine ⟨h2, ?_⟩
      obtain ⟨v, w1, vs', h3, h4, rfl⟩ := localCalls_cons hl
      have h5 := C39_resolved hQ hr r.hi hrok.fitsQ (ho _ r.mem) h1 hp
      rw [show defs (K.decls[r.i]'r.hi).name r.args w = .ret v w1 from h3] at h5
      obtain ⟨b', h6, h7, _, h8⟩ := h5
      exact ⟨b', v, w1, vs', h6, reachable_op hr (.put x) trivial (Eff.bind_ret h6), h7, h8, ht _ r.mem _ _ _ _ hrok.fitsP h3, rfl, h4⟩
    · left
      obtain ⟨b', h3, h4, h5⟩ := C39_loading hQ hr r.hi hrok.fitsQ h1 hrest hp
      refine ⟨b', h3, reachable_op hr (.put x) trivial (Eff.bind_ret h3), h4, h5 [] hu fun _ => rfl, ?_⟩
      have : 0 < rest.length := List.length_pos_iff.2 hrest
      rw [h1]
      simp
      omega

variable {R : List (Option Val)} {W : σ} {cu cd : Nat} {S : Net σ} {n : Nat}

/-- What is to be proved of each step. -/
def Advances (P Q : Platform) (K : Keyring) (f : Features) (defs : Nat → List Val → Eff σ (Option Val)) (shared : Bool) (R : List (Option Val)) (W : σ)
    (n : Nat) (r : Res (Net σ) Unit) : Prop :=
  ∃ S' n', r = .ret () S' ∧ NetInv P Q K f defs shared R W S' n' ∧ n = n' + 1

theorem first_lt (hK : KeyringOk K) {us : List (Req K)} : ∀ r us', us = r :: us' → ([] : List Byte).length < r.bytes.length :=
  fun r _ _ => r.bytes_pos hK

theorem call_step (hP : P.Valid) (hs : Supported P K.e K.s) (hQ : Setting Q K f defs)
    (h : NetInv P Q K f defs shared R W S n) {r : Res (Net σ) Unit} (hst : Net.step P Q K cu cd .call S = some r) :
    Advances P Q K f defs shared R W n r := by
  obtain ⟨todo, phase, results, up, down, b, w⟩ := S
  obtain ⟨hr, us, ts, vs, p, out, m, hok, htodo, hl, hp, hu, hlt, hnil, hph, hn⟩ := h
  simp only at *
  cases phase with
  | sending k l => cases hst
  | receiving k l => cases hst
  | idle =>
    cases ts with
    | nil => subst htodo; cases hst
    | cons c ts =>
      have hc := hok c (by simp)
      subst htodo
      have e : Net.step P Q K cu cd .call (⟨(c :: ts).map Req.call, .idle, results, up, down, b, w⟩ : Net σ) =
          some (.ret () ⟨ts.map Req.call, .sending c.key c.bytes, results, up, down, b, w⟩) := by
        show (match K.get11 c.decl.name with | none => _ | some k => _) = _
        rw [hc.get]
        show (match c.key.message P c.args with | .error f => _ | .ok content => _) = _
        rw [Req.message hP hQ.ring hs hc]
      rw [e] at hst
      cases hst
      cases hph with
      | idle h1 h2 h3 h4 h5 =>
        refine ⟨_, 2 + up.length + 2 * c.bytes.length + 2 * c.size + costs ts, rfl, ⟨hr, us ++ [c], ts, vs, p, out, _, ?_, rfl, ?_, hp, hu, ?_, ?_,
          .sending rfl h1 ?_ h3 h4 h5, rfl⟩, ?_⟩
        · simpa using hok
        · simpa using hl
        · intro r us' he
          cases us with
          | nil =>
            rw [hnil rfl]
            exact first_lt hQ.ring _ _ he
          | cons u us =>
            obtain ⟨rfl, _⟩ := List.cons.inj he
            exact hlt _ _ rfl
        · simp
        · rw [h2, flat_append]; simp [flat]
        · rw [hn]
          simp only [costs, List.map_cons, List.sum_cons, Req.cost]
          omega

theorem send_step (h : NetInv P Q K f defs shared R W S n) {r : Res (Net σ) Unit} (hst : Net.step P Q K cu cd .send S = some r) :
    Advances P Q K f defs shared R W n r := by
  obtain ⟨todo, phase, results, up, down, b, w⟩ := S
  obtain ⟨hr, us, ts, vs, p, out, m, hok, htodo, hl, hp, hu, hlt, hnil, hph, hn⟩ := h
  simp only at *
  cases phase with
  | idle => cases hst
  | receiving k l => cases hst
  | sending k l =>
    cases l with
    | nil => cases hst
    | cons x left =>
      have hst : (if up.length < cu then some (.ret () ⟨todo, .sending k left, results, up ++ [x], down, b, w⟩) else none) = some r := hst
      split at hst
      · cases hst
        cases hph with
        | sending h1 h2 h3 h4 h5 h6 =>
          refine ⟨_, _, rfl, ⟨hr, us, ts, vs, p, out, _, hok, htodo, hl, hp, hu, hlt, hnil, .sending h1 h2 ?_ h4 h5 h6, rfl⟩, ?_⟩
          · rw [← h3]; simp
          · rw [hn]; simp; omega
      · cases hst

theorem listen_step (h : NetInv P Q K f defs shared R W S n) {r : Res (Net σ) Unit} (hst : Net.step P Q K cu cd .listen S = some r) :
    Advances P Q K f defs shared R W n r := by
  obtain ⟨todo, phase, results, up, down, b, w⟩ := S
  obtain ⟨hr, us, ts, vs, p, out, m, hok, htodo, hl, hp, hu, hlt, hnil, hph, hn⟩ := h
  simp only at *
  cases phase with
  | idle => cases hst
  | receiving k l => cases hst
  | sending k l =>
    cases l with
    | cons x left => cases hst
    | nil =>
      cases hst
      cases hph with
      | sending h1 h2 h3 h4 h5 h6 =>
        refine ⟨_, _, rfl, ⟨hr, us, ts, vs, p, out, _, hok, htodo, hl, hp, hu, hlt, hnil, .waiting h1 h2 ?_ h4 h5 h6, rfl⟩, ?_⟩
        · simpa using h3
        · rw [hn]; simp; omega
      | sent h1 h2 h3 h4 h5 =>
        refine ⟨_, _, rfl, ⟨hr, us, ts, vs, p, out, _, hok, htodo, hl, hp, hu, hlt, hnil, .receiving (got := []) h1 h2 h3 h4 h5, rfl⟩, ?_⟩
        rw [hn]; simp only []; omega

theorem receive_step (h : NetInv P Q K f defs shared R W S n) {r : Res (Net σ) Unit} (hst : Net.step P Q K cu cd .receive S = some r) :
    Advances P Q K f defs shared R W n r := by
  obtain ⟨todo, phase, results, up, down, b, w⟩ := S
  obtain ⟨hr, us, ts, vs, p, out, m, hok, htodo, hl, hp, hu, hlt, hnil, hph, hn⟩ := h
  simp only at *
  cases phase with
  | idle => cases hst
  | sending k l => cases hst
  | receiving k got =>
    cases down with
    | nil => cases hst
    | cons x down =>
      have e : r = .ret () ⟨todo, .receiving k (got ++ [x]), results, up, down, b, w⟩ := by
        unfold Net.step at hst
        simp only at hst
        split at hst
        · exact (Option.some.inj hst).symm
        · cases hst
      subst e
      cases hph with
      | waiting h1 h2 h3 h4 h5 h6 => cases h4
      | receiving h1 h2 h3 h4 h5 =>
        refine ⟨_, _, rfl, ⟨hr, us, ts, vs, p, out, _, hok, htodo, hl, hp, hu, hlt, hnil, .receiving h1 h2 h3 ?_ h5, rfl⟩, ?_⟩
        · rw [← h4]; simp
        · rw [hn]; simp; omega

theorem finish_step (hP : P.Valid) (hs : Supported P K.e K.s) (hQ : Setting Q K f defs)
    (ht : ∀ d ∈ K.decls, WellTyped P K.s ⟨d.sig, defs d.name⟩) (h : NetInv P Q K f defs shared R W S n) {r : Res (Net σ) Unit}
    (hst : Net.step P Q K cu cd .finish S = some r) : Advances P Q K f defs shared R W n r := by
  obtain ⟨todo, phase, results, up, down, b, w⟩ := S
  obtain ⟨hr, us, ts, vs, p, out, m, hok, htodo, hl, hp, hu, hlt, hnil, hph, hn⟩ := h
  simp only at *
  cases phase with
  | idle => cases hst
  | sending k l => cases hst
  | receiving k got =>
    have hstv : ∀ g, k.readFrom P takeByte got ≠ .fault .starved → ∀ v l, k.readFrom P takeByte got = .ret v l → some r = some g →
        r = .ret () ⟨todo, .idle, results ++ [v], up, down, b, w⟩ := by
      intro g hne v l he _
      unfold Net.step at hst
      simp only [he] at hst
      exact (Option.some.inj hst).symm
    cases hph with
    | @waiting us' c h1 h2 h3 h4 h5 h6 =>
      by_cases hz : c.size = 0
      · subst h1
        obtain ⟨v, h7, h8⟩ := localCalls_typed ht (a := us') (r := c) (b := ts) (Q := Q) (by simpa using hok) (by simpa using hl)
        have hresp : response K.e K.s c.decl.sig.ret v = [] := List.length_eq_zero_iff.1 (by rw [response_size hQ.ring h8, hz])
        have hread := Req.read hP hQ.ring hs c h8
        rw [hresp] at hread
        have e := hstv r (by rw [hread]; exact fun e => by cases e) v [] hread rfl
        subst e
        refine ⟨_, _, rfl, ⟨hr, us' ++ [c], ts, vs, p, out, _, hok, htodo, hl, hp, hu, hlt, hnil, .idle ?_ h3 h4 h5 ?_, rfl⟩, ?_⟩
        · intro u hu'
          rcases List.mem_append.1 hu' with h | h
          · exact h2 u h
          · rw [List.mem_singleton.1 h]; exact hz
        · rw [h6, h7]; simp
        · rw [hn, hz]; simp only []; omega
      · have hread := Req.starved hP hQ.ring hs c (got := []) (by simp; omega)
        unfold Net.step at hst
        simp only [hread] at hst
        cases hst
    | @receiving c v _ h1 h2 h3 h4 h5 =>
      have hlen := response_size hQ.ring h3
      rw [← h4] at hlen
      by_cases hz : got.length < c.size
      · have hread := Req.starved hP hQ.ring hs c hz
        unfold Net.step at hst
        simp only [hread] at hst
        cases hst
      · simp only [List.length_append] at hlen
        have hd : down = [] := List.length_eq_zero_iff.1 (by omega)
        have ho : out = [] := List.length_eq_zero_iff.1 (by omega)
        subst hd ho
        simp only [List.append_nil] at h4
        have hread := Req.read hP hQ.ring hs c h3
        rw [← h4] at hread
        have e := hstv r (by rw [hread]; exact fun e => by cases e) v [] hread rfl
        subst e
        subst h1
        refine ⟨_, _, rfl, ⟨hr, [], ts, vs, p, [], _, hok, htodo, hl, hp, hu, hlt, hnil, .idle (by simp) ?_ rfl rfl ?_, rfl⟩, ?_⟩
        · rw [hnil rfl, h2]; rfl
        · rw [h5]; simp
        · rw [hn]; simp [h2]; omega

theorem get_step (h : NetInv P Q K f defs shared R W S n) {r : Res (Net σ) Unit} (hst : Net.step P Q K cu cd .get S = some r) :
    Advances P Q K f defs shared R W n r := by
  obtain ⟨todo, phase, results, up, down, b, w⟩ := S
  obtain ⟨hr, us, ts, vs, p, out, m, hok, htodo, hl, hp, hu, hlt, hnil, hph, hn⟩ := h
  simp only at *
  unfold Net.step at hst
  simp only at hst
  split at hst
  · rename_i hc
    rw [unread_isLoaded hu] at hc
    cases out with
    | nil => simp at hc
    | cons x out =>
      obtain ⟨b', h1, h2, _, h3⟩ := get_cons hu w
      rw [h1] at hst
      simp only [Option.some.injEq] at hst
      subst hst
      have hr' : Reachable Q K f defs shared (b', w) := reachable_op hr .get trivial (Eff.bind_ret h1)
      have hp' : Pending b' p := by rw [h3]; exact ⟨hp.next, hp.bytes⟩
      cases hph with
      | idle g1 g2 g3 g4 g5 => cases g4
      | sending g1 g2 g3 g4 g5 g6 => cases g5
      | waiting g1 g2 g3 g4 g5 g6 => cases g5
      | sent g1 g2 g3 g4 g5 =>
        refine ⟨_, _, rfl, ⟨hr', us, ts, vs, p, out, _, hok, htodo, hl, hp', h2, hlt, hnil, .sent g1 g2 g3 ?_ g5, rfl⟩, ?_⟩
        · rw [← g4]; simp
        · rw [hn]; simp; omega
      | receiving g1 g2 g3 g4 g5 =>
        refine ⟨_, _, rfl, ⟨hr', us, ts, vs, p, out, _, hok, htodo, hl, hp', h2, hlt, hnil, .receiving g1 g2 g3 ?_ g5, rfl⟩, ?_⟩
        · rw [← g4]; simp
        · rw [hn]; simp; omega
  · cases hst

theorem put_step (hQ : Setting Q K f defs) (ht : ∀ d ∈ K.decls, WellTyped P K.s ⟨d.sig, defs d.name⟩) (ho : ResponsesFit K shared)
    (h : NetInv P Q K f defs shared R W S n) {r : Res (Net σ) Unit} (hst : Net.step P Q K cu cd .put S = some r) :
    Advances P Q K f defs shared R W n r := by
  obtain ⟨todo, phase, results, up, down, b, w⟩ := S
  obtain ⟨hr, us, ts, vs, p, out, m, hok, htodo, hl, hp, hu, hlt, hnil, hph, hn⟩ := h
  simp only at *
  cases up with
  | nil => cases hst
  | cons x up =>
    have hst : (match Buf.put Q x (b, w) with
      | .fault f => some (.fault f)
      | .threw (b, w) => some (.threw ⟨todo, phase, results, up, down, b, w⟩)
      | .ret _ (b, w) => some (.ret () ⟨todo, phase, results, up, down, b, w⟩)) = some r := hst
    have hfl : ∀ {us : List (Req K)} r us', us = r :: us' → ([] : List Byte).length < r.bytes.length := first_lt hQ.ring
    cases hph with
    | idle g1 g2 g3 g4 g5 =>
      subst g4
      obtain ⟨u, us', e, hc⟩ := put_byte hQ ht ho hr hok hl hp hu hlt g2
      rcases hc with ⟨b', c1, c2, c3, c4, c5⟩ | ⟨c0, b', v, w1, vs', c1, c2, c3, c4, c5, c6, c7⟩
      · rw [c1] at hst
        cases hst
        refine ⟨_, _, rfl, ⟨c2, us, ts, vs, _, [], _, hok, htodo, hl, c3, c4, ?_, ?_, .idle g1 (by simpa using g2) g3 rfl g5, rfl⟩, ?_⟩
        · intro r us'' e'
          rw [e] at e'
          obtain ⟨rfl, _⟩ := List.cons.inj e'
          exact c5
        · intro e'; rw [e] at e'; cases e'
        · rw [hn]; simp; omega
      · rw [c1] at hst
        cases hst
        subst e c6
        have hz : (response K.e K.s u.decl.sig.ret v).length = 0 := by rw [response_size hQ.ring c5]; exact g1 u (by simp)
        rw [List.length_eq_zero_iff.1 hz] at c4
        refine ⟨_, _, rfl, ⟨c2, us', ts, vs', [], [], _, fun r hr => hok r (by simp at hr ⊢; exact .inr hr), htodo, c7, c3, c4, hfl, fun _ => rfl,
          .idle (fun r hr => g1 r (by simp [hr])) c0 g3 rfl (by simpa using g5), rfl⟩, ?_⟩
        rw [hn]; simp; omega
    | @sending us0 c left g0 g1 g2 g3 g4 g5 =>
      subst g4
      have g2' : p ++ x :: (up ++ left) = flat us := by rw [← g2]; simp
      obtain ⟨u, us', e, hc⟩ := put_byte hQ ht ho hr hok hl hp hu hlt g2'
      rcases hc with ⟨b', c1, c2, c3, c4, c5⟩ | ⟨c0, b', v, w1, vs', c1, c2, c3, c4, c5, c6, c7⟩
      · rw [c1] at hst
        cases hst
        refine ⟨_, _, rfl, ⟨c2, us, ts, vs, _, [], _, hok, htodo, hl, c3, c4, ?_, ?_, .sending g0 g1 (by simpa using g2) g3 rfl g5, rfl⟩, ?_⟩
        · intro r us'' e'
          rw [e] at e'
          obtain ⟨rfl, _⟩ := List.cons.inj e'
          exact c5
        · intro e'; rw [e] at e'; cases e'
        · rw [hn]; simp; omega
      · rw [c1] at hst
        cases hst
        have hsz := response_size hQ.ring c5
        cases us0 with
        | nil =>
          have e2 : u :: us' = [c] := by rw [← e, g0]; rfl
          cases e2
          subst e c6
          obtain ⟨e3, e4⟩ := List.append_eq_nil_iff.1 (show up ++ left = [] from c0)
          subst e3 e4 g3
          refine ⟨_, _, rfl, ⟨c2, [], ts, vs', [], _, _, fun r hr => hok r (by simp at hr ⊢; exact .inr hr), htodo, c7, c3, c4, hfl, fun _ => rfl,
            .sent rfl rfl c5 rfl (by simpa using g5), rfl⟩, ?_⟩
          rw [hn, hsz]; simp; omega
        | cons u' us0 =>
          have e2 : u :: us' = u' :: (us0 ++ [c]) := by rw [← e, g0]; rfl
          cases e2
          subst e c6
          rw [g1 u (by simp)] at hsz
          rw [List.length_eq_zero_iff.1 hsz] at c4
          refine ⟨_, _, rfl, ⟨c2, us0 ++ [c], ts, vs', [], [], _, fun r hr => hok r (by simp at hr ⊢; exact .inr hr), htodo, c7, c3, c4, hfl, fun _ => rfl,
            .sending rfl (fun r hr => g1 r (by simp [hr])) c0 g3 rfl (by simpa using g5), rfl⟩, ?_⟩
          rw [hn]; simp; omega
    | @waiting us0 c g0 g1 g2 g3 g4 g5 =>
      subst g4
      obtain ⟨u, us', e, hc⟩ := put_byte hQ ht ho hr hok hl hp hu hlt g2
      rcases hc with ⟨b', c1, c2, c3, c4, c5⟩ | ⟨c0, b', v, w1, vs', c1, c2, c3, c4, c5, c6, c7⟩
      · rw [c1] at hst
        cases hst
        refine ⟨_, _, rfl, ⟨c2, us, ts, vs, _, [], _, hok, htodo, hl, c3, c4, ?_, ?_, .waiting g0 g1 (by simpa using g2) g3 rfl g5, rfl⟩, ?_⟩
        · intro r us'' e'
          rw [e] at e'
          obtain ⟨rfl, _⟩ := List.cons.inj e'
          exact c5
        · intro e'; rw [e] at e'; cases e'
        · rw [hn]; simp; omega
      · rw [c1] at hst
        cases hst
        have hsz := response_size hQ.ring c5
        cases us0 with
        | nil =>
          have e2 : u :: us' = [c] := by rw [← e, g0]; rfl
          cases e2
          subst e c6
          have e3 : up = [] := c0
          subst e3 g3
          refine ⟨_, _, rfl, ⟨c2, [], ts, vs', [], _, _, fun r hr => hok r (by simp at hr ⊢; exact .inr hr), htodo, c7, c3, c4, hfl, fun _ => rfl,
            .receiving rfl rfl c5 rfl (by simpa using g5), rfl⟩, ?_⟩
          rw [hn, hsz]; simp; omega
        | cons u' us0 =>
          have e2 : u :: us' = u' :: (us0 ++ [c]) := by rw [← e, g0]; rfl
          cases e2
          subst e c6
          rw [g1 u (by simp)] at hsz
          rw [List.length_eq_zero_iff.1 hsz] at c4
          refine ⟨_, _, rfl, ⟨c2, us0 ++ [c], ts, vs', [], [], _, fun r hr => hok r (by simp at hr ⊢; exact .inr hr), htodo, c7, c3, c4, hfl, fun _ => rfl,
            .waiting rfl (fun r hr => g1 r (by simp [hr])) c0 g3 rfl (by simpa using g5), rfl⟩, ?_⟩
          rw [hn]; simp; omega
    | sent g1 g2 => cases g2
    | receiving g1 g2 => cases g2

/-- Every step which is possible succeeds, and one step fewer is left. -/
theorem net_step (hP : P.Valid) (hs : Supported P K.e K.s) (hQ : Setting Q K f defs)
    (ht : ∀ d ∈ K.decls, WellTyped P K.s ⟨d.sig, defs d.name⟩) (ho : ResponsesFit K shared)
    (h : NetInv P Q K f defs shared R W S n) {a : NetStep} {r : Res (Net σ) Unit} (hst : Net.step P Q K cu cd a S = some r) :
    Advances P Q K f defs shared R W n r := by
  cases a with
  | call => exact call_step hP hs hQ h hst
  | send => exact send_step h hst
  | listen => exact listen_step h hst
  | receive => exact receive_step h hst
  | finish => exact finish_step hP hs hQ ht h hst
  | put => exact put_step hQ ht ho h hst
  | get => exact get_step h hst

/-- The results so far are the first ones. -/
theorem net_prefix (h : NetInv P Q K f defs shared R W S n) : S.results <+: R := by
  obtain ⟨_, us, ts, vs, p, out, m, _, _, _, _, _, _, _, hph, _⟩ := h
  generalize S.phase = ph at hph
  cases hph with
  | idle _ _ _ _ g => exact ⟨_, g.symm⟩
  | sending _ _ _ _ _ g => exact ⟨_, g.symm⟩
  | waiting _ _ _ _ _ g => exact ⟨_, g.symm⟩
  | sent _ _ _ _ g => exact ⟨_, g.symm⟩
  | receiving _ _ _ _ g => exact ⟨_, g.symm⟩

/-- When no step is possible, everything is done. -/
theorem net_stuck (hP : P.Valid) (hs : Supported P K.e K.s) (hQ : Setting Q K f defs) (hcu : 1 ≤ cu) (hcd : 1 ≤ cd)
    (h : NetInv P Q K f defs shared R W S n) (hst : NetStuck P Q K cu cd S) :
    n = 0 ∧ S.results = R ∧ S.world = W ∧ S.todo = [] ∧ S.phase = .idle ∧ S.up = [] ∧ S.down = [] ∧ Pending S.callee [] ∧ Unread S.callee [] := by
  obtain ⟨todo, phase, results, up, down, b, w⟩ := S
  obtain ⟨hr, us, ts, vs, p, out, m, hok, htodo, hl, hp, hu, hlt, hnil, hph, hn⟩ := h
  simp only at *
  have hup : up = [] := by
    cases up with
    | nil => rfl
    | cons x up =>
      have := hst .put
      unfold Net.step at this
      simp only at this
      split at this <;> cases this
  subst hup
  have hus : p ++ [] = flat us → us = [] := by
    intro he
    cases us with
    | nil => rfl
    | cons u us =>
      have := hlt u us rfl
      have e := congrArg List.length he
      rw [flat_cons] at e
      simp at e
      omega
  have hdo : out ≠ [] → down ≠ [] := by
    intro h1 h2
    subst h2
    have := hst .get
    unfold Net.step at this
    simp only at this
    rw [if_pos ⟨by rw [unread_isLoaded hu]; simpa using h1, by simp; omega⟩] at this
    split at this <;> cases this
  cases hph with
  | idle g1 g2 g3 g4 g5 =>
    have e := hus g2
    subst e g3 g4
    cases ts with
    | nil =>
      cases hl
      subst htodo
      rw [hnil rfl] at hp
      exact ⟨by rw [hn]; rfl, by simpa using g5.symm, rfl, rfl, rfl, rfl, rfl, hp, hu⟩
    | cons c ts =>
      subst htodo
      have := hst .call
      unfold Net.step at this
      simp only [List.map_cons, Req.call] at this
      split at this
      · cases this
      · split at this <;> cases this
  | @sending us0 c left g0 g1 g2 g3 g4 g5 =>
    cases left with
    | nil => exact absurd (hst .listen) (fun e => by cases e)
    | cons x left =>
      have := hst .send
      unfold Net.step at this
      simp only at this
      rw [if_pos (by simp; omega)] at this
      cases this
  | waiting g0 g1 g2 g3 g4 g5 =>
    rw [hus g2] at g0
    exact absurd g0.symm (by simp)
  | sent => exact absurd (hst .listen) (fun e => by cases e)
  | @receiving c v got g0 g1 g2 g3 g4 =>
    have hlen := response_size hQ.ring g2
    rw [← g3] at hlen
    simp only [List.length_append] at hlen
    by_cases hz : got.length < c.size
    · have hread := Req.starved hP hQ.ring hs c hz
      cases down with
      | nil =>
        by_cases ho : out = []
        · subst ho; simp at hlen; omega
        · exact absurd rfl (hdo ho)
      | cons x down =>
        have := hst .receive
        unfold Net.step at this
        simp only [hread] at this
        cases this
    · have hd : down = [] := List.length_eq_zero_iff.1 (by omega)
      have ho : out = [] := List.length_eq_zero_iff.1 (by omega)
      subst hd ho
      simp only [List.append_nil] at g3
      have hread := Req.read hP hQ.ring hs c g2
      rw [← g3] at hread
      have := hst .finish
      unfold Net.step at this
      simp only [hread] at this
      cases this

theorem net_start (hK : KeyringOk K) {calls : List (Nat × List Val)} (hc : CallsOk P Q K calls) {b : Buf σ} {w : σ}
    (hr : Reachable Q K f defs shared (b, w)) (hp : Pending b []) (hu : Unread b []) (hl : localCalls defs calls w = .ret R W) :
    ∃ N, NetInv P Q K f defs shared R W (Net.start calls b w) N := by
  obtain ⟨rs, h1, h2⟩ := calls_reqs hK hc
  subst h1
  exact ⟨_, hr, [], rs, R, [], [], 0, h2, rfl, hl, hp, hu, fun _ _ e => (List.cons_ne_nil _ _ e.symm).elim, fun _ => rfl,
    .idle (by simp) rfl rfl rfl rfl, rfl⟩

theorem net_runs (hP : P.Valid) (hs : Supported P K.e K.s) (hQ : Setting Q K f defs)
    (ht : ∀ d ∈ K.decls, WellTyped P K.s ⟨d.sig, defs d.name⟩) (ho : ResponsesFit K shared) {N : Nat} {S₀ : Net σ}
    (h : NetInv P Q K f defs shared R W S₀ N) (hrun : NetRuns P Q K cu cd n S₀ S) :
    ∃ n', NetInv P Q K f defs shared R W S n' ∧ N = n + n' := by
  induction hrun with
  | zero S => exact ⟨N, h, by omega⟩
  | succ a _ hst ih =>
    obtain ⟨n', h1, h2⟩ := ih h
    obtain ⟨S', n'', e, h3, h4⟩ := net_step hP hs hQ ht ho h1 hst
    cases e
    exact ⟨n'', h3, by omega⟩

end

end Upd
