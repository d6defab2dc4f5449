import Verif.Lemmas.Net
import Verif.Spec.Pipeline

/-! # A caller which does not wait for the responses -/

namespace Upd
open Spec TypeList

variable {σ : Type}

/-! ## Lists -/

section
variable {α : Type}

theorem take_drop_cons {l : List α} {s b : Nat} (h : s < b) (hb : b ≤ l.length) :
    (l.take b).drop s = l[s]'(by omega) :: (l.take b).drop (s + 1) := by
  rw [List.drop_eq_getElem_cons (by rw [List.length_take]; omega), List.getElem_take]

theorem take_drop_snoc {l : List α} {s b : Nat} (h : s ≤ b) (hb : b < l.length) :
    (l.take (b + 1)).drop s = (l.take b).drop s ++ [l[b]] := by
  rw [List.take_succ_eq_append_getElem hb, List.drop_append_of_le_length (by rw [List.length_take]; omega)]

theorem take_drop_append {l : List α} {s b : Nat} (h : s ≤ b) (hb : b ≤ l.length) : (l.take b).drop s ++ l.drop b = l.drop s := by
  rw [← List.drop_append_of_le_length (by rw [List.length_take]; omega), List.take_append_drop]

theorem take_drop_self {l : List α} {b : Nat} : (l.take b).drop b = [] :=
  List.drop_eq_nil_of_le (by rw [List.length_take]; omega)

/-- First lists of a list, put together. -/
def joined (A : List (List α)) (s : Nat) : List α := (A.take s).flatten

theorem joined_succ {A : List (List α)} {s : Nat} (h : s < A.length) : joined A (s + 1) = joined A s ++ A[s] := by
  rw [joined, List.take_succ_eq_append_getElem h, List.flatten_append]
  simp [joined]

theorem joined_add (A : List (List α)) (s n : Nat) : joined A (s + n) = joined A s ++ joined (A.drop s) n := by
  rw [joined, List.take_add, List.flatten_append]
  rfl

theorem joined_drop (A : List (List α)) (s : Nat) : A.flatten = joined A s ++ (A.drop s).flatten := by
  rw [joined, ← List.flatten_append, List.take_append_drop]

/-- What was not produced yet cannot have been consumed. -/
theorem joined_le {A : List (List α)} {s m : Nat} {x : List α} (h : s ≤ m) (he : joined A s = joined A m ++ x) : x = [] := by
  obtain ⟨n, rfl⟩ := Nat.exists_eq_add_of_le h
  rw [joined_add] at he
  have e := congrArg List.length he
  simp only [List.length_append] at e
  exact List.length_eq_zero_iff.1 (by omega)

/-- What was read is the beginning of the right list. -/
theorem joined_front {A : List (List α)} {s m : Nat} {x y : List α} (hm : m < A.length) (he : joined A s = joined A m ++ (x ++ y))
    (hx : x.length ≤ A[m].length) : x = A[m].take x.length := by
  by_cases h : s ≤ m
  · obtain ⟨rfl, _⟩ := List.append_eq_nil_iff.1 (joined_le h he)
    rfl
  · obtain ⟨n, rfl⟩ := Nat.exists_eq_add_of_le (show m + 1 ≤ s by omega)
    rw [joined_add, joined_succ hm, List.append_assoc] at he
    have e := congrArg (List.take x.length) (List.append_cancel_left he)
    rw [List.take_append_of_le_length hx, List.take_append_of_le_length (Nat.le_refl _), List.take_length] at e
    exact e.symm

end

section
variable {P Q : Platform} {K : Keyring} {f : Features} {defs : Nat → List Val → Eff σ (Option Val)} {shared : Bool}

/-- The responses to requests. -/
def answersTo (qs : List (Req K)) (R : List (Option Val)) : List (List Byte) :=
  List.zipWith (fun u v => response K.e K.s u.decl.sig.ret v) qs R

/-- What is known of the calls, whose local counterparts return `R`. -/
structure Plan (P Q : Platform) (K : Keyring) (qs : List (Req K)) (R : List (Option Val)) : Prop where
  ok : ∀ r ∈ qs, r.Ok P Q
  len : R.length = qs.length
  typed : ∀ (i : Nat) (h : i < qs.length), RetOk P K.s qs[i].decl.sig.ret (R[i]'(by omega))

theorem plan (ht : ∀ d ∈ K.decls, WellTyped P K.s ⟨d.sig, defs d.name⟩) {qs : List (Req K)} {R : List (Option Val)} {w W : σ}
    (hok : ∀ r ∈ qs, r.Ok P Q) (hl : localCalls defs (qs.map Req.call) w = .ret R W) : Plan P Q K qs R := by
  have hlen : R.length = qs.length := by rw [localCalls_length hl, List.length_map]
  refine ⟨hok, hlen, fun i h => ?_⟩
  have hsplit : qs.take i ++ qs[i] :: qs.drop (i + 1) = qs := by
    rw [← List.drop_eq_getElem_cons, List.take_append_drop]
  obtain ⟨v, h1, h2⟩ := localCalls_typed (Q := Q) ht (a := qs.take i) (r := qs[i]) (b := qs.drop (i + 1)) (by rw [hsplit]; exact hok)
    (by rw [hsplit]; exact hl)
  rw [List.length_take, Nat.min_eq_left (by omega), List.drop_eq_getElem_cons (by omega)] at h1
  rw [(List.cons.inj h1).1]
  exact h2

namespace Plan
variable {qs : List (Req K)} {R : List (Option Val)}

theorem answers_length (h : Plan P Q K qs R) : (answersTo qs R).length = qs.length := by
  rw [answersTo, List.length_zipWith, h.len, Nat.min_self]

theorem answers_get (h : Plan P Q K qs R) {i : Nat} (hi : i < qs.length) :
    (answersTo qs R)[i]'(by rw [h.answers_length]; exact hi) = response K.e K.s qs[i].decl.sig.ret (R[i]'(by rw [h.len]; exact hi)) := by
  simp [answersTo]

theorem answers_size (hK : KeyringOk K) (h : Plan P Q K qs R) {i : Nat} (hi : i < qs.length) :
    ((answersTo qs R)[i]'(by rw [h.answers_length]; exact hi)).length = qs[i].size := by
  rw [h.answers_get hi]
  exact response_size hK (h.typed i hi)

end Plan

/-- Invariant of the system: `s` requests are served, `b` are begun, `m` calls have returned, and `n` steps are left. -/
structure PipeInv (P Q : Platform) (K : Keyring) (f : Features) (defs : Nat → List Val → Eff σ (Option Val)) (shared : Bool)
    (qs : List (Req K)) (R : List (Option Val)) (W : σ) (cu cd : Nat) (S : Pipe σ) (s b m : Nat) (p out : List Byte) (n : Nat) : Prop where
  reach : Reachable Q K f defs shared (S.callee, S.world)
  sb : s ≤ b
  mb : m ≤ b
  bl : b ≤ qs.length
  todo : S.todo = (qs.drop b).map Req.call
  awaiting : S.awaiting = ((qs.take b).drop m).map Req.key
  results : S.results = R.take m
  loc : localCalls defs ((qs.drop s).map Req.call) S.world = .ret (R.drop s) W
  pend : Pending S.callee p
  unread : Unread S.callee out
  bytes : p ++ (S.up ++ S.sending) = flat ((qs.take b).drop s)
  first : ∀ r us, (qs.take b).drop s = r :: us → p.length < r.bytes.length
  none : (qs.take b).drop s = [] → p = []
  resp : joined (answersTo qs R) s = joined (answersTo qs R) m ++ (S.got ++ (S.down ++ out))
  got : ∀ (h : m < qs.length), S.got.length ≤ qs[m].size
  excl : out ≠ [] → p = []
  ucap : S.up.length ≤ cu
  dcap : S.down.length ≤ cd
  behind : m = 0 → S.got = [] → ∀ j, cd < (joined (answersTo qs R) j).length → s ≤ j
  steps : n = (qs.length - b) + 2 * (flat (qs.drop b)).length + 2 * S.sending.length + S.up.length +
    2 * ((answersTo qs R).drop s).flatten.length + 2 * out.length + S.down.length + (qs.length - m)

variable {qs : List (Req K)} {R : List (Option Val)} {W : σ} {D : Discipline} {cu cd : Nat} {S : Pipe σ} {s b m n : Nat} {p out : List Byte}

/-- What is to be proved of each step. -/
def Onward (P Q : Platform) (K : Keyring) (f : Features) (defs : Nat → List Val → Eff σ (Option Val)) (shared : Bool) (qs : List (Req K))
    (R : List (Option Val)) (W : σ) (cu cd n : Nat) (r : Res (Pipe σ) Unit) : Prop :=
  ∃ S' s b m p out n', r = .ret () S' ∧ PipeInv P Q K f defs shared qs R W cu cd S' s b m p out n' ∧ n = n' + 1

theorem pipe_call (hP : P.Valid) (hs : Supported P K.e K.s) (hQ : Setting Q K f defs) (hpl : Plan P Q K qs R)
    (h : PipeInv P Q K f defs shared qs R W cu cd S s b m p out n) {r : Res (Pipe σ) Unit} (hst : Pipe.step P Q K D cu cd .call S = some r) :
    Onward P Q K f defs shared qs R W cu cd n r := by
  obtain ⟨todo, sending, awaiting, got, results, up, down, buf, w⟩ := S
  obtain ⟨hr, hsb, hmb, hbl, htodo, haw, hres, hl, hp, hu, hby, hfi, hno, hre, hgot, hex, huc, hdc, hbe, hn⟩ := h
  simp only at *
  cases sending with
  | cons x l => cases hst
  | nil =>
    by_cases hb : b < qs.length
    · rw [List.drop_eq_getElem_cons hb, List.map_cons] at htodo
      subst htodo
      have hc := hpl.ok _ (List.getElem_mem hb)
      have e : Pipe.step P Q K D cu cd .call (⟨qs[b].call :: (qs.drop (b + 1)).map Req.call, [], awaiting, got, results, up, down, buf, w⟩ : Pipe σ) =
          some (.ret () ⟨(qs.drop (b + 1)).map Req.call, qs[b].bytes, awaiting ++ [qs[b].key], got, results, up, down, buf, w⟩) := by
        show (match K.get11 qs[b].decl.name with | none => _ | some k => _) = _
        rw [hc.get]
        show (match qs[b].key.message P qs[b].args with | .error f => _ | .ok content => _) = _
        rw [Req.message hP hQ.ring hs hc]
      rw [e] at hst
      cases hst
      refine ⟨_, s, b + 1, m, p, out, _, rfl, ⟨hr, by omega, by omega, hb, rfl, ?_, hres, hl, hp, hu, ?_, ?_, ?_, hre, hgot, hex, huc, hdc, hbe, rfl⟩, ?_⟩
      · rw [haw, take_drop_snoc hmb hb]; simp
      · rw [take_drop_snoc hsb hb, flat_append, ← hby]; simp [flat]
      · intro r us he
        rw [take_drop_snoc hsb hb] at he
        cases hc : (qs.take b).drop s with
        | nil =>
          rw [hno hc]
          exact r.bytes_pos hQ.ring
        | cons u us' =>
          rw [hc] at he
          obtain ⟨rfl, _⟩ := List.cons.inj he
          exact hfi _ _ hc
      · intro he
        rw [take_drop_snoc hsb hb] at he
        exact absurd he (by simp)
      · rw [hn, List.drop_eq_getElem_cons hb, flat_cons]
        simp only [List.length_append, List.length_nil]
        omega
    · rw [List.drop_eq_nil_of_le (by omega)] at htodo
      subst htodo
      cases hst

theorem pipe_send (h : PipeInv P Q K f defs shared qs R W cu cd S s b m p out n) {r : Res (Pipe σ) Unit}
    (hst : Pipe.step P Q K D cu cd .send S = some r) : Onward P Q K f defs shared qs R W cu cd n r := by
  obtain ⟨todo, sending, awaiting, got, results, up, down, buf, w⟩ := S
  obtain ⟨hr, hsb, hmb, hbl, htodo, haw, hres, hl, hp, hu, hby, hfi, hno, hre, hgot, hex, huc, hdc, hbe, hn⟩ := h
  simp only at *
  cases sending with
  | nil => cases hst
  | cons x left =>
    have hst : (if up.length < cu then some (.ret () ⟨todo, left, awaiting, got, results, up ++ [x], down, buf, w⟩) else none) = some r := hst
    split at hst
    · cases hst
      refine ⟨_, s, b, m, p, out, _, rfl, ⟨hr, hsb, hmb, hbl, htodo, haw, hres, hl, hp, hu, ?_, hfi, hno, hre, hgot, hex, ?_, hdc, hbe, rfl⟩, ?_⟩
      · rw [← hby]; simp
      · rw [List.length_append]; assumption
      · rw [hn]; simp only [List.length_append, List.length_cons, List.length_nil]; omega
    · cases hst

/-- What the caller has read of the first response which is missing. -/
theorem pipe_got (hK : KeyringOk K) (hpl : Plan P Q K qs R) (h : PipeInv P Q K f defs shared qs R W cu cd S s b m p out n) (hm : m < qs.length) :
    S.got = (response K.e K.s qs[m].decl.sig.ret (R[m]'(by rw [hpl.len]; exact hm))).take S.got.length := by
  have := joined_front (by rw [hpl.answers_length]; exact hm) h.resp (by rw [hpl.answers_size hK hm]; exact h.got hm)
  rwa [hpl.answers_get hm] at this

/-- The caller can tell whether the response is complete. -/
theorem pipe_read (hP : P.Valid) (hs : Supported P K.e K.s) (hK : KeyringOk K) (hpl : Plan P Q K qs R)
    (h : PipeInv P Q K f defs shared qs R W cu cd S s b m p out n) (hm : m < qs.length) :
    (S.got.length < qs[m].size ∧ qs[m].key.readFrom P takeByte S.got = .fault .starved) ∨
      (S.got = response K.e K.s qs[m].decl.sig.ret (R[m]'(by rw [hpl.len]; exact hm)) ∧
        qs[m].key.readFrom P takeByte S.got = .ret (R[m]'(by rw [hpl.len]; exact hm)) []) := by
  by_cases hlt : S.got.length < qs[m].size
  · exact .inl ⟨hlt, Req.starved hP hK hs _ hlt⟩
  · have h1 := h.got hm
    have h2 := pipe_got hK hpl h hm
    have h3 := hpl.typed m hm
    rw [show S.got.length = (response K.e K.s qs[m].decl.sig.ret (R[m]'(by rw [hpl.len]; exact hm))).length by
      rw [response_size hK h3]; omega, List.take_length] at h2
    refine .inr ⟨h2, ?_⟩
    rw [h2]
    exact Req.read hP hK hs _ h3

theorem pipe_receive (hP : P.Valid) (hs : Supported P K.e K.s) (hQ : Setting Q K f defs) (hpl : Plan P Q K qs R)
    (h : PipeInv P Q K f defs shared qs R W cu cd S s b m p out n) {r : Res (Pipe σ) Unit} (hst : Pipe.step P Q K D cu cd .receive S = some r) :
    Onward P Q K f defs shared qs R W cu cd n r := by
  have hread := pipe_read hP hs hQ.ring hpl h
  obtain ⟨todo, sending, awaiting, got, results, up, down, buf, w⟩ := S
  obtain ⟨hr, hsb, hmb, hbl, htodo, haw, hres, hl, hp, hu, hby, hfi, hno, hre, hgot, hex, huc, hdc, hbe, hn⟩ := h
  simp only at *
  cases down with
  | nil => unfold Pipe.step at hst; simp only at hst; cases awaiting <;> cases hst
  | cons x down =>
    by_cases hm : m < b
    · rw [take_drop_cons hm hbl, List.map_cons] at haw
      subst haw
      unfold Pipe.step at hst
      simp only at hst
      split at hst
      · rcases hread (by omega) with ⟨h1, h2⟩ | ⟨h1, h2⟩
        · rw [h2] at hst
          cases hst
          refine ⟨_, s, b, m, p, out, _, rfl, ⟨hr, hsb, hmb, hbl, htodo, ?_, hres, hl, hp, hu, hby, hfi, hno, ?_, ?_, hex, huc, ?_, ?_, rfl⟩, ?_⟩
          · simp only [take_drop_cons hm hbl, List.map_cons]
          · rw [hre]; simp
          · intro _; simp only [List.length_append, List.length_cons, List.length_nil]; omega
          · exact Nat.le_of_succ_le hdc
          · intro _ hg; exact absurd hg (by simp)
          · rw [hn]; simp only [List.length_cons]; omega
        · rw [h2] at hst
          cases hst
      · cases hst
    · have : m = b := by omega
      subst this
      rw [take_drop_self] at haw
      subst haw
      cases hst

theorem pipe_finish (hP : P.Valid) (hs : Supported P K.e K.s) (hQ : Setting Q K f defs) (hpl : Plan P Q K qs R)
    (h : PipeInv P Q K f defs shared qs R W cu cd S s b m p out n) {r : Res (Pipe σ) Unit} (hst : Pipe.step P Q K D cu cd .finish S = some r) :
    Onward P Q K f defs shared qs R W cu cd n r := by
  have hread := pipe_read hP hs hQ.ring hpl h
  obtain ⟨todo, sending, awaiting, got, results, up, down, buf, w⟩ := S
  obtain ⟨hr, hsb, hmb, hbl, htodo, haw, hres, hl, hp, hu, hby, hfi, hno, hre, hgot, hex, huc, hdc, hbe, hn⟩ := h
  simp only at *
  by_cases hm : m < b
  · rw [take_drop_cons hm hbl, List.map_cons] at haw
    subst haw
    unfold Pipe.step at hst
    simp only at hst
    split at hst
    · rcases hread (by omega) with ⟨h1, h2⟩ | ⟨h1, h2⟩
      · rw [h2] at hst
        cases hst
      · rw [h2] at hst
        cases hst
        have hmR : m < R.length := by rw [hpl.len]; omega
        have hmA : m < (answersTo qs R).length := by rw [hpl.answers_length]; omega
        refine ⟨_, s, b, m + 1, p, out, _, rfl, ⟨hr, hsb, hm, hbl, htodo, rfl, ?_, hl, hp, hu, hby, hfi, hno, ?_, ?_, hex, huc, hdc, fun e => absurd e (Nat.succ_ne_zero _), rfl⟩, ?_⟩
        · rw [hres, List.take_succ_eq_append_getElem hmR]
        · rw [hre, joined_succ hmA, hpl.answers_get (by omega), ← h1]
          simp
        · intro _; exact Nat.zero_le _
        · rw [hn]; simp only []; omega
    · cases hst
  · have : m = b := by omega
    subst this
    rw [take_drop_self] at haw
    subst haw
    cases hst

theorem pipe_get (h : PipeInv P Q K f defs shared qs R W cu cd S s b m p out n) {r : Res (Pipe σ) Unit}
    (hst : Pipe.step P Q K D cu cd .get S = some r) : Onward P Q K f defs shared qs R W cu cd n r := by
  obtain ⟨todo, sending, awaiting, got, results, up, down, buf, w⟩ := S
  obtain ⟨hr, hsb, hmb, hbl, htodo, haw, hres, hl, hp, hu, hby, hfi, hno, hre, hgot, hex, huc, hdc, hbe, hn⟩ := h
  simp only at *
  unfold Pipe.step at hst
  simp only at hst
  split at hst
  · rename_i hc
    rw [unread_isLoaded hu] at hc
    cases out with
    | nil => simp at hc
    | cons x out =>
      obtain ⟨b', h1, h2, _, h3⟩ := get_cons hu w
      rw [h1] at hst
      simp only [Option.some.injEq] at hst
      subst hst
      have hr' : Reachable Q K f defs shared (b', w) := reachable_op hr .get trivial (Eff.bind_ret h1)
      have hp' : Pending b' p := by rw [h3]; exact ⟨hp.next, hp.bytes⟩
      refine ⟨_, s, b, m, p, out, _, rfl, ⟨hr', hsb, hmb, hbl, htodo, haw, hres, hl, hp', h2, hby, hfi, hno, ?_, hgot, fun _ => hex (by simp), huc, ?_, hbe,
        rfl⟩, ?_⟩
      · rw [hre]; simp
      · rw [List.length_append]; exact hc.2
      · rw [hn]; simp only [List.length_append, List.length_cons, List.length_nil]; omega
  · cases hst

theorem pipe_put (hQ : Setting Q K f defs) (ht : ∀ d ∈ K.decls, WellTyped P K.s ⟨d.sig, defs d.name⟩) (ho : ResponsesFit K shared)
    (hD : D.drain = true) (hpl : Plan P Q K qs R) (h : PipeInv P Q K f defs shared qs R W cu cd S s b m p out n) {r : Res (Pipe σ) Unit}
    (hst : Pipe.step P Q K D cu cd .put S = some r) : Onward P Q K f defs shared qs R W cu cd n r := by
  obtain ⟨todo, sending, awaiting, got, results, up, down, buf, w⟩ := S
  obtain ⟨hr, hsb, hmb, hbl, htodo, haw, hres, hl, hp, hu, hby, hfi, hno, hre, hgot, hex, huc, hdc, hbe, hn⟩ := h
  simp only at *
  cases up with
  | nil => cases hst
  | cons x up =>
    unfold Pipe.step at hst
    simp only [hD, true_and] at hst
    split at hst
    · cases hst
    · rename_i hload
      rw [unread_isLoaded hu] at hload
      have hout : out = [] := by simpa using hload
      subst hout
      have hall := take_drop_append hsb hbl
      obtain ⟨u, us', e, hc⟩ := put_byte (us := (qs.take b).drop s) (ts := qs.drop b) (t := up ++ sending) hQ ht ho hr
        (fun r hr => hpl.ok r (List.mem_of_mem_drop (by rw [← hall]; exact hr))) (by rw [hall]; exact hl) hp hu hfi hby
      have hlt : s < b := by
        rcases Nat.lt_or_ge s b with h | h
        · exact h
        · have : s = b := by omega
          subst this
          rw [take_drop_self] at e
          cases e
      have hsl : s < qs.length := by omega
      have hsA : s < (answersTo qs R).length := by rw [hpl.answers_length]; exact hsl
      have e' := e
      rw [take_drop_cons hlt hbl] at e'
      obtain ⟨rfl, e''⟩ := List.cons.inj e'
      rcases hc with ⟨b', c1, c2, c3, c4, c5⟩ | ⟨c0, b', v, w1, vs', c1, c2, c3, c4, c5, c6, c7⟩
      · rw [c1] at hst
        cases hst
        refine ⟨_, s, b, m, _, [], _, rfl, ⟨c2, hsb, hmb, hbl, htodo, haw, hres, hl, c3, c4, ?_, ?_, ?_, hre, hgot, fun e => absurd rfl e, ?_, hdc, hbe,
          rfl⟩, ?_⟩
        · rw [← hby]; simp
        · intro r us he
          rw [e] at he
          obtain ⟨rfl, _⟩ := List.cons.inj he
          exact c5
        · intro he; rw [e] at he; cases he
        · exact Nat.le_of_succ_le huc
        · rw [hn]; simp only [List.length_cons]; omega
      · rw [c1] at hst
        cases hst
        rw [List.drop_eq_getElem_cons (show s < R.length by rw [hpl.len]; exact hsl)] at c6
        obtain ⟨rfl, rfl⟩ := List.cons.inj c6
        have hA := hpl.answers_get hsl
        refine ⟨_, s + 1, b, m, [], _, _, rfl, ⟨c2, hlt, hmb, hbl, htodo, haw, hres, ?_, c3, c4, ?_, ?_, fun _ => rfl, ?_, hgot,
          fun _ => rfl, ?_, hdc, ?_, rfl⟩, ?_⟩
        · rw [← e'', take_drop_append hlt hbl] at c7; exact c7
        · rw [e'', ← c0]; rfl
        · exact fun r _ _ => r.bytes_pos hQ.ring
        · rw [joined_succ hsA, hre, hA]; simp
        · exact Nat.le_of_succ_le huc
        · intro hm hg j hj
          rcases Nat.lt_or_ge s j with h | h
          · exact h
          · exfalso
            obtain ⟨k, rfl⟩ := Nat.exists_eq_add_of_le h
            subst hm hg
            have e := congrArg List.length hre
            rw [joined_add] at e
            simp only [joined, List.take_zero, List.flatten_nil, List.length_append, List.length_nil] at e hj
            omega
        · rw [hn, List.drop_eq_getElem_cons hsA, List.flatten_cons, hA]
          simp only [List.length_append, List.length_cons, List.length_nil]; omega

theorem pipe_step (hP : P.Valid) (hs : Supported P K.e K.s) (hQ : Setting Q K f defs)
    (ht : ∀ d ∈ K.decls, WellTyped P K.s ⟨d.sig, defs d.name⟩) (ho : ResponsesFit K shared)
    (hD : D.drain = true) (hpl : Plan P Q K qs R) (h : PipeInv P Q K f defs shared qs R W cu cd S s b m p out n) {a : PipeStep} {r : Res (Pipe σ) Unit}
    (hst : Pipe.step P Q K D cu cd a S = some r) : Onward P Q K f defs shared qs R W cu cd n r := by
  cases a with
  | call => exact pipe_call hP hs hQ hpl h hst
  | send => exact pipe_send h hst
  | receive => exact pipe_receive hP hs hQ hpl h hst
  | finish => exact pipe_finish hP hs hQ hpl h hst
  | put => exact pipe_put hQ ht ho hD hpl h hst
  | get => exact pipe_get h hst

theorem pipe_runs (hP : P.Valid) (hs : Supported P K.e K.s) (hQ : Setting Q K f defs)
    (ht : ∀ d ∈ K.decls, WellTyped P K.s ⟨d.sig, defs d.name⟩) (ho : ResponsesFit K shared) (hD : D.drain = true) (hpl : Plan P Q K qs R)
    {N : Nat} {S₀ : Pipe σ} (h : PipeInv P Q K f defs shared qs R W cu cd S₀ s b m p out N) (hrun : PipeRuns P Q K D cu cd n S₀ S) :
    ∃ s b m p out n', PipeInv P Q K f defs shared qs R W cu cd S s b m p out n' ∧ N = n + n' := by
  induction hrun with
  | zero S => exact ⟨s, b, m, p, out, N, h, by omega⟩
  | succ a _ hst ih =>
    obtain ⟨s, b, m, p, out, n', h1, h2⟩ := ih h
    obtain ⟨S', s, b, m, p, out, n'', e, h3, h4⟩ := pipe_step hP hs hQ ht ho hD hpl h1 hst
    cases e
    exact ⟨s, b, m, p, out, n'', h3, by omega⟩

/-- Number of bytes of all the responses. -/
theorem answers_total (hK : KeyringOk K) {size : Nat → Nat} (hsize : ∀ d ∈ K.decls, size d.name = retSize d.sig.ret) :
    ∀ {qs : List (Req K)} {R : List (Option Val)}, Plan P Q K qs R →
      (answersTo qs R).flatten.length = ((qs.map Req.call).map fun c => size c.1).sum
  | [], R, _ => by simp [answersTo]
  | r :: qs, [], h => by have := h.len; simp at this
  | r :: qs, v :: R, h => by
    have h' : Plan P Q K qs R := ⟨fun r hr => h.ok r (List.mem_cons_of_mem _ hr), by have := h.len; simpa using this,
      fun i hi => by have := h.typed (i + 1) (by simpa using hi); simpa using this⟩
    have h0 : RetOk P K.s r.decl.sig.ret v := h.typed 0 (by simp)
    have := answers_total hK hsize h'
    simp only [answersTo, List.zipWith_cons_cons, List.flatten_cons, List.length_append, List.map_cons, List.sum_cons] at this ⊢
    rw [this, response_size hK h0]
    show r.size + _ = size r.decl.name + _
    rw [hsize _ r.mem]
    rfl

/-- When no step is possible, everything is done. -/
theorem pipe_stuck (hP : P.Valid) (hs : Supported P K.e K.s) (hQ : Setting Q K f defs) (hpl : Plan P Q K qs R) (hcu : 1 ≤ cu) (hcd : 1 ≤ cd)
    (hfit : D.late = true → ∀ j, j ≤ qs.length → (joined (answersTo qs R) j).length ≤ cd ∨ (flat (qs.drop j)).length ≤ cu)
    (h : PipeInv P Q K f defs shared qs R W cu cd S s b m p out n) (hst : PipeStuck P Q K D cu cd S) :
    n = 0 ∧ S.results = R ∧ S.world = W ∧ S.todo = [] ∧ S.sending = [] ∧ S.awaiting = [] ∧ S.got = [] ∧ S.up = [] ∧ S.down = [] ∧
      Pending S.callee [] ∧ Unread S.callee [] := by
  have hread := pipe_read hP hs hQ.ring hpl h
  obtain ⟨todo, sending, awaiting, got, results, up, down, buf, w⟩ := S
  obtain ⟨hr, hsb, hmb, hbl, htodo, haw, hres, hl, hp, hu, hby, hfi, hno, hre, hgot, hex, huc, hdc, hbe, hn⟩ := h
  simp only at *
  -- the bytes which arrive are read
  have hrecv : Pipe.mayRead D (⟨todo, sending, awaiting, got, results, up, down, buf, w⟩ : Pipe σ) = true → down = [] := by
    intro hmay
    cases hd : down with
    | nil => rfl
    | cons x d =>
      rw [hd] at hmay hst hre
      have hm : m < b := by
        rcases Nat.lt_or_ge m b with h | h
        · exact h
        · have := joined_le (show s ≤ m by omega) hre
          simp at this
      have h1 := hst .receive
      have h2 := hst .finish
      rw [take_drop_cons hm hbl, List.map_cons] at haw
      subst haw
      unfold Pipe.step at h1 h2
      simp only at h1 h2
      rw [if_pos hmay] at h1 h2
      rcases hread (by omega) with ⟨_, h3⟩ | ⟨_, h3⟩
      · rw [h3] at h1; cases h1
      · rw [h3] at h2; cases h2
  -- a request begun and a call to make are possible when there is room
  have hcall : sending = [] → b = qs.length := by
    intro hsend
    subst hsend
    rcases Nat.lt_or_ge b qs.length with h | h
    · rw [List.drop_eq_getElem_cons h, List.map_cons] at htodo
      subst htodo
      have h1 := hst .call
      unfold Pipe.step at h1
      simp only [Req.call] at h1
      split at h1
      · cases h1
      · split at h1 <;> cases h1
    · omega
  have hsending : up.length < cu → sending = [] := by
    intro hroom
    cases sending with
    | nil => rfl
    | cons x l =>
      have h1 := hst .send
      unfold Pipe.step at h1
      simp only at h1
      rw [if_pos hroom] at h1
      cases h1
  -- nothing is left in the output buffer
  have hout : out = [] := by
    cases ho : out with
    | nil => rfl
    | cons x o =>
      rw [ho] at hu hre
      have hp0 : p = [] := hex (by rw [ho]; simp)
      have h1 := hst .get
      unfold Pipe.step at h1
      simp only at h1
      have hroom : down.length < cd := by
        cases hlate : D.late with
        | false =>
          rw [hrecv (by simp [Pipe.mayRead, hlate])]
          exact hcd
        | true =>
          have e := congrArg List.length hre
          simp only [List.length_append, List.length_cons] at e
          rcases hfit hlate s (by omega) with h2 | h2
          · omega
          · have hsd : sending = [] := by
              by_cases h3 : sending = []
              · exact h3
              · refine hsending ?_
                rw [← take_drop_append hsb hbl, flat_append, ← hby] at h2
                have := List.length_pos_iff.2 h3
                simp only [List.length_append] at h2
                omega
            have hbq := hcall hsd
            rw [hbq, List.drop_length] at htodo
            rw [hrecv (by simp [Pipe.mayRead, hsd, htodo])]
            exact hcd
      rw [if_pos ⟨by rw [unread_isLoaded hu]; rfl, hroom⟩] at h1
      split at h1 <;> cases h1
  subst hout
  have hup : up = [] := by
    cases up with
    | nil => rfl
    | cons x up =>
      have h1 := hst .put
      unfold Pipe.step at h1
      simp only at h1
      rw [if_neg (by rw [unread_isLoaded hu]; simp)] at h1
      split at h1 <;> cases h1
  subst hup
  have hsend : sending = [] := hsending (by simp; omega)
  subst hsend
  have hb : b = qs.length := hcall rfl
  subst hb
  have htodo' : todo = [] := by rw [htodo, List.drop_length]; rfl
  subst htodo'
  have hs' : s = qs.length := by
    rcases Nat.lt_or_ge s qs.length with h | h
    · have h1 := hfi _ _ (take_drop_cons h (Nat.le_refl _))
      have e := congrArg List.length hby
      rw [take_drop_cons h (Nat.le_refl _), flat_cons] at e
      simp at e
      omega
    · omega
  have hmay : Pipe.mayRead D (⟨[], [], awaiting, got, results, [], down, buf, w⟩ : Pipe σ) = true := by simp [Pipe.mayRead]
  have hdown := hrecv hmay
  subst hdown hs'
  have hm : m = qs.length := by
    rcases Nat.lt_or_ge m qs.length with h | h
    · have h2 := hst .finish
      rw [take_drop_cons h (Nat.le_refl _), List.map_cons] at haw
      subst haw
      unfold Pipe.step at h2
      simp only at h2
      rw [if_pos hmay] at h2
      rcases hread h with ⟨h3, h4⟩ | ⟨_, h4⟩
      · exfalso
        have e := congrArg List.length hre
        have hA := hpl.answers_size hQ.ring h
        have hmA : m < (answersTo qs R).length := by rw [hpl.answers_length]; exact h
        obtain ⟨k, hk⟩ := Nat.exists_eq_add_of_le (show m + 1 ≤ qs.length by omega)
        rw [hk, joined_add, joined_succ hmA] at e
        simp only [List.length_append, List.length_nil] at e
        omega
      · rw [h4] at h2; cases h2
    · omega
  subst hm
  have hgot' : got = [] := (List.append_eq_nil_iff.1 (joined_le (Nat.le_refl _) hre)).1
  subst hgot'
  have hRlen : R.length = qs.length := hpl.len
  rw [hno take_drop_self] at hp
  rw [List.drop_length, ← hRlen, List.drop_length] at hl
  cases hl
  rw [take_drop_self] at haw
  refine ⟨?_, by rw [hres, ← hRlen, List.take_length], rfl, rfl, rfl, haw, rfl, rfl, rfl, hp, hu⟩
  rw [hn, List.drop_eq_nil_of_le (Nat.le_of_eq hpl.answers_length), List.drop_length]
  simp [flat]

theorem flat_drop_le {i j : Nat} (h : i ≤ j) : (flat (qs.drop j)).length ≤ (flat (qs.drop i)).length := by
  obtain ⟨k, rfl⟩ := Nat.exists_eq_add_of_le h
  rw [← List.take_append_drop k (qs.drop i), flat_append, List.drop_drop, List.length_append]
  omega

/-- A caller which has read nothing cannot have written everything, if responses and requests do not fit in the channels. -/
theorem pipe_blocked (hpl : Plan P Q K qs R) (h : PipeInv P Q K f defs shared qs R W cu cd S s b m p out n) (hres : S.results = []) (hg : S.got = [])
    {j : Nat} (hj : j ≤ qs.length) (h1 : cd < (joined (answersTo qs R) j).length) (h2 : cu < (flat (qs.drop j)).length) :
    ¬(S.todo = [] ∧ S.sending = []) := by
  rintro ⟨ht, hsd⟩
  have hb : b = qs.length := by
    rcases Nat.lt_or_ge b qs.length with hb | hb
    · have := h.todo
      rw [ht, List.drop_eq_getElem_cons hb] at this
      cases this
    · have := h.bl; omega
  have hj0 : j ≠ 0 := by rintro rfl; simp [joined] at h1
  have hm : m = 0 := by
    have := congrArg List.length h.results
    have := h.mb
    rw [hres, List.length_take, hpl.len] at *
    simp only [List.length_nil] at *
    omega
  have hs := h.behind hm hg j h1
  have hby := h.bytes
  rw [hsd, List.append_nil, hb, List.take_length] at hby
  have hlen := congrArg List.length hby
  have huc := h.ucap
  have hdc := h.dcap
  rw [List.length_append] at hlen
  rcases Nat.lt_or_ge s j with hlt | hge
  · have hfi := h.first _ _ (by rw [hb, List.take_length]; exact List.drop_eq_getElem_cons (show s < qs.length by omega))
    rw [List.drop_eq_getElem_cons (show s < qs.length by omega), flat_cons, List.length_append] at hlen
    have := flat_drop_le (qs := qs) (show s + 1 ≤ j by omega)
    omega
  · have : s = j := by omega
    subst this
    have hre := congrArg List.length h.resp
    rw [hm, hg] at hre
    simp only [joined, List.take_zero, List.flatten_nil, List.length_append, List.length_nil] at hre h1
    rw [h.excl (by rintro rfl; simp only [List.length_nil] at hre; omega)] at hlen
    simp only [List.length_nil] at hlen
    omega

/-- Neither the first nor any following byte is ever read. -/
theorem pipe_blocked_runs (hP : P.Valid) (hs : Supported P K.e K.s) (hQ : Setting Q K f defs)
    (ht : ∀ d ∈ K.decls, WellTyped P K.s ⟨d.sig, defs d.name⟩) (ho : ResponsesFit K shared) (hD : D.drain = true) (hlate : D.late = true)
    (hpl : Plan P Q K qs R) {N : Nat} {S₀ : Pipe σ} (h : PipeInv P Q K f defs shared qs R W cu cd S₀ s b m p out N)
    (h0 : S₀.results = [] ∧ S₀.got = []) {j : Nat} (hj : j ≤ qs.length) (h1 : cd < (joined (answersTo qs R) j).length)
    (h2 : cu < (flat (qs.drop j)).length) (hrun : PipeRuns P Q K D cu cd n S₀ S) :
    S.results = [] ∧ S.got = [] ∧ ¬(S.todo = [] ∧ S.sending = []) := by
  induction hrun with
  | zero S => exact ⟨h0.1, h0.2, pipe_blocked hpl h h0.1 h0.2 hj h1 h2⟩
  | @succ _ _ S1 S2 a hrun hst ih =>
    obtain ⟨g1, g2, g3⟩ := ih h h0
    obtain ⟨s, b, m, p, out, n', i1, _⟩ := pipe_runs hP hs hQ ht ho hD hpl h hrun
    obtain ⟨S', s, b, m, p, out, n'', e, i2, _⟩ := pipe_step hP hs hQ ht ho hD hpl i1 hst
    cases e
    have hmay : ¬ Pipe.mayRead D S1 = true := by
      intro hm
      simp only [Pipe.mayRead, hlate, Bool.not_true, Bool.false_or, Bool.and_eq_true, List.isEmpty_iff] at hm
      exact g3 hm
    have key : S2.results = S1.results ∧ S2.got = S1.got := by
      unfold Pipe.step at hst
      cases a with
      | receive =>
        simp only at hst
        split at hst
        · rw [if_neg hmay] at hst; cases hst
        · cases hst
      | finish =>
        simp only at hst
        split at hst
        · rw [if_neg hmay] at hst; cases hst
        · cases hst
      | call =>
        simp only at hst
        split at hst
        · split at hst
          · cases hst
          · split at hst
            · cases hst
            · cases hst; exact ⟨rfl, rfl⟩
        · cases hst
      | send =>
        simp only at hst
        split at hst
        · split at hst
          · cases hst; exact ⟨rfl, rfl⟩
          · cases hst
        · cases hst
      | put =>
        simp only at hst
        split at hst
        · cases hst
        · split at hst
          · cases hst
          · split at hst
            · cases hst
            · cases hst
            · cases hst; exact ⟨rfl, rfl⟩
      | get =>
        simp only at hst
        split at hst
        · split at hst
          · cases hst
          · cases hst
          · cases hst; exact ⟨rfl, rfl⟩
        · cases hst
    rw [g1] at key
    rw [g2] at key
    exact ⟨key.1, key.2, pipe_blocked hpl i2 key.1 key.2 hj h1 h2⟩

theorem pipe_start {calls : List (Nat × List Val)} {b : Buf σ} {w : σ} (hq : qs.map Req.call = calls)
    (hr : Reachable Q K f defs shared (b, w)) (hp : Pending b []) (hu : Unread b []) (hl : localCalls defs calls w = .ret R W) :
    ∃ N, PipeInv P Q K f defs shared qs R W cu cd (Pipe.start calls b w) 0 0 0 [] [] N := by
  subst hq
  exact ⟨_, hr, Nat.le_refl _, Nat.le_refl _, Nat.zero_le _, rfl, rfl, rfl, hl, hp, hu, rfl, fun _ _ e => (List.cons_ne_nil _ _ e.symm).elim,
    fun _ => rfl, rfl, fun _ => Nat.zero_le _, fun _ => rfl, Nat.zero_le _, Nat.zero_le _, fun _ _ _ _ => Nat.zero_le _, rfl⟩

theorem Plan.take {qs : List (Req K)} {R : List (Option Val)} (h : Plan P Q K qs R) (j : Nat) : Plan P Q K (qs.take j) (R.take j) where
  ok := fun r hr => h.ok r (List.mem_of_mem_take hr)
  len := by rw [List.length_take, List.length_take, h.len]
  typed := fun i hi => by
    rw [List.length_take] at hi
    have := h.typed i (by omega)
    simpa using this

theorem joined_total (hK : KeyringOk K) {size : Nat → Nat} (hsize : ∀ d ∈ K.decls, size d.name = retSize d.sig.ret) (h : Plan P Q K qs R) (j : Nat) :
    (joined (answersTo qs R) j).length = (((qs.map Req.call).take j).map fun c => size c.1).sum := by
  rw [← List.map_take, ← answers_total hK hsize (h.take j), joined, answersTo, answersTo, List.take_zipWith]

theorem flat_total (hK : KeyringOk K) {size : Nat → Nat} (hsize : ∀ d ∈ K.decls, size d.name = K.idxBytes + wireSizes d.sig.params) :
    ∀ {qs : List (Req K)}, (∀ r ∈ qs, r.Ok P Q) → (flat qs).length = ((qs.map Req.call).map fun c => size c.1).sum
  | [], _ => rfl
  | r :: qs, h => by
    have h1 := flat_total hK hsize (qs := qs) fun r hr => h r (List.mem_cons_of_mem _ hr)
    have h2 : r.bytes.length = size r.decl.name := by
      show (request K.e K.s K.idxBytes r.i r.decl.sig.params r.args).length = _
      rw [hsize _ r.mem, request, List.length_append, wireBytes_length,
        wires_length (hK.2 _ r.mem).2.1 (h r (List.mem_cons_self ..)).fitsP]
    rw [flat_cons, List.length_append, h1, h2]
    rfl

theorem writable_iff (hK : KeyringOk K) {ask reply : Nat → Nat}
    (hsize : ∀ d ∈ K.decls, ask d.name = K.idxBytes + wireSizes d.sig.params ∧ reply d.name = retSize d.sig.ret) (h : Plan P Q K qs R) :
    WritableFirst ask reply cu cd (qs.map Req.call) ↔
      ∀ j, j ≤ qs.length → (joined (answersTo qs R) j).length ≤ cd ∨ (flat (qs.drop j)).length ≤ cu := by
  have h1 := joined_total hK (fun d hd => (hsize d hd).2) h
  have h2 := fun j => flat_total (P := P) (Q := Q) hK (fun d hd => (hsize d hd).1) (qs := qs.drop j) fun r hr => h.ok r (List.mem_of_mem_drop hr)
  constructor
  · intro hw j _
    rw [h1, h2, List.map_drop]
    exact hw _ _ (List.take_append_drop j _).symm
  · intro hw a c e
    have hlen : a.length ≤ qs.length := by
      have := congrArg List.length e
      simp only [List.length_map, List.length_append] at this
      omega
    have := hw a.length hlen
    rw [h1, h2, List.map_drop, e, List.take_left, List.drop_left] at this
    exact this

/-- A sequence of steps. -/
def Pipe.exec (P Q : Platform) (K : Keyring) (D : Discipline) (capUp capDown : Nat) : List PipeStep → Pipe σ → Option (Pipe σ)
  | [], S => some S
  | a :: as, S =>
    match Pipe.step P Q K D capUp capDown a S with
    | some (.ret () S') => Pipe.exec P Q K D capUp capDown as S'
    | _ => none

theorem pipe_exec {as : List PipeStep} {S₀ S' : Pipe σ} (hrun : PipeRuns P Q K D cu cd n S₀ S) (h : Pipe.exec P Q K D cu cd as S = some S') :
    ∃ n', PipeRuns P Q K D cu cd n' S₀ S' := by
  induction as generalizing S n with
  | nil => cases h; exact ⟨_, hrun⟩
  | cons a as ih =>
    unfold Pipe.exec at h
    split at h
    · rename_i hst
      exact ih (.succ a hrun hst) h
    · cases h

end

end Upd
