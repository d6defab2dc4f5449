import Verif.Props.BufferedIO
import Verif.Spec.Session

/-! # Sessions -/

namespace Upd
open Spec TypeList

variable {σ τ : Type}

theorem yields_up (m rest down : List Byte) (w : σ) :
    Yields (Link.readFromMaster (σ := σ)) ⟨m ++ rest, down, w⟩ m ⟨rest, down, w⟩ := by
  induction m with
  | nil => exact .nil _
  | cons x m ih => exact .cons rfl ih

theorem yields_down (m rest up : List Byte) (w : σ) :
    Yields (Link.readFromSlave (σ := σ)) ⟨up, m ++ rest, w⟩ m ⟨up, rest, w⟩ := by
  induction m with
  | nil => exact .nil _
  | cons x m ih => exact .cons rfl ih

theorem accepts_up (m up down : List Byte) (w : σ) :
    Accepts (Link.writeToSlave (σ := σ)) ⟨up, down, w⟩ m ⟨up ++ m, down, w⟩ := by
  induction m generalizing up with
  | nil => rw [List.append_nil]; exact .nil _
  | cons x m ih => exact .cons rfl (by have := ih (up ++ [x]); rwa [List.append_assoc] at this)

theorem accepts_down (m up down : List Byte) (w : σ) :
    Accepts (Link.writeToMaster (σ := σ)) ⟨up, down, w⟩ m ⟨up, down ++ m, w⟩ := by
  induction m generalizing down with
  | nil => rw [List.append_nil]; exact .nil _
  | cons x m ih => exact .cons rfl (by have := ih (down ++ [x]); rwa [List.append_assoc] at this)

theorem Keyring.get11_isSome {K : Keyring} (hK : K.decls.length < 2 ^ 64) {name : Nat} (h : ∃ d ∈ K.decls, d.name = name) :
    ∃ i, ∃ hi : i < K.decls.length, K.decls[i].name = name ∧ K.get11 name = some ⟨K.e, K.s, K.idxBytes, i, K.decls[i].sig⟩ := by
  have hsome : ∀ (l : List Nat) (n : Nat), name ∈ l → find11 name n l ≠ none := by
    intro l
    induction l with
    | nil => intro n h; cases h
    | cons x l ih =>
      intro n h
      rw [find11]
      by_cases hx : x = name
      · rw [if_pos hx]; simp
      · rw [if_neg hx]
        refine ih _ ?_
        rcases List.mem_cons.1 h with h | h
        · exact absurd h.symm hx
        · exact h
  obtain ⟨d, hd, hn⟩ := h
  have h0 := hsome (K.decls.map (·.name)) 0 (List.mem_map.2 ⟨d, hd, hn⟩)
  cases hf : find11 name 0 (K.decls.map (·.name)) with
  | none => exact absurd hf h0
  | some i =>
    obtain ⟨j, hj, h1, _⟩ := (find11_spec _ _ _ _).mp hf
    have hij : i = j := by omega
    subst hij
    rw [List.getElem?_map] at h1
    obtain ⟨d', hd', hn'⟩ := Option.map_eq_some_iff.mp h1
    obtain ⟨hi, rfl⟩ := List.getElem?_eq_some_iff.mp hd'
    refine ⟨i, hi, hn', ?_⟩
    unfold Keyring.get11
    rw [hf, K.keyAt_eq hK hi]

/-- What is expected of the callee: with a request at the beginning of the stream, it is served and the response is sent. -/
structure Server (Q : Platform) (K : Keyring) (defs : Nat → List Val → Eff σ (Option Val)) (L : Lens τ (Link σ)) (serve : Eff τ Unit)
    (Inv : τ → Prop) : Prop where
  get_put : ∀ l t, L.get (L.put l t) = l
  inv_put : ∀ l t, Inv t → Inv (L.put l t)
  step : ∀ (i : Nat) (hi : i < K.decls.length) (args : List Val) (rest down : List Byte) (w : σ) (t : τ),
    Val.FitsAll (Safe Q K.s) K.decls[i].sig.params args → Inv t →
    L.get t = ⟨request K.e K.s K.idxBytes i K.decls[i].sig.params args ++ rest, down, w⟩ →
    match defs K.decls[i].name args w with
    | .ret r w' => ∃ t', serve t = .ret () t' ∧ Inv t' ∧ L.get t' = ⟨rest, down ++ response K.e K.s K.decls[i].sig.ret r, w'⟩
    | .threw w' => ∃ t', serve t = .threw t' ∧ L.get t' = ⟨rest, down, w'⟩
    | .fault f => serve t = .fault f

theorem hosted_ret {defs : Nat → List Val → Eff σ (Option Val)} {name : Nat} {args : List Val} {l : Link σ} {r : Option Val} {w : σ}
    (h : defs name args l.world = .ret r w) : hosted defs name args l = .ret r { l with world := w } :=
  zoom_ret (L := Link.rest) h

theorem hosted_threw {defs : Nat → List Val → Eff σ (Option Val)} {name : Nat} {args : List Val} {l : Link σ} {w : σ}
    (h : defs name args l.world = .threw w) : hosted defs name args l = .threw { l with world := w } :=
  zoom_threw (L := Link.rest) h

theorem hosted_fault {defs : Nat → List Val → Eff σ (Option Val)} {name : Nat} {args : List Val} {l : Link σ} {f : Fault}
    (h : defs name args l.world = .fault f) : hosted defs name args l = .fault f := by
  have h : defs name args (Link.rest.get l) = .fault f := h
  unfold hosted Eff.zoom
  rw [h]

theorem hosted_typed {P : Platform} {s : Mode} {sig : Sig} {defs : Nat → List Val → Eff σ (Option Val)} {name : Nat}
    (h : WellTyped P s ⟨sig, defs name⟩) : WellTyped P s ⟨sig, hosted defs name⟩ := by
  intro args l r l' hf hr
  obtain ⟨w, hw, _⟩ := zoom_eq_ret (L := Link.rest) hr
  exact h args _ r w hf hw

theorem hosted_setting {Q : Platform} {K : Keyring} {f : Features} {defs : Nat → List Val → Eff σ (Option Val)} (h : Setting Q K f defs) :
    Setting Q K f (hosted defs) :=
  ⟨h.valid, h.ring, h.sup, h.sizes, fun d hd => hosted_typed (h.typed d hd)⟩

section
variable {P Q : Platform} {K : Keyring} {f : Features} {defs : Nat → List Val → Eff σ (Option Val)} {shared : Bool}

/-- A run of the unbuffered dispatcher on a request. -/
theorem run_hosted (hQ : Q.Valid) (hK : KeyringOk K) (hs : Supported Q K.e K.s)
    (ht : ∀ d ∈ K.decls, WellTyped Q K.s ⟨d.sig, defs d.name⟩) {i : Nat} (hi : i < K.decls.length) {args : List Val} {rest down : List Byte}
    {w : σ} (hf : Val.FitsAll (Safe Q K.s) K.decls[i].sig.params args) :
    (Dispatcher.make K f (hosted defs)).run Q (Lens.whole _) Link.readFromMaster Link.writeToMaster
        ⟨request K.e K.s K.idxBytes i K.decls[i].sig.params args ++ rest, down, w⟩ =
      match defs K.decls[i].name args w with
      | .ret r w' => .ret i ⟨rest, down ++ response K.e K.s K.decls[i].sig.ret r, w'⟩
      | .threw w' => .threw ⟨rest, down, w'⟩
      | .fault f => .fault f := by
  have hg := hK.2 K.decls[i] (List.getElem_mem _)
  have hib : i < 256 ^ K.idxBytes := Nat.lt_trans hi (idxBytes_pos hK.1).2
  have h := run_request hQ (D := Dispatcher.make K f (hosted defs)) hs (idxBytes_pos hK.1).1 (i := i)
    (by show i < K.size; rw [K.size_eq hK.1]; exact hi) hib (make_acts hi) (makeAction_holds f K.e K.s _) hg (Lens.whole (Link σ))
    (dest := Link.writeToMaster) hf (yields_up _ rest down w)
  rw [zoom_whole] at h
  refine h.trans ?_
  show (hosted defs K.decls[i].name args >>= fun r => respond Q K.e K.s K.decls[i].sig.ret r Link.writeToMaster >>= fun _ => pure i)
    ⟨rest, down, w⟩ = _
  cases hd : defs K.decls[i].name args w with
  | fault e => exact Eff.bind_fault (hosted_fault hd)
  | threw w' => exact Eff.bind_threw (hosted_threw hd)
  | ret r w' =>
    rw [Eff.bind_ret (hosted_ret (l := ⟨rest, down, w⟩) hd), respond_eq hQ hs hg.2.2 (ht _ (List.getElem_mem hi) _ _ _ _ hf hd),
      Eff.bind_ret (putAll_accepts (accepts_down _ _ _ _))]
    rfl

theorem unbuffered_server (hQ : Q.Valid) (hK : KeyringOk K) (hs : Supported Q K.e K.s)
    (ht : ∀ d ∈ K.decls, WellTyped Q K.s ⟨d.sig, defs d.name⟩) :
    Server Q K defs (Lens.whole (Link σ)) (serveUnbuffered Q (Dispatcher.make K f (hosted defs))) fun _ => True where
  get_put := fun _ _ => rfl
  inv_put := fun _ _ _ => trivial
  step := by
    intro i hi args rest down w t hf _ hl
    have hl : t = _ := hl
    subst hl
    have h := run_hosted (f := f) hQ hK hs ht hi (rest := rest) (down := down) (w := w) hf
    cases hd : defs K.decls[i].name args w with
    | fault e => rw [hd] at h; exact Eff.bind_fault h
    | threw w' => rw [hd] at h; exact ⟨_, Eff.bind_threw h, rfl⟩
    | ret r w' => rw [hd] at h; exact ⟨_, Eff.bind_ret h, trivial, rfl⟩

theorem reachable_world {b : Buf σ} {w : σ} (h : Reachable P K f defs shared (b, w)) (w' : σ) : Reachable P K f defs shared (b, w') := by
  obtain ⟨n, w0, h⟩ := h
  exact ⟨n, w0, .world w' h⟩

theorem reachable_op {st st' : BState σ} (h : Reachable P K f defs shared st) (op : Op σ) (ho : op.Ok P) (hr : op.run P st = .ret () st') :
    Reachable P K f defs shared st' := by
  obtain ⟨n, w0, h⟩ := h
  exact ⟨n, w0, .ret op h ho hr⟩

theorem buffered_server (h : Setting Q K f defs) (ho : ResponsesFit K shared) :
    Server Q K defs (Link.beside (σ := σ)) (serveBuffered Q)
      fun st => Reachable Q K f (hosted defs) shared st ∧ Pending st.1 [] where
  get_put := fun _ _ => rfl
  inv_put := fun l t ht => ⟨reachable_world ht.1 l, ht.2⟩
  step := by
    rintro i hi args rest down w ⟨b, l⟩ hf ⟨hr, hp⟩ hl
    have hl : l = _ := hl
    subst hl
    have hrun := run_hosted (f := f) h.valid h.ring h.sup h.typed hi (rest := rest) (down := down) (w := w) hf
    have hbuf := C48_request (hosted_setting h) hr hp hi hf (ho _ (List.getElem_mem hi)) (yields_up _ rest down w) Link.writeToMaster
    rw [hrun] at hbuf
    cases hd : defs K.decls[i].name args w with
    | fault e => rw [hd] at hbuf; exact Eff.bind_fault hbuf
    | threw w' =>
      rw [hd] at hbuf
      obtain ⟨b', h1⟩ := hbuf
      exact ⟨_, Eff.bind_threw h1, rfl⟩
    | ret r w' =>
      rw [hd] at hbuf
      obtain ⟨b', h1, h2, _⟩ := hbuf
      exact ⟨_, Eff.bind_ret h1, ⟨reachable_op hr (.process Link.readFromMaster Link.writeToMaster) trivial (Eff.bind_ret h1), h2⟩, rfl⟩

/-- Sending a request. -/
theorem send_request (hP : P.Valid) (hK : KeyringOk K) (hs : Supported P K.e K.s) {i : Nat} (hi : i < K.decls.length) {args : List Val}
    (hf : Val.FitsAll (Safe P K.s) K.decls[i].sig.params args) {L : Lens τ (Link σ)} {t : τ} {up down : List Byte} {w : σ}
    (hl : L.get t = ⟨up, down, w⟩) :
    Eff.zoom L ((⟨K.e, K.s, K.idxBytes, i, K.decls[i].sig⟩ : Key).writeTo P args Link.writeToSlave) t =
      .ret () (L.put ⟨up ++ request K.e K.s K.idxBytes i K.decls[i].sig.params args, down, w⟩ t) := by
  refine zoom_ret ?_
  rw [hl, C29_request_format hP (k := ⟨K.e, K.s, K.idxBytes, i, K.decls[i].sig⟩) hs (idxBytes_pos hK.1).1
    (Nat.lt_trans hi (idxBytes_pos hK.1).2) (hK.2 _ (List.getElem_mem hi)) hf]
  exact putAll_accepts (accepts_up _ _ _ _)

/-- Receiving a response. -/
theorem receive_response (hP : P.Valid) (hK : KeyringOk K) (hs : Supported P K.e K.s) {i : Nat} (hi : i < K.decls.length) {r : Option Val}
    (hr : RetOk P K.s K.decls[i].sig.ret r) {L : Lens τ (Link σ)} {t : τ} {up down : List Byte} {w : σ}
    (hl : L.get t = ⟨up, response K.e K.s K.decls[i].sig.ret r ++ down, w⟩) :
    Eff.zoom L ((⟨K.e, K.s, K.idxBytes, i, K.decls[i].sig⟩ : Key).readFrom P Link.readFromSlave) t =
      .ret r (L.put ⟨up, down, w⟩ t) := by
  refine zoom_ret ?_
  rw [hl]
  exact C31_read_value hP (k := ⟨K.e, K.s, K.idxBytes, i, K.decls[i].sig⟩) hs (hK.2 _ (List.getElem_mem hi)) hr _ (yields_down _ _ _ _)

/-- Calls in blocking mode. -/
theorem blocking_server (hP : P.Valid) (hK : KeyringOk K) (hs : Supported P K.e K.s)
    (ht : ∀ d ∈ K.decls, WellTyped P K.s ⟨d.sig, defs d.name⟩) {L : Lens τ (Link σ)} {serve : Eff τ Unit} {Inv : τ → Prop}
    (hS : Server Q K defs L serve Inv) : ∀ (calls : List (Nat × List Val)) (w : σ) (t : τ), CallsOk P Q K calls → Inv t →
    L.get t = ⟨[], [], w⟩ →
    match localCalls defs calls w with
    | .ret rs w' => ∃ t', blockingCalls P K L serve calls t = .ret rs t' ∧ Inv t' ∧ L.get t' = ⟨[], [], w'⟩
    | .threw w' => ∃ t', blockingCalls P K L serve calls t = .threw t' ∧ L.get t' = ⟨[], [], w'⟩
    | .fault f => blockingCalls P K L serve calls t = .fault f
  | [], w, t, _, hi, hl => ⟨t, rfl, hi, hl⟩
  | (name, args) :: calls, w, t, hc, hinv, hl => by
    obtain ⟨he, hfit⟩ := hc (name, args) (List.mem_cons_self ..)
    obtain ⟨i, hi, rfl, hk⟩ := K.get11_isSome hK.1 he
    obtain ⟨hfP, hfQ⟩ := hfit _ (List.getElem_mem hi) rfl
    have hbc : blockingCalls P K L serve ((K.decls[i].name, args) :: calls) =
        (blockingCall P L serve ⟨K.e, K.s, K.idxBytes, i, K.decls[i].sig⟩ args >>= fun r =>
          blockingCalls P K L serve calls >>= fun rs => pure (r :: rs)) := by
      rw [blockingCalls]; simp only [hk]
    rw [hbc]
    show match (defs K.decls[i].name args >>= fun r => localCalls defs calls >>= fun rs => pure (r :: rs)) w with
      | .ret rs w' => _ | .threw w' => _ | .fault f => _
    have h1 := send_request hP hK hs hi hfP hl
    rw [List.nil_append] at h1
    have h2 := hS.step i hi args [] [] w _ hfQ (hS.inv_put ⟨request K.e K.s K.idxBytes i K.decls[i].sig.params args, [], w⟩ t hinv)
      (by rw [hS.get_put, List.append_nil])
    cases hd : defs K.decls[i].name args w with
    | fault e =>
      rw [hd] at h2
      rw [Eff.bind_fault hd]
      exact Eff.bind_fault (by unfold blockingCall; rw [Eff.bind_ret h1]; exact Eff.bind_fault h2)
    | threw w' =>
      rw [hd] at h2
      rw [Eff.bind_threw hd]
      obtain ⟨t', h3, h4⟩ := h2
      exact ⟨t', Eff.bind_threw (by unfold blockingCall; rw [Eff.bind_ret h1]; exact Eff.bind_threw h3), h4⟩
    | ret r w' =>
      rw [hd] at h2
      obtain ⟨t1, h3, h4, h5⟩ := h2
      have h6 := receive_response hP hK hs hi (ht _ (List.getElem_mem hi) _ _ _ _ hfP hd) (up := []) (down := []) (w := w') (t := t1) (L := L)
        (by rw [h5]; simp)
      have h7 : blockingCall P L serve ⟨K.e, K.s, K.idxBytes, i, K.decls[i].sig⟩ args t = .ret r (L.put ⟨[], [], w'⟩ t1) := by
        unfold blockingCall; rw [Eff.bind_ret h1, Eff.bind_ret h3]; exact h6
      have ih := blocking_server hP hK hs ht hS calls w' (L.put ⟨[], [], w'⟩ t1) (fun c hc' => hc c (List.mem_cons_of_mem _ hc'))
        (hS.inv_put _ _ h4) (hS.get_put _ _)
      rw [Eff.bind_ret hd, Eff.bind_ret h7]
      cases hrs : localCalls defs calls w' with
      | fault e => rw [hrs] at ih; rw [Eff.bind_fault hrs]; exact Eff.bind_fault ih
      | threw w2 =>
        rw [hrs] at ih
        obtain ⟨t2, h8, h9⟩ := ih
        rw [Eff.bind_threw hrs]
        exact ⟨t2, Eff.bind_threw h8, h9⟩
      | ret rs w2 =>
        rw [hrs] at ih
        obtain ⟨t2, h8, h9, h10⟩ := ih
        rw [Eff.bind_ret hrs]
        exact ⟨t2, Eff.bind_ret h8, h9, h10⟩

/-- All the requests. -/
def requests (K : Keyring) (calls : List (Nat × List Val)) : List Byte :=
  (calls.map fun c => match K.get11 c.1 with | none => [] | some k => request k.e k.s k.idxBytes k.index k.sig.params c.2).flatten

/-- All the responses. -/
def responses (K : Keyring) : List (Nat × List Val) → List (Option Val) → List Byte
  | c :: calls, r :: rs => (match K.get11 c.1 with | none => [] | some k => response k.e k.s k.sig.ret r) ++ responses K calls rs
  | _, _ => []

theorem sendAll_eq (hP : P.Valid) (hK : KeyringOk K) (hs : Supported P K.e K.s) {L : Lens τ (Link σ)}
    (hgp : ∀ l t, L.get (L.put l t) = l) {Inv : τ → Prop} (hip : ∀ l t, Inv t → Inv (L.put l t)) {down : List Byte} {w : σ} :
    ∀ (calls : List (Nat × List Val)) (t : τ) (up : List Byte), CallsOk P Q K calls → Inv t → L.get t = ⟨up, down, w⟩ →
    ∃ t', sendAll P K L calls t = .ret () t' ∧ Inv t' ∧ L.get t' = ⟨up ++ requests K calls, down, w⟩
  | [], t, up, _, hi, hl => ⟨t, rfl, hi, by rw [hl]; simp [requests]⟩
  | (name, args) :: calls, t, up, hc, hinv, hl => by
    obtain ⟨he, hfit⟩ := hc (name, args) (List.mem_cons_self ..)
    obtain ⟨i, hi, rfl, hk⟩ := K.get11_isSome hK.1 he
    obtain ⟨hfP, _⟩ := hfit _ (List.getElem_mem hi) rfl
    obtain ⟨t', h1, h2, h3⟩ := sendAll_eq hP hK hs hgp hip calls _ _ (fun c hc' => hc c (List.mem_cons_of_mem _ hc')) (hip _ _ hinv)
      (hgp ⟨up ++ request K.e K.s K.idxBytes i K.decls[i].sig.params args, down, w⟩ t)
    refine ⟨t', ?_, h2, ?_⟩
    · rw [sendAll]; simp only [hk]
      exact (Eff.bind_ret (send_request hP hK hs hi hfP hl)).trans h1
    · rw [h3]
      unfold requests
      rw [List.map_cons, List.flatten_cons]
      simp only [hk, List.append_assoc]

theorem serveAll_eq (hK : KeyringOk K) {L : Lens τ (Link σ)} {serve : Eff τ Unit} {Inv : τ → Prop}
    (hS : Server Q K defs L serve Inv) : ∀ (calls : List (Nat × List Val)) (t : τ) (down : List Byte) (w : σ), CallsOk P Q K calls → Inv t →
    L.get t = ⟨requests K calls, down, w⟩ →
    match localCalls defs calls w with
    | .ret rs w' => ∃ t', serveAll serve calls.length t = .ret () t' ∧ Inv t' ∧ L.get t' = ⟨[], down ++ responses K calls rs, w'⟩
    | .threw w' => ∃ t', serveAll serve calls.length t = .threw t' ∧ (L.get t').world = w'
    | .fault f => serveAll serve calls.length t = .fault f
  | [], t, down, w, _, hi, hl => ⟨t, rfl, hi, by rw [hl]; simp [requests, responses]⟩
  | (name, args) :: calls, t, down, w, hc, hinv, hl => by
    obtain ⟨he, hfit⟩ := hc (name, args) (List.mem_cons_self ..)
    obtain ⟨i, hi, rfl, hk⟩ := K.get11_isSome hK.1 he
    obtain ⟨_, hfQ⟩ := hfit _ (List.getElem_mem hi) rfl
    have h2 := hS.step i hi args (requests K calls) down w t hfQ hinv (by
      rw [hl]
      unfold requests
      rw [List.map_cons, List.flatten_cons]
      simp only [hk])
    show match (defs K.decls[i].name args >>= fun r => localCalls defs calls >>= fun rs => pure (r :: rs)) w with
      | .ret rs w' => ∃ t', (serve >>= fun _ => serveAll serve calls.length) t = .ret () t' ∧ Inv t' ∧
          L.get t' = ⟨[], down ++ responses K ((K.decls[i].name, args) :: calls) rs, w'⟩
      | .threw w' => ∃ t', (serve >>= fun _ => serveAll serve calls.length) t = .threw t' ∧ (L.get t').world = w'
      | .fault f => (serve >>= fun _ => serveAll serve calls.length) t = .fault f
    cases hd : defs K.decls[i].name args w with
    | fault e => rw [hd] at h2; rw [Eff.bind_fault hd]; exact Eff.bind_fault h2
    | threw w' =>
      rw [hd] at h2
      obtain ⟨t', h3, h4⟩ := h2
      rw [Eff.bind_threw hd]
      exact ⟨t', Eff.bind_threw h3, by rw [h4]⟩
    | ret r w' =>
      rw [hd] at h2
      obtain ⟨t1, h3, h4, h5⟩ := h2
      have ih := serveAll_eq hK hS calls t1 _ w' (fun c hc' => hc c (List.mem_cons_of_mem _ hc')) h4 h5
      rw [Eff.bind_ret hd]
      cases hrs : localCalls defs calls w' with
      | fault e => rw [hrs] at ih; rw [Eff.bind_fault hrs]; exact (Eff.bind_ret h3).trans ih
      | threw w2 =>
        rw [hrs] at ih
        obtain ⟨t2, h8, h9⟩ := ih
        rw [Eff.bind_threw hrs]
        exact ⟨t2, (Eff.bind_ret h3).trans h8, h9⟩
      | ret rs w2 =>
        rw [hrs] at ih
        obtain ⟨t2, h8, h9, h10⟩ := ih
        rw [Eff.bind_ret hrs]
        refine ⟨t2, (Eff.bind_ret h3).trans h8, h9, ?_⟩
        rw [h10]
        simp only [responses, hk, List.append_assoc]

theorem receiveAll_eq (hP : P.Valid) (hK : KeyringOk K) (hs : Supported P K.e K.s)
    (ht : ∀ d ∈ K.decls, WellTyped P K.s ⟨d.sig, defs d.name⟩) {L : Lens τ (Link σ)} (hgp : ∀ l t, L.get (L.put l t) = l)
    {Inv : τ → Prop} (hip : ∀ l t, Inv t → Inv (L.put l t)) {w0 : σ} : ∀ (calls : List (Nat × List Val)) (t : τ) (w w' : σ)
    (rs : List (Option Val)), CallsOk P Q K calls → Inv t → localCalls defs calls w = .ret rs w' → L.get t = ⟨[], responses K calls rs, w0⟩ →
    ∃ t', receiveAll P K L calls t = .ret rs t' ∧ Inv t' ∧ L.get t' = ⟨[], [], w0⟩
  | [], t, w, w', rs, _, hi, hr, hl => by
    have : rs = [] := by injection hr with h _; exact h.symm
    subst this
    exact ⟨t, rfl, hi, hl⟩
  | (name, args) :: calls, t, w, w', rs, hc, hinv, hr, hl => by
    obtain ⟨he, hfit⟩ := hc (name, args) (List.mem_cons_self ..)
    obtain ⟨i, hi, rfl, hk⟩ := K.get11_isSome hK.1 he
    obtain ⟨hfP, _⟩ := hfit _ (List.getElem_mem hi) rfl
    obtain ⟨r, w1, hd, hr⟩ := Eff.bind_eq_ret hr
    obtain ⟨rs', w2, hrs, hr⟩ := Eff.bind_eq_ret hr
    have hr : rs = r :: rs' := by injection hr with h _; exact h.symm
    subst hr
    have h6 := receive_response hP hK hs hi (ht _ (List.getElem_mem hi) _ _ _ _ hfP hd) (down := responses K calls rs') (up := []) (w := w0)
      (t := t) (L := L) (by rw [hl]; simp only [responses, hk])
    obtain ⟨t', h7, h8, h9⟩ := receiveAll_eq hP hK hs ht hgp hip calls _ _ _ _ (fun c hc' => hc c (List.mem_cons_of_mem _ hc'))
      (hip _ _ hinv) hrs (hgp ⟨[], responses K calls rs', w0⟩ t)
    refine ⟨t', ?_, h8, h9⟩
    rw [receiveAll]; simp only [hk]
    rw [Eff.bind_ret h6, Eff.bind_ret h7]
    rfl

/-- Calls sent in a row. -/
theorem pipelined_server (hP : P.Valid) (hK : KeyringOk K) (hs : Supported P K.e K.s)
    (ht : ∀ d ∈ K.decls, WellTyped P K.s ⟨d.sig, defs d.name⟩) {L : Lens τ (Link σ)} {serve : Eff τ Unit} {Inv : τ → Prop}
    (hS : Server Q K defs L serve Inv) {calls : List (Nat × List Val)} {w : σ} {t : τ} (hc : CallsOk P Q K calls) (hinv : Inv t)
    (hl : L.get t = ⟨[], [], w⟩) :
    match localCalls defs calls w with
    | .ret rs w' => ∃ t', pipelinedCalls P K L serve calls t = .ret rs t' ∧ Inv t' ∧ L.get t' = ⟨[], [], w'⟩
    | .threw w' => ∃ t', pipelinedCalls P K L serve calls t = .threw t' ∧ (L.get t').world = w'
    | .fault f => pipelinedCalls P K L serve calls t = .fault f := by
  obtain ⟨t1, h1, h2, h3⟩ := sendAll_eq hP hK hs hS.get_put hS.inv_put calls t [] hc hinv hl
  rw [List.nil_append] at h3
  have h4 := serveAll_eq hK hS calls t1 [] w hc h2 h3
  unfold pipelinedCalls
  rw [Eff.bind_ret h1]
  cases hrs : localCalls defs calls w with
  | fault e => rw [hrs] at h4; exact Eff.bind_fault h4
  | threw w' => rw [hrs] at h4; obtain ⟨t2, h5, h6⟩ := h4; exact ⟨t2, Eff.bind_threw h5, h6⟩
  | ret rs w' =>
    rw [hrs] at h4
    obtain ⟨t2, h5, h6, h7⟩ := h4
    rw [List.nil_append] at h7
    obtain ⟨t3, h8, h9, h10⟩ := receiveAll_eq hP hK hs ht hS.get_put hS.inv_put calls t2 w w' rs hc h6 hrs h7
    exact ⟨t3, (Eff.bind_ret h5).trans h8, h9, h10⟩

end

end Upd
