import Verif.Lemmas.Transmission
import Verif.Props.Session

/-!
# The programs of the front page

C77: what the callee of README.md does with the transmissions it receives. `defs` are the functions, which act on the world `w`; whether they return
something does not matter, since the callee never reads the responses.
-/

namespace Upd
open Spec TypeList

variable {σ : Type} {P Q : Platform} {K : Keyring} {f : Features} {defs : Nat → List Val → Eff σ (Option Val)} {shared : Bool}

/-- C77, one transmission: the functions requested are called in order, exactly once each, and nothing else is. Whatever follows an index which is not
the one of a function is ignored, and the next transmission begins a packet. -/
theorem C77_transmission (h : Setting Q K f defs) (ho : ResponsesFit K shared) {calls : List (Nat × List Val)} {t : List Byte}
    (hc : Carries Q K calls t) {b : Buf (Link σ)} {down : List Byte} {w : σ} (hr : Reachable Q K f (hosted defs) shared (b, ⟨t, down, w⟩))
    (hp : Pending b []) :
    match localCalls defs calls w with
    | .ret _ w' => ∃ b' up', onReceive Q t.length (b, ⟨t, down, w⟩) = .ret () (b', ⟨up', down, w'⟩) ∧
        Reachable Q K f (hosted defs) shared (b', ⟨up', down, w'⟩) ∧ Pending b' []
    | .threw w' => ∃ b' up', onReceive Q t.length (b, ⟨t, down, w⟩) = .threw (b', ⟨up', down, w'⟩)
    | .fault e => onReceive Q t.length (b, ⟨t, down, w⟩) = .fault e := by
  cases hc with
  | whole hc =>
    by_cases ht : t = []
    · subst ht
      obtain ⟨rs, rfl, h1, _⟩ := requests_reqs hc
      rw [flat_nil h.ring h1]
      obtain ⟨b', h2, h3, h4⟩ := onReceive_nothing h hr hp
      exact ⟨b', [], h2, h3, h4⟩
    · have e : onReceive Q t.length (b, ⟨t, down, w⟩) = receiveLoop Q (pure ()) (t.length + 0) (b, ⟨t ++ [], down, w⟩) := by
        unfold onReceive
        rw [if_neg (by rw [List.length_eq_zero_iff]; exact ht), List.append_nil]
        rfl
      rw [e]
      have h1 := receiveLoop_whole h ho (last := pure ()) hc 0 (b := b) (up := []) (down := down) (w := w) (by rw [List.append_nil]; exact hr) hp
      cases hl : localCalls defs calls w with
      | ret vs w' =>
        rw [hl] at h1
        obtain ⟨b', h2, h3, h4⟩ := h1
        exact ⟨b', [], h2, h3, h4⟩
      | threw w' => rw [hl] at h1; exact h1
      | fault e => rw [hl] at h1; exact h1
  | @spoilt bs index rest hc hlen hi =>
    have hpos := (idxBytes_pos h.ring.1).1
    have h3 : K.idxBytes = smallestUnsigned K.decls.length := rfl
    have hne : index ≠ [] := by
      intro h0
      rw [h0] at hlen
      simp only [List.length_nil] at hlen
      omega
    have e : onReceive Q (bs ++ index ++ rest).length (b, ⟨bs ++ index ++ rest, down, w⟩) =
        receiveLoop Q (pure ()) (bs.length + (index.length + rest.length)) (b, ⟨bs ++ (index ++ rest), down, w⟩) := by
      unfold onReceive
      rw [if_neg (by simp [hne]), List.append_assoc, List.length_append, List.length_append]
    rw [e]
    have h1 := receiveLoop_whole h ho (last := pure ()) hc (index.length + rest.length) (b := b) (up := index ++ rest) (down := down) (w := w)
      (by rw [← List.append_assoc]; exact hr) hp
    cases hl : localCalls defs calls w with
    | ret vs w' =>
      rw [hl] at h1
      obtain ⟨b1, h2, h3, h4⟩ := h1
      obtain ⟨b2, h5, h6, h7⟩ := receiveLoop_index h (last := pure ()) index (l := []) rest.length h3 h4 hne (by simpa using hlen) (by simpa using hi)
      exact ⟨b2, rest, h2.trans h5, h6, h7⟩
    | threw w' => rw [hl] at h1; exact h1
    | fault e => rw [hl] at h1; exact h1

/-- C77, successive transmissions, of which some may be empty or spoilt: the functions called are those whose requests precede the first invalid index
of each transmission. -/
theorem C77_transmissions (h : Setting Q K f defs) (ho : ResponsesFit K shared) {calls : List (Nat × List Val)} {ts : List (List Byte)}
    (hc : CarriesAll Q K calls ts) : ∀ {b : Buf (Link σ)} {up down : List Byte} {w : σ},
      Reachable Q K f (hosted defs) shared (b, ⟨up, down, w⟩) → Pending b [] →
    match localCalls defs calls w with
    | .ret _ w' => ∃ b' up', receiveTransmissions Q ts (b, ⟨up, down, w⟩) = .ret () (b', ⟨up', down, w'⟩) ∧
        Reachable Q K f (hosted defs) shared (b', ⟨up', down, w'⟩) ∧ Pending b' []
    | .threw w' => ∃ b' up', receiveTransmissions Q ts (b, ⟨up, down, w⟩) = .threw (b', ⟨up', down, w'⟩)
    | .fault e => receiveTransmissions Q ts (b, ⟨up, down, w⟩) = .fault e := by
  induction hc with
  | nil => intro b up down w hr hp; exact ⟨b, up, rfl, hr, hp⟩
  | @cons calls calls' t ts hc _ ih =>
    intro b up down w hr hp
    have h1 := C77_transmission h ho hc (reachable_world hr (⟨t, down, w⟩ : Link σ)) hp
    have e : receiveTransmissions Q (t :: ts) (b, ⟨up, down, w⟩) =
        (onReceive Q t.length >>= fun _ => receiveTransmissions Q ts) (b, ⟨t, down, w⟩) := rfl
    rw [e, localCalls_append]
    cases hl : localCalls defs calls w with
    | fault e =>
      rw [hl] at h1
      rw [Eff.bind_fault hl]
      exact Eff.bind_fault h1
    | threw w' =>
      rw [hl] at h1
      rw [Eff.bind_threw hl]
      obtain ⟨b', up', h2⟩ := h1
      exact ⟨b', up', Eff.bind_threw h2⟩
    | ret vs w' =>
      rw [hl] at h1
      rw [Eff.bind_ret hl]
      obtain ⟨b', up', h2, h3, h4⟩ := h1
      rw [Eff.bind_ret h2]
      have h5 := ih h3 h4
      cases hl' : localCalls defs calls' w' with
      | fault e => rw [hl'] at h5; rw [Eff.bind_fault hl']; exact h5
      | threw w2 => rw [hl'] at h5; rw [Eff.bind_threw hl']; exact h5
      | ret vs' w2 => rw [hl'] at h5; rw [Eff.bind_ret hl']; exact h5

/-- C77, requests split between transmissions in any manner. -/
theorem C77_split (h : Setting Q K f defs) (ho : ResponsesFit K shared) {calls : List (Nat × List Val)} {ts : List (List Byte)}
    (hc : Requests Q K calls ts.flatten) (hne : ∀ t ∈ ts, t ≠ []) {b : Buf (Link σ)} {up down : List Byte} {w : σ}
    (hr : Reachable Q K f (hosted defs) shared (b, ⟨up, down, w⟩)) (hp : Pending b []) :
    match localCalls defs calls w with
    | .ret _ w' => ∃ b' up', receiveTransmissions Q ts (b, ⟨up, down, w⟩) = .ret () (b', ⟨up', down, w'⟩) ∧
        Reachable Q K f (hosted defs) shared (b', ⟨up', down, w'⟩) ∧ Pending b' []
    | .threw w' => ∃ b' up', receiveTransmissions Q ts (b, ⟨up, down, w⟩) = .threw (b', ⟨up', down, w'⟩)
    | .fault e => receiveTransmissions Q ts (b, ⟨up, down, w⟩) = .fault e := by
  obtain ⟨rs, rfl, h1, hf⟩ := requests_reqs hc
  have main : ∀ (ts : List (List Byte)) {rs : List (Req K)} {p : List Byte} {b : Buf (Link σ)} {up : List Byte} {w : σ}, (∀ t ∈ ts, t ≠ []) →
      Reachable Q K f (hosted defs) shared (b, ⟨up, down, w⟩) → (∀ r ∈ rs, Val.FitsAll (Safe Q K.s) r.decl.sig.params r.args) →
      Pending b p → (∀ r rs', rs = r :: rs' → p.length < r.bytes.length) → p ++ ts.flatten = flat rs →
      match localCalls defs (rs.map Req.call) w with
      | .ret _ w' => ∃ b' up', receiveTransmissions Q ts (b, ⟨up, down, w⟩) = .ret () (b', ⟨up', down, w'⟩) ∧
          Reachable Q K f (hosted defs) shared (b', ⟨up', down, w'⟩) ∧ Pending b' []
      | .threw w' => ∃ b' up', receiveTransmissions Q ts (b, ⟨up, down, w⟩) = .threw (b', ⟨up', down, w'⟩)
      | .fault e => receiveTransmissions Q ts (b, ⟨up, down, w⟩) = .fault e := by
    intro ts
    induction ts with
    | nil =>
      intro rs p b up w _ hr hf hp hlt he
      have h0 : rs = [] := by
        cases rs with
        | nil => rfl
        | cons r rs' =>
          have h9 := hlt r rs' rfl
          rw [List.flatten_nil, List.append_nil, flat_cons] at he
          rw [he, List.length_append] at h9
          omega
      subst h0
      have h2 : p = [] := by simpa [flat] using he
      subst h2
      exact ⟨b, up, rfl, hr, hp⟩
    | cons t ts ih =>
      intro rs p b up w hne hr hf hp hlt he
      have hr1 : Reachable Q K f (hosted defs) shared (b, ⟨t ++ [], down, w⟩) := reachable_world hr _
      obtain ⟨done, rs', h2, h3⟩ := receiveLoop_requests h ho (last := pure ()) t 0 hr1 hf hp hlt (rest := ts.flatten) (by rw [← he]; simp)
      have e : receiveTransmissions Q (t :: ts) (b, ⟨up, down, w⟩) =
          (receiveLoop Q (pure ()) (t.length + 0) >>= fun _ => receiveTransmissions Q ts) (b, ⟨t ++ [], down, w⟩) := by
        show (onReceive Q t.length >>= fun _ => receiveTransmissions Q ts) (b, ⟨t, down, w⟩) = _
        unfold onReceive
        rw [if_neg (by rw [List.length_eq_zero_iff]; exact hne t (by simp)), List.append_nil]
        rfl
      rw [e, h2, List.map_append, localCalls_append]
      cases hl : localCalls defs (done.map Req.call) w with
      | fault e =>
        rw [hl] at h3
        rw [Eff.bind_fault hl]
        exact Eff.bind_fault h3
      | threw w' =>
        rw [hl] at h3
        rw [Eff.bind_threw hl]
        obtain ⟨b', up', h4⟩ := h3
        exact ⟨b', up', Eff.bind_threw h4⟩
      | ret vs w' =>
        rw [hl] at h3
        rw [Eff.bind_ret hl]
        obtain ⟨b', p', h4, h5, h6, h7, h8⟩ := h3
        have h4' : receiveLoop Q (pure ()) (t.length + 0) (b, ⟨t ++ [], down, w⟩) = .ret () (b', ⟨[], down, w'⟩) := h4
        rw [Eff.bind_ret h4']
        have h9 := ih (fun t ht => hne t (List.mem_cons_of_mem _ ht)) h5 (fun r hr => hf r (by rw [h2]; exact List.mem_append_right _ hr)) h6 h7 h8
        cases hl' : localCalls defs (rs'.map Req.call) w' with
        | fault e => rw [hl'] at h9; rw [Eff.bind_fault hl']; exact h9
        | threw w2 => rw [hl'] at h9; rw [Eff.bind_threw hl']; exact h9
        | ret vs' w2 => rw [hl'] at h9; rw [Eff.bind_ret hl']; exact h9
  exact main ts hne hr hf hp (first_lt h.ring) (by rw [h1]; rfl)

/-- C77, both programs of the front page: remote calls have the effects of local calls. `P` is the platform of the caller and `Q` the one of the
callee. -/
theorem C77_front_page (hP : P.Valid) (hs : Supported P K.e K.s) (h : Setting Q K f defs) (ho : ResponsesFit K shared) :
    ∀ {calls : List (Nat × List Val)}, CallsOk P Q K calls → ∀ {b : Buf (Link σ)} {up down : List Byte} {w : σ},
      Reachable Q K f (hosted defs) shared (b, ⟨up, down, w⟩) → Pending b [] →
    match localCalls defs calls w with
    | .ret _ w' => ∃ b' up', transmitAll P Q K calls (b, ⟨up, down, w⟩) = .ret () (b', ⟨up', down, w'⟩) ∧
        Reachable Q K f (hosted defs) shared (b', ⟨up', down, w'⟩) ∧ Pending b' []
    | .threw w' => ∃ b' up', transmitAll P Q K calls (b, ⟨up, down, w⟩) = .threw (b', ⟨up', down, w'⟩)
    | .fault e => transmitAll P Q K calls (b, ⟨up, down, w⟩) = .fault e
  | [], _, b, up, down, w, hr, hp => ⟨b, up, rfl, hr, hp⟩
  | (name, args) :: calls, hc, b, up, down, w, hr, hp => by
    obtain ⟨he, hfit⟩ := hc (name, args) (List.mem_cons_self ..)
    obtain ⟨i, hi, rfl, hk⟩ := K.get11_isSome h.ring.1 he
    obtain ⟨hfP, hfQ⟩ := hfit _ (List.getElem_mem hi) rfl
    have hq : Requests Q K [(K.decls[i].name, args)] (request K.e K.s K.idxBytes i K.decls[i].sig.params args ++ []) := .cons hi hfQ .nil
    rw [List.append_nil] at hq
    have h1 := C77_transmission h ho (.whole hq)
      (reachable_world hr (⟨request K.e K.s K.idxBytes i K.decls[i].sig.params args, down, w⟩ : Link σ)) hp
    have hsend : onWorld ((⟨K.e, K.s, K.idxBytes, i, K.decls[i].sig⟩ : Key).writeTo P args Link.writeToSlave) (b, (⟨[], down, w⟩ : Link σ)) =
        .ret () (b, ⟨request K.e K.s K.idxBytes i K.decls[i].sig.params args, down, w⟩) :=
      send_request hP h.ring hs hi (args := args) hfP (L := Link.beside) (t := (b, (⟨[], down, w⟩ : Link σ))) (up := []) (down := down) (w := w) rfl
    have e : transmitAll P Q K ((K.decls[i].name, args) :: calls) (b, ⟨up, down, w⟩) =
        (onReceive Q (request K.e K.s K.idxBytes i K.decls[i].sig.params args).length >>= fun _ => transmitAll P Q K calls)
          (b, ⟨request K.e K.s K.idxBytes i K.decls[i].sig.params args, down, w⟩) := by
      rw [transmitAll, hk]
      exact (Eff.bind_ret (w' := (b, (⟨[], down, w⟩ : Link σ))) rfl).trans (Eff.bind_ret hsend)
    rw [e, show (K.decls[i].name, args) :: calls = [(K.decls[i].name, args)] ++ calls from rfl, localCalls_append]
    cases hl : localCalls defs [(K.decls[i].name, args)] w with
    | fault e =>
      rw [hl] at h1
      rw [Eff.bind_fault hl]
      exact Eff.bind_fault h1
    | threw w' =>
      rw [hl] at h1
      rw [Eff.bind_threw hl]
      obtain ⟨b', up', h2⟩ := h1
      exact ⟨b', up', Eff.bind_threw h2⟩
    | ret vs w' =>
      rw [hl] at h1
      rw [Eff.bind_ret hl]
      obtain ⟨b', up', h2, h3, h4⟩ := h1
      rw [Eff.bind_ret h2]
      have h5 := C77_front_page hP hs h ho (fun c hc' => hc c (List.mem_cons_of_mem _ hc')) (calls := calls) h3 h4
      cases hl' : localCalls defs calls w' with
      | fault e => rw [hl'] at h5; rw [Eff.bind_fault hl']; exact h5
      | threw w2 => rw [hl'] at h5; rw [Eff.bind_threw hl']; exact h5
      | ret vs' w2 => rw [hl'] at h5; rw [Eff.bind_ret hl']; exact h5

/-- The keyring of README.md:53-58. -/
def lightRing : Keyring := ⟨.little, .twosComplement, [⟨0, ⟨[.uint 1], none⟩⟩, ⟨1, ⟨[.uint 1], none⟩⟩, ⟨2, ⟨[.uint 1], none⟩⟩]⟩

/-- The functions of README.md:128-138: the world holds the states of the three outputs. -/
def lightDefs : Nat → List Val → Eff (List Bool) (Option Val) := fun name args w =>
  match args with
  | [.int n] => .ret none (w.set name (n != 0))
  | _ => .fault .illTyped

theorem lightRing_ok : KeyringOk lightRing := by
  refine ⟨by decide, ?_⟩
  simp [lightRing, SigOk, Ty.WFs, Ty.WF, PackedAll, Packed]

theorem light_setting (f : Features) : Setting pc lightRing f lightDefs where
  valid := pc_valid
  ring := lightRing_ok
  sup := pc_supported _ _
  sizes := by simp [lightRing, Ty.sizeof, wireSize]
  typed := by
    simp only [lightRing, List.mem_cons, List.not_mem_nil, or_false, forall_eq_or_imp, forall_eq]
    refine ⟨?_, ?_, ?_⟩ <;>
    · intro args w r w' _ hd
      simp only [lightDefs] at hd
      split at hd
      · injection hd with h1 _
        subst h1
        simp [RetOk]
      · cases hd

theorem light_fit (shared : Bool) : ResponsesFit lightRing shared := by
  intro d hd
  simp only [lightRing, List.mem_cons, List.not_mem_nil, or_false] at hd
  rcases hd with rfl | rfl | rfl <;> exact Nat.zero_le _

/-- The requests of README.md:85-88 and README.md:95-98: the green and the red lights are switched on. -/
def lightCalls : List (Nat × List Val) := [(0, [.int 1]), (2, [.int 1])]

example : ∃ b' up', transmitAll avr pc lightRing lightCalls
      (fresh pc lightRing .weakReference (hosted lightDefs) 255 true, ⟨[], [], [false, false, false]⟩) =
    .ret () (b', ⟨up', [], [true, false, true]⟩) := by
  have h := C77_front_page avr_valid (avr_supported _ _) (light_setting .weakReference) (light_fit true) (calls := lightCalls)
    (by simp [CallsOk, lightCalls, lightRing, Val.FitsAll, Val.Fits]) (w := [false, false, false])
    ⟨255, ⟨[], [], [false, false, false]⟩, .start⟩ (fresh_pending _ _ _ _ _ _)
  exact h.imp fun _ h => h.imp fun _ h => h.1

/-- A transmission spoilt by an unknown index, between two others; an empty transmission; a transmission with two requests. -/
theorem light_carries : CarriesAll pc lightRing [(0, [.int 1]), (2, [.int 1]), (1, [.int 1]), (0, [.int 0])]
    [[0#8, 1#8], [2#8, 1#8, 9#8, 0#8, 0#8], [], [1#8, 1#8, 0#8, 0#8]] := by
  have hr : ∀ (i : Nat) (hi : i < lightRing.decls.length) (n : Int) (bs : List Byte) (calls : List (Nat × List Val)), 0 ≤ n → n < 2 →
      Requests pc lightRing calls bs →
      Requests pc lightRing ((lightRing.decls[i].name, [.int n]) :: calls)
        (request .little .twosComplement 1 i lightRing.decls[i].sig.params [.int n] ++ bs) := by
    intro i hi n bs calls h0 h1 hq
    refine .cons hi ?_ hq
    have : lightRing.decls[i].sig.params = [.uint 1] := by
      have : i < 3 := hi
      match i, this with
      | 0, _ => rfl
      | 1, _ => rfl
      | 2, _ => rfl
    rw [this]
    simp [Val.FitsAll, Val.Fits]
    omega
  exact .cons (calls := [_]) (.whole (hr 0 (by decide) 1 [] [] (by decide) (by decide) .nil))
    (.cons (calls := [_]) (.spoilt (index := [9#8]) [0#8, 0#8] (hr 2 (by decide) 1 [] [] (by decide) (by decide) .nil) rfl (by decide))
      (.cons (calls := []) (.whole .nil)
        (.cons (calls := [_, _]) (.whole (hr 1 (by decide) 1 _ _ (by decide) (by decide) (hr 0 (by decide) 0 [] [] (by decide) (by decide) .nil))) .nil)))

example : ∃ b' up', receiveTransmissions pc [[0#8, 1#8], [2#8, 1#8, 9#8, 0#8, 0#8], [], [1#8, 1#8, 0#8, 0#8]]
      (fresh pc lightRing .weakReference (hosted lightDefs) 255 true, ⟨[], [], [false, false, false]⟩) =
    .ret () (b', ⟨up', [], [false, true, true]⟩) := by
  have h := C77_transmissions (light_setting .weakReference) (light_fit true) light_carries (w := [false, false, false])
    ⟨255, ⟨[], [], [false, false, false]⟩, .start⟩ (fresh_pending _ _ _ _ _ _)
  exact h.imp fun _ h => h.imp fun _ h => h.1

/-- What the theorems do not say: a truncated transmission is not discarded. The request to switch on the red light is taken as the argument of the
truncated one, which switches on the green light. -/
theorem C77_truncated : ∃ b' up', receiveTransmissions pc [[0#8], [2#8, 1#8], [0#8]]
      (fresh pc lightRing .weakReference (hosted lightDefs) 255 true, ⟨[], [], [false, false, false]⟩) =
    .ret () (b', ⟨up', [], [true, false, false]⟩) := by
  have hq : Requests pc lightRing [(0, [.int 2]), (1, [.int 0])] [[0#8], [2#8, 1#8], [0#8]].flatten :=
    .cons (i := 0) (by decide) (args := [.int 2]) (bs := [1#8, 0#8]) (by simp [lightRing, Val.FitsAll, Val.Fits])
      (.cons (i := 1) (by decide) (args := [.int 0]) (bs := []) (by simp [lightRing, Val.FitsAll, Val.Fits]) .nil)
  have h := C77_split (light_setting .weakReference) (light_fit true) hq (by simp) (w := [false, false, false]) (up := []) (down := [])
    ⟨255, ⟨[], [], [false, false, false]⟩, .start⟩ (fresh_pending _ _ _ _ _ _)
  exact h.imp fun _ h => h.imp fun _ h => h.1

private theorem light_requests : Requests pc lightRing [(0, [.int 1]), (2, [.int 1])] [0#8, 1#8, 2#8, 1#8] :=
  .cons (i := 0) (by decide) (args := [.int 1]) (by simp [lightRing, Val.FitsAll, Val.Fits])
    (.cons (i := 2) (by decide) (args := [.int 1]) (by simp [lightRing, Val.FitsAll, Val.Fits]) .nil)

/-- One transmission with two requests. -/
example : ∃ b' up', onReceive pc 4 (fresh pc lightRing .weakReference (hosted lightDefs) 255 true, ⟨[0#8, 1#8, 2#8, 1#8], [], [false, false, false]⟩) =
    .ret () (b', ⟨up', [], [true, false, true]⟩) := by
  have h := C77_transmission (light_setting .weakReference) (light_fit true) (.whole light_requests) (down := []) (w := [false, false, false])
    ⟨255, ⟨_, [], [false, false, false]⟩, .start⟩ (fresh_pending _ _ _ _ _ _)
  exact h.imp fun _ h => h.imp fun _ h => h.1

/-- The same two requests, cut in the middle of each. -/
example : ∃ b' up', receiveTransmissions pc [[0#8], [1#8, 2#8], [1#8]]
      (fresh pc lightRing .weakReference (hosted lightDefs) 255 true, ⟨[], [], [false, false, false]⟩) =
    .ret () (b', ⟨up', [], [true, false, true]⟩) := by
  have h := C77_split (light_setting .weakReference) (light_fit true) (ts := [[0#8], [1#8, 2#8], [1#8]]) light_requests (by decide)
    (w := [false, false, false]) (down := []) ⟨255, ⟨[], [], [false, false, false]⟩, .start⟩ (fresh_pending _ _ _ _ _ _)
  exact h.imp fun _ h => h.imp fun _ h => h.1

end Upd
