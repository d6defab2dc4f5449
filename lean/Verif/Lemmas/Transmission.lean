import Verif.Lemmas.Net
import Verif.Model.Transmission
import Verif.Spec.Transmission

/-! # Transmissions -/

namespace Upd
open Spec TypeList

variable {σ : Type} {Q : Platform} {K : Keyring} {f : Features} {defs : Nat → List Val → Eff σ (Option Val)} {shared : Bool}

theorem requests_reqs {calls : List (Nat × List Val)} {bs : List Byte} (h : Requests Q K calls bs) :
    ∃ rs : List (Req K), rs.map Req.call = calls ∧ flat rs = bs ∧ ∀ r ∈ rs, Val.FitsAll (Safe Q K.s) r.decl.sig.params r.args := by
  induction h with
  | nil => exact ⟨[], rfl, rfl, by simp⟩
  | @cons i hi args calls bs hf _ ih =>
    obtain ⟨rs, rfl, rfl, h3⟩ := ih
    refine ⟨⟨i, hi, args⟩ :: rs, rfl, rfl, fun r hr => ?_⟩
    rcases List.mem_cons.1 hr with rfl | hr
    · exact hf
    · exact h3 r hr

/-- A byte of a request. -/
theorem receive_byte (h : Setting Q K f defs) (ho : ResponsesFit K shared) {b : Buf (Link σ)} {up down : List Byte} {w : σ} {rs : List (Req K)}
    {p t : List Byte} {x : Byte} (hr : Reachable Q K f (hosted defs) shared (b, ⟨up, down, w⟩))
    (hf : ∀ r ∈ rs, Val.FitsAll (Safe Q K.s) r.decl.sig.params r.args) (hp : Pending b p)
    (hlt : ∀ r rs', rs = r :: rs' → p.length < r.bytes.length) (he : p ++ x :: t = flat rs) :
    ∃ r rs', rs = r :: rs' ∧
      ((∃ b', Buf.put Q x (b, ⟨up, down, w⟩) = .ret .loading (b', ⟨up, down, w⟩) ∧
          Reachable Q K f (hosted defs) shared (b', ⟨up, down, w⟩) ∧ Pending b' (p ++ [x]) ∧ (p ++ [x]).length < r.bytes.length) ∨
        (t = flat rs' ∧ match defs r.decl.name r.args w with
          | .ret _ w' => ∃ b', Buf.put Q x (b, ⟨up, down, w⟩) = .ret .resolved (b', ⟨up, down, w'⟩) ∧
              Reachable Q K f (hosted defs) shared (b', ⟨up, down, w'⟩) ∧ Pending b' []
          | .threw w' => ∃ b', Buf.put Q x (b, ⟨up, down, w⟩) = .threw (b', ⟨up, down, w'⟩)
          | .fault e => Buf.put Q x (b, ⟨up, down, w⟩) = .fault e)) := by
  cases rs with
  | nil => exact absurd he (by simp [flat])
  | cons r rs' =>
    refine ⟨r, rs', rfl, ?_⟩
    have hfr := hf r (by simp)
    obtain ⟨rest, h1, h2⟩ := append_split he (hlt r rs' rfl)
    by_cases hrest : rest = []
    · right
      subst hrest
      refine ⟨h2, ?_⟩
      have h5 := C39_resolved (hosted_setting h) hr r.hi hfr (ho _ r.mem) h1 hp
      cases hd : defs r.decl.name r.args w with
      | fault e =>
        rw [show hosted defs (K.decls[r.i]'r.hi).name r.args ⟨up, down, w⟩ = .fault e from hosted_fault (l := ⟨up, down, w⟩) hd] at h5
        exact h5
      | threw w' =>
        rw [show hosted defs (K.decls[r.i]'r.hi).name r.args ⟨up, down, w⟩ = .threw ⟨up, down, w'⟩ from
          hosted_threw (l := ⟨up, down, w⟩) hd] at h5
        exact h5
      | ret v w' =>
        rw [show hosted defs (K.decls[r.i]'r.hi).name r.args ⟨up, down, w⟩ = .ret v ⟨up, down, w'⟩ from
          hosted_ret (l := ⟨up, down, w⟩) hd] at h5
        obtain ⟨b', h6, h7, _⟩ := h5
        exact ⟨b', h6, reachable_op hr (.put x) trivial (Eff.bind_ret h6), h7⟩
    · left
      obtain ⟨b', h3, h4, _⟩ := C39_loading (hosted_setting h) hr r.hi hfr h1 hrest hp
      refine ⟨b', h3, reachable_op hr (.put x) trivial (Eff.bind_ret h3), h4, ?_⟩
      have : 0 < rest.length := List.length_pos_iff.2 hrest
      rw [h1]
      simp
      omega

theorem receiveLoop_put {last : Eff (BState (Link σ)) Unit} {m : Nat} {x : Byte} {up down : List Byte} {w w' : σ} {b b' : Buf (Link σ)}
    {st : Status} (hst : st ≠ .dropped) (h : Buf.put Q x (b, (⟨up, down, w⟩ : Link σ)) = .ret st (b', ⟨up, down, w'⟩)) :
    receiveLoop Q last (m + 1) (b, ⟨x :: up, down, w⟩) = receiveLoop Q last m (b', ⟨up, down, w'⟩) := by
  have hrd : onWorld (wireRead (σ := σ)) (b, (⟨x :: up, down, w⟩ : Link σ)) = .ret x (b, ⟨up, down, w⟩) := rfl
  refine (Eff.bind_ret hrd).trans ((Eff.bind_ret h).trans ?_)
  cases st with
  | dropped => exact absurd rfl hst
  | resolved => rfl
  | loading => rfl

theorem receiveLoop_dropped {last : Eff (BState (Link σ)) Unit} {m : Nat} {x : Byte} {up down : List Byte} {w w' : σ} {b b' : Buf (Link σ)}
    (h : Buf.put Q x (b, (⟨up, down, w⟩ : Link σ)) = .ret .dropped (b', ⟨up, down, w'⟩)) :
    receiveLoop Q last (m + 1) (b, ⟨x :: up, down, w⟩) = .ret () (b', ⟨up, down, w'⟩) := by
  have hrd : onWorld (wireRead (σ := σ)) (b, (⟨x :: up, down, w⟩ : Link σ)) = .ret x (b, ⟨up, down, w⟩) := rfl
  exact (Eff.bind_ret hrd).trans (Eff.bind_ret h)

/-- Bytes of requests, up to any of them: `done` are the calls they complete. -/
theorem receiveLoop_requests (h : Setting Q K f defs) (ho : ResponsesFit K shared) {last : Eff (BState (Link σ)) Unit} :
    ∀ (m : List Byte) {rs : List (Req K)} {p rest : List Byte} {b : Buf (Link σ)} {up down : List Byte} {w : σ} (k : Nat),
      Reachable Q K f (hosted defs) shared (b, ⟨m ++ up, down, w⟩) → (∀ r ∈ rs, Val.FitsAll (Safe Q K.s) r.decl.sig.params r.args) →
      Pending b p → (∀ r rs', rs = r :: rs' → p.length < r.bytes.length) → p ++ m ++ rest = flat rs →
      ∃ done rs', rs = done ++ rs' ∧ match localCalls defs (done.map Req.call) w with
        | .ret _ w' => ∃ b' p', receiveLoop Q last (m.length + k) (b, ⟨m ++ up, down, w⟩) = receiveLoop Q last k (b', ⟨up, down, w'⟩) ∧
            Reachable Q K f (hosted defs) shared (b', ⟨up, down, w'⟩) ∧ Pending b' p' ∧ (∀ r rs'', rs' = r :: rs'' → p'.length < r.bytes.length) ∧
            p' ++ rest = flat rs'
        | .threw w' => ∃ b' up', receiveLoop Q last (m.length + k) (b, ⟨m ++ up, down, w⟩) = .threw (b', ⟨up', down, w'⟩)
        | .fault e => receiveLoop Q last (m.length + k) (b, ⟨m ++ up, down, w⟩) = .fault e
  | [], rs, p, rest, b, up, down, w, k, hr, hf, hp, hlt, he => by
    refine ⟨[], rs, rfl, b, p, ?_, hr, hp, hlt, by simpa using he⟩
    simp
  | x :: m, rs, p, rest, b, up, down, w, k, hr, hf, hp, hlt, he => by
    have hr1 := reachable_world hr (⟨m ++ up, down, w⟩ : Link σ)
    obtain ⟨r, rs', rfl, h1⟩ := receive_byte h ho hr1 hf hp hlt (t := m ++ rest) (x := x) (by rw [← he]; simp)
    have hk : (x :: m).length + k = (m.length + k) + 1 := by simp; omega
    rw [hk]
    rcases h1 with ⟨b', h2, h3, h4, h5⟩ | ⟨ht, h2⟩
    · obtain ⟨done, rs2, h6, h7⟩ := receiveLoop_requests h ho (last := last) m k h3 hf h4 (fun r1 rs1 he1 => by
        obtain ⟨rfl, _⟩ := List.cons.inj he1; exact h5) (rest := rest) (by rw [← he]; simp)
      refine ⟨done, rs2, h6, ?_⟩
      have e : receiveLoop Q last (m.length + k + 1) (b, ⟨x :: m ++ up, down, w⟩) = receiveLoop Q last (m.length + k) (b', ⟨m ++ up, down, w⟩) :=
        receiveLoop_put (by simp) h2
      rw [e]
      exact h7
    · have hrd : onWorld (wireRead (σ := σ)) (b, (⟨x :: m ++ up, down, w⟩ : Link σ)) = .ret x (b, ⟨m ++ up, down, w⟩) := rfl
      cases hd : defs r.decl.name r.args w with
      | fault e =>
        rw [hd] at h2
        have hl : localCalls defs ([r].map Req.call) w = .fault e := Eff.bind_fault hd
        refine ⟨[r], rs', rfl, ?_⟩
        rw [hl]
        exact (Eff.bind_ret hrd).trans (Eff.bind_fault h2)
      | threw w' =>
        rw [hd] at h2
        have hl : localCalls defs ([r].map Req.call) w = .threw w' := Eff.bind_threw hd
        refine ⟨[r], rs', rfl, ?_⟩
        rw [hl]
        obtain ⟨b', h3⟩ := h2
        exact ⟨b', _, (Eff.bind_ret hrd).trans (Eff.bind_threw h3)⟩
      | ret v w' =>
        rw [hd] at h2
        obtain ⟨b', h3, h4, h5⟩ := h2
        obtain ⟨done, rs2, h6, h7⟩ := receiveLoop_requests h ho (last := last) m k h4 (fun r1 hr1 => hf r1 (List.mem_cons_of_mem _ hr1)) h5
          (first_lt h.ring) (rest := rest) (by rw [List.nil_append]; exact ht)
        refine ⟨r :: done, rs2, by rw [h6]; rfl, ?_⟩
        have e : receiveLoop Q last (m.length + k + 1) (b, ⟨x :: m ++ up, down, w⟩) = receiveLoop Q last (m.length + k) (b', ⟨m ++ up, down, w'⟩) :=
          receiveLoop_put (by simp) h3
        rw [e]
        have hl : localCalls defs ((r :: done).map Req.call) w =
            (localCalls defs (done.map Req.call) >>= fun vs => (pure (v :: vs) : Eff σ _)) w' := Eff.bind_ret hd
        rw [hl]
        cases hc : localCalls defs (done.map Req.call) w' with
        | fault e => rw [hc] at h7; rw [Eff.bind_fault hc]; exact h7
        | threw w2 => rw [hc] at h7; rw [Eff.bind_threw hc]; exact h7
        | ret vs w2 => rw [hc] at h7; rw [Eff.bind_ret hc]; exact h7

/-- An index which is not the one of a function. -/
theorem receiveLoop_index (h : Setting Q K f defs) {last : Eff (BState (Link σ)) Unit} : ∀ (m : List Byte) {l : List Byte} {b : Buf (Link σ)}
      {up down : List Byte} {w : σ} (k : Nat), Reachable Q K f (hosted defs) shared (b, ⟨m ++ up, down, w⟩) → Pending b l → m ≠ [] →
      l.length + m.length = K.idxBytes → K.decls.length ≤ wireValue K.e (l ++ m) →
    ∃ b', receiveLoop Q last (m.length + k) (b, ⟨m ++ up, down, w⟩) = .ret () (b', ⟨up, down, w⟩) ∧
      Reachable Q K f (hosted defs) shared (b', ⟨up, down, w⟩) ∧ Pending b' []
  | [], l, b, up, down, w, k, _, _, hne, _, _ => absurd rfl hne
  | x :: m, l, b, up, down, w, k, hr, hp, _, hl, hi => by
    have hr1 := reachable_world hr (⟨m ++ up, down, w⟩ : Link σ)
    have hk : (x :: m).length + k = (m.length + k) + 1 := by simp; omega
    rw [hk]
    by_cases hm : m = []
    · subst hm
      obtain ⟨b', h1, h2, _⟩ := C40_dropped (hosted_setting h) hr1 (by simpa using hl) hi hp
      exact ⟨b', receiveLoop_dropped h1, reachable_op hr1 (.put x) trivial (Eff.bind_ret h1), h2⟩
    · have : 0 < m.length := List.length_pos_iff.2 hm
      simp only [List.length_cons] at hl
      obtain ⟨b1, h1, h2⟩ := C40_loading (hosted_setting h) hr1 (l := l) (x := x) (by omega) hp
      have hr2 := reachable_op hr1 (.put x) trivial (Eff.bind_ret h1)
      obtain ⟨b2, h3, h4, h5⟩ := receiveLoop_index h (last := last) m (l := l ++ [x]) k hr2 h2 hm (by simp; omega) (by simpa using hi)
      have e : receiveLoop Q last (m.length + k + 1) (b, ⟨x :: m ++ up, down, w⟩) = receiveLoop Q last (m.length + k) (b1, ⟨m ++ up, down, w⟩) :=
        receiveLoop_put (by simp) h1
      exact ⟨b2, by rw [e]; exact h3, h4, h5⟩


/-- Calls made after others. -/
theorem localCalls_append (defs : Nat → List Val → Eff σ (Option Val)) (cs cs' : List (Nat × List Val)) :
    localCalls defs (cs ++ cs') = localCalls defs cs >>= fun rs => localCalls defs cs' >>= fun rs' => pure (rs ++ rs') := by
  induction cs with
  | nil => simp [localCalls]
  | cons c cs ih =>
    obtain ⟨name, args⟩ := c
    simp [localCalls, ih]

theorem localCalls_append_threw {cs cs' : List (Nat × List Val)} {w w' : σ} (h : localCalls defs cs w = .threw w') :
    localCalls defs (cs ++ cs') w = .threw w' := by
  rw [localCalls_append]
  exact Eff.bind_threw h

theorem localCalls_append_fault {cs cs' : List (Nat × List Val)} {w : σ} {e : Fault} (h : localCalls defs cs w = .fault e) :
    localCalls defs (cs ++ cs') w = .fault e := by
  rw [localCalls_append]
  exact Eff.bind_fault h

/-- Nothing to read. -/
theorem receiveLoop_nothing (h : Setting Q K f defs) {last : Eff (BState (Link σ)) Unit} : ∀ (m : Nat) {l : Nat} {b : Buf (Link σ)}
      {down : List Byte} {w : σ} (k : Nat), Reachable Q K f (hosted defs) shared (b, ⟨[], down, w⟩) → Pending b (List.replicate l 255#8) → 0 < m →
      l + m = K.idxBytes → K.decls.length ≤ wireValue K.e (List.replicate K.idxBytes 255#8) →
    ∃ b', receiveLoop Q last (m + k) (b, ⟨[], down, w⟩) = .ret () (b', ⟨[], down, w⟩) ∧
      Reachable Q K f (hosted defs) shared (b', ⟨[], down, w⟩) ∧ Pending b' []
  | 0, l, b, down, w, k, _, _, hne, _, _ => absurd hne (Nat.lt_irrefl _)
  | m + 1, l, b, down, w, k, hr, hp, _, hl, hi => by
    have hk : m + 1 + k = (m + k) + 1 := by omega
    rw [hk]
    have hrd : onWorld (wireRead (σ := σ)) (b, (⟨[], down, w⟩ : Link σ)) = .ret 255#8 (b, ⟨[], down, w⟩) := rfl
    have hl1 : List.replicate l 255#8 ++ [255#8] = List.replicate (l + 1) 255#8 := List.replicate_succ'.symm
    by_cases hm : m = 0
    · subst hm
      obtain ⟨b', h1, h2, _⟩ := C40_dropped (hosted_setting h) hr (l := List.replicate l 255#8) (x := 255#8) (by simpa using hl)
        (by rw [hl1, show l + 1 = K.idxBytes by omega]; exact hi) hp
      exact ⟨b', (Eff.bind_ret hrd).trans (Eff.bind_ret h1), reachable_op hr (.put _) trivial (Eff.bind_ret h1), h2⟩
    · obtain ⟨b1, h1, h2⟩ := C40_loading (hosted_setting h) hr (l := List.replicate l 255#8) (x := 255#8) (by simp; omega) hp
      have hr2 := reachable_op hr (.put _) trivial (Eff.bind_ret h1)
      rw [hl1] at h2
      obtain ⟨b2, h3, h4, h5⟩ := receiveLoop_nothing h (last := last) m k hr2 h2 (by omega) (by omega) hi
      exact ⟨b2, (Eff.bind_ret hrd).trans ((Eff.bind_ret h1).trans h3), h4, h5⟩

theorem leValue_ones (n : Nat) : leValue (List.replicate n 255#8) + 1 = 256 ^ n := by
  induction n with
  | zero => rfl
  | succ n ih =>
    rw [List.replicate_succ, leValue, Nat.pow_succ]
    have : (255#8 : Byte).toNat = 255 := rfl
    omega

theorem wireValue_ones (e : Endian) (n : Nat) : wireValue e (List.replicate n 255#8) + 1 = 256 ^ n := by
  cases e
  · exact leValue_ones n
  · show leValue (List.replicate n 255#8).reverse + 1 = _
    rw [List.reverse_replicate]
    exact leValue_ones n

/-- A byte sequence of which all bits are 1 is never the index of a function. -/
theorem ones_invalid (hK : KeyringOk K) : K.decls.length ≤ wireValue K.e (List.replicate K.idxBytes 255#8) := by
  have h1 := wireValue_ones K.e K.idxBytes
  have h2 : K.decls.length < 256 ^ K.idxBytes := (idxBytes_pos hK.1).2
  omega

/-- The result of a handler called on a transmission which carries `calls`. -/
def Received (Q : Platform) (K : Keyring) (f : Features) (defs : Nat → List Val → Eff σ (Option Val)) (shared : Bool) (calls : List (Nat × List Val))
    (down : List Byte) (w : σ) (r : Res (BState (Link σ)) Unit) : Prop :=
  match localCalls defs calls w with
  | .ret _ w' => ∃ b' up', r = .ret () (b', ⟨up', down, w'⟩) ∧ Reachable Q K f (hosted defs) shared (b', ⟨up', down, w'⟩) ∧ Pending b' []
  | .threw w' => ∃ b' up', r = .threw (b', ⟨up', down, w'⟩)
  | .fault e => r = .fault e

theorem onReceive_nothing (h : Setting Q K f defs) {b : Buf (Link σ)} {down : List Byte} {w : σ}
    (hr : Reachable Q K f (hosted defs) shared (b, ⟨[], down, w⟩)) (hp : Pending b []) :
    ∃ b', onReceive Q 0 (b, ⟨[], down, w⟩) = .ret () (b', ⟨[], down, w⟩) ∧
      Reachable Q K f (hosted defs) shared (b', ⟨[], down, w⟩) ∧ Pending b' [] := by
  have hpos := (idxBytes_pos h.ring.1).1
  have hle : K.idxBytes ≤ 8 := by
    rcases smallestUnsigned_cases K.decls.length h.ring.1 with h | h | h | h <;>
      (have h3 : K.idxBytes = smallestUnsigned K.decls.length := rfl; omega)
  have h3 : K.idxBytes = smallestUnsigned K.decls.length := rfl
  have hint : 2 ^ 15 ≤ 2 ^ (8 * Q.intBytes - 1) := Nat.pow_le_pow_right (by decide) (by have := h.valid.int_ge; omega)
  obtain ⟨k, hk⟩ : ∃ k, 2 ^ (8 * Q.intBytes - 1) + 1 = K.idxBytes + k := ⟨2 ^ (8 * Q.intBytes - 1) + 1 - K.idxBytes, by omega⟩
  unfold onReceive
  rw [if_pos rfl, hk]
  exact receiveLoop_nothing h K.idxBytes (l := 0) k hr hp (by omega) (by omega) (ones_invalid h.ring)

theorem flat_nil (hK : KeyringOk K) {rs : List (Req K)} (h : flat rs = []) : rs = [] := by
  cases rs with
  | nil => rfl
  | cons r rs =>
    rw [flat_cons] at h
    have h1 := r.bytes_pos hK
    have h2 : (r.bytes ++ flat rs).length = 0 := by rw [h]; rfl
    rw [List.length_append] at h2
    omega

/-- All the bytes of requests which begin and end with the transmission. -/
theorem receiveLoop_whole (h : Setting Q K f defs) (ho : ResponsesFit K shared) {last : Eff (BState (Link σ)) Unit} {calls : List (Nat × List Val)}
    {bs : List Byte} (hc : Requests Q K calls bs) (k : Nat) {b : Buf (Link σ)} {up down : List Byte} {w : σ}
    (hr : Reachable Q K f (hosted defs) shared (b, ⟨bs ++ up, down, w⟩)) (hp : Pending b []) :
    match localCalls defs calls w with
    | .ret _ w' => ∃ b', receiveLoop Q last (bs.length + k) (b, ⟨bs ++ up, down, w⟩) = receiveLoop Q last k (b', ⟨up, down, w'⟩) ∧
        Reachable Q K f (hosted defs) shared (b', ⟨up, down, w'⟩) ∧ Pending b' []
    | .threw w' => ∃ b' up', receiveLoop Q last (bs.length + k) (b, ⟨bs ++ up, down, w⟩) = .threw (b', ⟨up', down, w'⟩)
    | .fault e => receiveLoop Q last (bs.length + k) (b, ⟨bs ++ up, down, w⟩) = .fault e := by
  obtain ⟨rs, rfl, rfl, hf⟩ := requests_reqs hc
  obtain ⟨done, rs', h1, h2⟩ := receiveLoop_requests h ho (last := last) (flat rs) k hr hf hp (first_lt h.ring) (rest := []) (by simp)
  cases hl : localCalls defs (done.map Req.call) w with
  | ret vs w' =>
    rw [hl] at h2
    obtain ⟨b', p', h3, h4, h5, h6, h7⟩ := h2
    have h8 : rs' = [] := by
      cases rs' with
      | nil => rfl
      | cons r rs'' =>
        have h9 := h6 r rs'' rfl
        rw [List.append_nil, flat_cons] at h7
        rw [h7, List.length_append] at h9
        omega
    subst h8
    rw [List.append_nil] at h1 h7
    subst h1
    rw [hl]
    subst h7
    exact ⟨b', h3, h4, h5⟩
  | threw w' =>
    rw [hl] at h2
    have : localCalls defs (rs.map Req.call) w = .threw w' := by
      rw [h1, List.map_append]
      exact localCalls_append_threw hl
    rw [this]
    exact h2
  | fault e =>
    rw [hl] at h2
    have : localCalls defs (rs.map Req.call) w = .fault e := by
      rw [h1, List.map_append]
      exact localCalls_append_fault hl
    rw [this]
    exact h2

end Upd
