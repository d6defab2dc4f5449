import Verif.Lemmas.Probe
import Verif.Props.Demo

/-!
# C105. What the peer of a callee can learn: what the functions return, and nothing else
-/

namespace Upd
open Spec

variable {σ σ' τ τ' α : Type}

/-- The keyring of the examples: `void store(uint16_t)`, `uint8_t count()`. -/
def vaultRing : Keyring := ⟨.little, .twosComplement, [⟨1, [.uint 2], none⟩, ⟨2, [], some (.uint 1)⟩]⟩

/-- Keeps the values. -/
def vaultDefs : Nat → List Val → Eff (List Val) (Option Val) := fun name args w =>
  match name, args with
  | 1, [v] => .ret none (v :: w)
  | 2, [] => .ret (some (.int (w.length % 256 : Nat))) w
  | _, _ => .ret none w

/-- Keeps their number only. -/
def tallyDefs : Nat → List Val → Eff Nat (Option Val) := fun name args w =>
  match name, args with
  | 1, [_] => .ret none (w + 1)
  | 2, [] => .ret (some (.int (w % 256 : Nat))) w
  | _, _ => .ret none w

theorem vault_ring_ok : KeyringOk vaultRing := by
  refine ⟨by decide, ?_⟩
  simp [vaultRing, SigOk, Ty.WFs, Ty.WF, PackedAll, Packed]

/-- The number is the one of the values. -/
def Tally (l : List Val) (n : Nat) : Prop := l.length = n

theorem vault_tally : Indistinct pc vaultRing Tally vaultDefs tallyDefs := by
  intro d _ args _ l n h
  cases h
  unfold vaultDefs tallyDefs
  split
  · exact ⟨rfl, rfl⟩
  · exact ⟨rfl, rfl⟩
  · exact ⟨rfl, rfl⟩

/-- C105, unbuffered dispatchers (data refinement). If the functions of a keyring are defined on two kinds of states, and behave alike from related states (same
results, exceptions and faults, related states afterwards), then so do the dispatchers which serve them: same bytes got, same bytes put, same index returned,
and related states afterwards. `T` relates the states of the two programs, and contains the relation of the states of the functions, wherever these are. -/
theorem C105_dispatcher {P : Platform} (hP : P.Valid) {K : Keyring} (hK : KeyringOk K) (hs : Supported P K.e K.s) {f : Features} {R : σ → σ' → Prop}
    {defs : Nat → List Val → Eff σ (Option Val)} {defs' : Nat → List Val → Eff σ' (Option Val)} (h : Indistinct P K R defs defs') {T : τ → τ' → Prop}
    {L : Lens τ σ} {L' : Lens τ' σ'} (hg : ∀ t t', T t t' → R (L.get t) (L'.get t')) (hp : ∀ t t' w w', T t t' → R w w' → T (L.put w t) (L'.put w' t'))
    {src : Eff τ Byte} {src' : Eff τ' Byte} (hsrc : SameRun T src src') {dest : Byte → Eff τ Unit} {dest' : Byte → Eff τ' Unit}
    (hd : ∀ b, SameRun T (dest b) (dest' b)) :
    SameRun T ((Dispatcher.make K f defs).run P L src dest) ((Dispatcher.make K f defs').run P L' src' dest') :=
  SimV.run hP hs (DispSim.make hK h) hg hp hsrc hd

/-- `C105_dispatcher`: bytes from a list, which are the requests `store(0x0102)` and `count()`; responses to another list. -/
example (l : List Val) :
    let src {S : Type} : Eff ((List Byte × List Byte) × S) Byte := fun t => match t.1.1 with | [] => .threw t | x :: xs => .ret x ((xs, t.1.2), t.2)
    let dest {S : Type} (x : Byte) : Eff ((List Byte × List Byte) × S) Unit := fun t => .ret () ((t.1.1, t.1.2 ++ [x]), t.2)
    Related (Beside Tally) (· = ·)
      ((Dispatcher.make vaultRing .any vaultDefs).run pc ⟨Prod.snd, fun x y => (y.1, x)⟩ src dest (([0#8, 2#8, 1#8, 1#8], []), l))
      ((Dispatcher.make vaultRing .any tallyDefs).run pc ⟨Prod.snd, fun x y => (y.1, x)⟩ src dest (([0#8, 2#8, 1#8, 1#8], []), l.length)) :=
  C105_dispatcher (T := Beside Tally) pc_valid vault_ring_ok (pc_supported _ _) vault_tally (fun _ _ h => h.2) (fun _ _ _ _ h hw => ⟨h.1, hw⟩)
    (by
      rintro ⟨⟨xs, ys⟩, l⟩ ⟨⟨xs', ys'⟩, n⟩ ⟨h1, h2⟩
      cases h1
      cases xs with
      | nil => exact ⟨rfl, h2⟩
      | cons x xs => exact ⟨rfl, rfl, h2⟩)
    (by
      rintro b ⟨⟨xs, ys⟩, l⟩ ⟨⟨xs', ys'⟩, n⟩ ⟨h1, h2⟩
      cases h1
      exact ⟨rfl, rfl, h2⟩) _ _ ⟨rfl, rfl⟩

/-- C105, buffered dispatchers. Whatever the program which holds the dispatcher does with it (`put`, `get`, `is_loaded`, `read_from`, `write_to`, `operator()`,
`reply`, exceptions being caught), and whatever it does besides, each step depending on what the previous ones have returned: it has the same outcome with
functions which behave alike, from related states. -/
theorem C105_holder {P : Platform} (hP : P.Valid) {K : Keyring} (hK : KeyringOk K) (hs : Supported P K.e K.s) {f : Features} {L S S' : Type} {R : S → S' → Prop}
    {defs : Nat → List Val → Eff (L × S) (Option Val)} {defs' : Nat → List Val → Eff (L × S') (Option Val)} (h : Indistinct P K (Beside R) defs defs')
    (sizeMax : Nat) (shared : Bool) (p : Holder L α) {s : S} {s' : S'} (hw : R s s') (l : L) :
    forget (p.run P (fresh P K f defs sizeMax shared, (l, s))) = forget (p.run P (fresh P K f defs' sizeMax shared, (l, s'))) :=
  holder_sim hP p ⟨BufSim.fresh hK hs h sizeMax shared, rfl, hw⟩

/-- The functions, beside the state of the holder, which they do not use. -/
def apart (L : Type) (defs : Nat → List Val → Eff σ (Option Val)) : Nat → List Val → Eff (L × σ) (Option Val) :=
  fun name args => Eff.zoom ⟨Prod.snd, fun x y => (y.1, x)⟩ (defs name args)

theorem vault_tally_apart (L : Type) : Indistinct pc vaultRing (Beside Tally) (apart L vaultDefs) (apart L tallyDefs) := by
  intro d hd args hf
  exact SimV.zoom (fun _ _ h => h.2) (fun _ _ _ _ h hw => ⟨h.1, hw⟩) (vault_tally d hd args hf)

/-- `C105_holder`: functions which do not use the state of the holder. -/
example (l : List Byte × List Byte) (s : List Val) (p : Holder (List Byte × List Byte) α) (shared : Bool) :
    forget (p.run pc (fresh pc vaultRing .any (apart _ vaultDefs) (2 ^ 64 - 1) shared, (l, s))) =
      forget (p.run pc (fresh pc vaultRing .any (apart _ tallyDefs) (2 ^ 64 - 1) shared,
        (l, s.length))) :=
  C105_holder (R := Tally) pc_valid vault_ring_ok (pc_supported _ _) (vault_tally_apart _) _ _ p rfl l

/-- C105, secrecy. Let `low` be a part of the state of the functions, on which alone their results depend, and such that what it becomes depends on it alone. Then
the peer of the callee, whatever the bytes which it sends and whenever it reads, learns nothing about the rest of the state. (In particular the contents of
uninitialised or stale bytes of the buffers, which `get` may give, do not depend on it.) -/
theorem C105_secrecy {P : Platform} (hP : P.Valid) {K : Keyring} (hK : KeyringOk K) (hs : Supported P K.e K.s) {f : Features} {ρ : Type} (low : σ → ρ)
    {defs : Nat → List Val → Eff σ (Option Val)} (h : Indistinct P K (fun w w' => low w = low w') defs defs) (sizeMax : Nat) (shared : Bool) (p : Observer α)
    {w w' : σ} (hw : low w = low w') :
    forget (p.run P (fresh P K f defs sizeMax shared, w)) = forget (p.run P (fresh P K f defs sizeMax shared, w')) :=
  observer_sim hP p ⟨BufSim.fresh hK hs h sizeMax shared, hw⟩

theorem vault_low : Indistinct pc vaultRing (fun l l' => l.length = l'.length) vaultDefs vaultDefs := by
  intro d _ args _ l l' h
  unfold vaultDefs
  split
  · exact ⟨rfl, by simp [h]⟩
  · exact ⟨by rw [h], h⟩
  · exact ⟨rfl, h⟩

/-- `C105_secrecy`: the values stored before are not known, only their number. -/
example (p : Observer α) (shared : Bool) : forget (p.run pc (fresh pc vaultRing .any vaultDefs (2 ^ 64 - 1) shared, [.int 1234, .int 5])) =
    forget (p.run pc (fresh pc vaultRing .any vaultDefs (2 ^ 64 - 1) shared, [.int 0, .int 77])) :=
  C105_secrecy pc_valid vault_ring_ok (pc_supported _ _) List.length vault_low _ _ p rfl

/-- C105, exactly. If the functions do not throw, and their responses fit in the output buffer, no peer can tell two callees apart if and only if all the
sequences of calls of their functions, on arguments which can be sent, have the same results: the peer learns all that calls would tell, and nothing else. -/
theorem C105_exact {P : Platform} {K : Keyring} {f : Features} {defs : Nat → List Val → Eff σ (Option Val)} {defs' : Nat → List Val → Eff σ' (Option Val)}
    (h : Setting P K f defs) (h' : Setting P K f defs') (hn : NeverThrow K defs) (hn' : NeverThrow K defs') (sizeMax : Nat) {shared : Bool}
    (ho : ResponsesFit K shared) (w : σ) (w' : σ') :
    (∀ (α : Type) (p : Observer α), forget (p.run P (fresh P K f defs sizeMax shared, w)) = forget (p.run P (fresh P K f defs' sizeMax shared, w'))) ↔
      ∀ calls, CallsFit P K calls → forget (asked K defs calls w) = forget (asked K defs' calls w') := by
  constructor
  · intro hp calls hc
    have h1 := hp _ (Observer.probe K calls [])
    have h2 := probe_run h hn calls [] (w := w) hc (fresh_rel h sizeMax shared).inp (fresh_ok h sizeMax shared) (fresh_outRoom ho)
    have h3 := probe_run h' hn' calls [] (w := w') hc (fresh_rel h' sizeMax shared).inp (fresh_ok h' sizeMax shared) (fresh_outRoom ho)
    cases ha : asked K defs calls w with
    | threw t => rw [ha] at h2; exact h2.elim
    | fault t =>
      rw [ha] at h2
      cases ha' : asked K defs' calls w' with
      | threw t => rw [ha'] at h3; exact h3.elim
      | fault t => rw [ha'] at h3; rw [h2, h3] at h1; cases h1; rfl
      | ret rs t => rw [ha'] at h3; obtain ⟨b, h3⟩ := h3; rw [h2, h3] at h1; cases h1
    | ret rs t =>
      rw [ha] at h2
      obtain ⟨b, h2⟩ := h2
      cases ha' : asked K defs' calls w' with
      | threw t => rw [ha'] at h3; exact h3.elim
      | fault t => rw [ha'] at h3; rw [h2, h3] at h1; cases h1
      | ret rs' t' =>
        rw [ha'] at h3
        obtain ⟨b', h3⟩ := h3
        rw [h2, h3] at h1
        simp only [forget, List.nil_append, Res.ret.injEq, and_true] at h1
        rw [encs_inj h h' hc ha ha' h1]
        rfl
  · intro hc α p
    exact observer_sim h.valid p ⟨BufSim.fresh h.ring h.sup (asked_sim hn) sizeMax shared, hc⟩

theorem vault_setting (f : Features) : Setting pc vaultRing f vaultDefs where
  valid := pc_valid
  ring := vault_ring_ok
  sup := pc_supported _ _
  sizes := by simp [vaultRing, Ty.sizeof, wireSize]
  typed := by
    simp only [vaultRing, List.mem_cons, List.not_mem_nil, or_false, forall_eq_or_imp, forall_eq]
    refine ⟨?_, ?_⟩
    · intro args w r w' hf h
      match args, hf with
      | [v], _ => cases h; trivial
    · intro args w r w' hf h
      match args, hf with
      | [], _ =>
        cases h
        simp only [RetOk, Val.Fits]
        omega

theorem tally_setting (f : Features) : Setting pc vaultRing f tallyDefs where
  valid := pc_valid
  ring := vault_ring_ok
  sup := pc_supported _ _
  sizes := by simp [vaultRing, Ty.sizeof, wireSize]
  typed := by
    simp only [vaultRing, List.mem_cons, List.not_mem_nil, or_false, forall_eq_or_imp, forall_eq]
    refine ⟨?_, ?_⟩
    · intro args w r w' hf h
      match args, hf with
      | [v], _ => cases h; trivial
    · intro args w r w' hf h
      match args, hf with
      | [], _ =>
        cases h
        simp only [RetOk, Val.Fits]
        omega

theorem vault_noThrow : NeverThrow vaultRing vaultDefs := by
  intro d _ args w w' h
  unfold vaultDefs at h
  split at h <;> cases h

theorem tally_noThrow : NeverThrow vaultRing tallyDefs := by
  intro d _ args w w' h
  unfold tallyDefs at h
  split at h <;> cases h

theorem vault_fit (shared : Bool) : ResponsesFit vaultRing shared := by
  have h1 : neededOutput vaultRing = 2 := rfl
  have h2 : neededInput vaultRing = 3 := rfl
  unfold ResponsesFit
  rw [h1, h2]
  cases shared <;> simp [vaultRing, retSize, wireSize]

/-- `C105_exact`: two values stored, or three; a peer can tell. -/
example (shared : Bool) : ¬ ∀ (α : Type) (p : Observer α), forget (p.run pc (fresh pc vaultRing .any vaultDefs (2 ^ 64 - 1) shared, [.int 1234, .int 5])) =
    forget (p.run pc (fresh pc vaultRing .any tallyDefs (2 ^ 64 - 1) shared, 3)) := by
  rw [C105_exact (vault_setting _) (tally_setting _) vault_noThrow tally_noThrow _ (vault_fit shared)]
  intro h
  have h1 := h [(1, [])] (fun c hc => by rw [List.mem_singleton.1 hc]; exact ⟨_, rfl, trivial⟩)
  cases h1

end Upd
