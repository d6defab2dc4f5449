import Verif.Lemmas.Tower
import Verif.Props.Retry

/-!
# Layers of devices

C110: devices in a row, of any platforms and with any keyrings, whose functions are programs which call the functions of the next device, behave as ordinary functions which call each other.
-/

namespace Upd
open Spec TypeList

variable {σ α : Type} {P : Platform} {ts : List (Tier σ)}

/-- C110. A program which calls the functions of the first device, whose bodies call the functions of the second device, and so on, has the outcome of the same program where everything is an ordinary
function: same result, same effects on the rest of the world, same exception, same undefined behaviour. If it ends, no byte is left on any link, and every dispatcher is ready for the next request. -/
theorem C110_layers (h : TowerOk P ts) {post : α → Prop} (prog : Talk σ α) (hp : TalkSound P post ts prog) {W : Tower σ ts} (hw : Settled ts W) :
    TowerOutcome ts (ordinary (layered ts) prog ((Tower.rest ts).get W)) (prog.on (Tower.rest ts) (Tower.call ts P) W) :=
  talk_on (tower_call ts P h) prog hp W hw

/-- C110. Such a program ends with values as expected (`post`), if it ends, even if the links and the dispatchers were in any other state. -/
theorem C110_types (hP : P.Valid) (h : TowerOk P ts) {post : α → Prop} (prog : Talk σ α) (hp : TalkSound P post ts prog) {W W' : Tower σ ts} {a : α}
    (hr : prog.on (Tower.rest ts) (Tower.call ts P) W = .ret a W') : post a :=
  sound_post hP (towerOk_head h) prog hp W W' a hr

/-- C110. New devices are ready. -/
theorem C110_new (sizeMax : Nat) (w : σ) : ∀ (ts : List (Tier σ)), Settled ts (newTower sizeMax w ts) ∧ (Tower.rest ts).get (newTower sizeMax w ts) = w
  | [] => ⟨trivial, rfl⟩
  | ⟨.buffered P f shared, K, body⟩ :: ts =>
    have ih := C110_new sizeMax w ts
    ⟨⟨rfl, rfl, ⟨sizeMax, _, .start⟩, fresh_pending _ _ _ _ _ _, ih.1⟩, ih.2⟩
  | ⟨.unbuffered P f, K, body⟩ :: ts =>
    have ih := C110_new sizeMax w ts
    ⟨⟨rfl, rfl, ih.1⟩, ih.2⟩

/-- C110. A gateway: a device whose functions do nothing but call the functions of the same indices of the next device. Whatever the formats of the two keyrings, calling the gateway is calling the functions
of the next device. -/
theorem C110_gateway {g : Tier σ} (h : TowerOk P (g :: ts)) (hg : ∀ i d args, g.ring.decls[i]? = some d → g.body d.name args = .call i args .done)
    {W : Tower σ (g :: ts)} (hw : Settled (g :: ts) W) {i : Nat} {d : Decl} (hd : g.ring.decls[i]? = some d) {args : List Val}
    (hf : Val.FitsAll (Safe P g.ring.s) d.sig.params args) (hf' : Val.FitsAll (Safe g.node.plat g.ring.s) d.sig.params args) :
    TowerOutcome (g :: ts) (layered ts i args ((Tower.rest (g :: ts)).get W)) (Tower.call (g :: ts) P i args W) := by
  have h1 := (tower_call (g :: ts) P h W hw g d i args rfl hd hf hf').1
  have h2 : layered (g :: ts) i args = layered ts i args := by
    show (match g.ring.decls[i]? with | none => _ | some d => _) = _
    rw [hd]
    show ordinary (layered ts) (g.body d.name args) = _
    rw [hg i d args hd]
    exact bind_pure _
  rwa [h2] at h1

/-! Example: a computer calls a microcontroller, which has a function which calls functions of another device a number of times and adds up the results. The keyrings and formats are different. -/

/-- The functions of `dialDefs`, as programs. -/
def dialBody : Nat → List Val → Talk Nat (Option Val)
  | 1, [.int x] => .act (fun _ => .ret () x.toNat) (.done (some (.int x)))
  | 2, [] => .look fun w => .act (fun _ => .ret () ((w + 1) % 65536)) (.done (some (.int ((w + 1) % 65536 : Nat))))
  | 3, [.int x] => .act (fun _ => .ret () x.toNat) (.done none)
  | _, _ => .act (fun _ => .fault .illTyped) (.done none)

/-- Adds up `n` results of the function of index 1. -/
def collect : Nat → Nat → Talk Nat (Option Val)
  | 0, acc => .done (some (.int acc))
  | n + 1, acc => .call 1 [] fun r =>
    match r with
    | some (.int z) => collect n (acc + z.toNat)
    | _ => .done none

def sumRing : Keyring := ⟨.little, .offsetBinary, [⟨7, [.uint 1], some (.uint 4)⟩, ⟨9, [.uint 2], none⟩]⟩

def sumBody : Nat → List Val → Talk Nat (Option Val)
  | 7, [.int n] => collect n.toNat 0
  | 9, [.int n] => .call 2 [.int n] .done
  | _, _ => .done none

def sumTower : List (Tier Nat) := [⟨.unbuffered avr .any, sumRing, sumBody⟩, ⟨.buffered pc .any true, dialRing, dialBody⟩]

theorem collect_sound {P : Platform} {ts : List (Tier Nat)} (hts : ts.head?.map Tier.ring = some dialRing) : ∀ n acc, acc + n * 65535 < 2 ^ 32 →
    TalkSound P (fun r => ∃ z : Int, r = some (.int z) ∧ 0 ≤ z ∧ z < 2 ^ 32) ts (collect n acc)
  | 0, acc, h => ⟨acc, rfl, by omega, by omega⟩
  | n + 1, acc, h => by
    obtain ⟨t, ht, hr⟩ := Option.map_eq_some_iff.mp hts
    refine ⟨t, ⟨2, [], some (.uint 2)⟩, ht, by rw [hr]; rfl, trivial, trivial, ?_⟩
    intro r hr
    match r, hr with
    | some (.int z), hz =>
      have hz : 0 ≤ z ∧ z < 2 ^ 16 := by
        simpa [RetOk, Val.Fits] using hz
      exact collect_sound hts n (acc + z.toNat) (by omega)

theorem sumTower_ok : TowerOk pc sumTower := by
  refine ⟨pc_valid, pc_supported _ _, ⟨by decide, by simp [sumRing, SigOk, Ty.WFs, Ty.WF, PackedAll, Packed]⟩, ⟨avr_valid, avr_supported _ _⟩, ?_,
    avr_valid, avr_supported _ _, (dial_setting .any).ring, ⟨pc_valid, pc_supported _ _, dial_fit true, (dial_setting .any).sizes⟩, ?_, trivial⟩
  · simp only [sumRing, List.mem_cons, List.not_mem_nil, or_false, forall_eq_or_imp, forall_eq]
    refine ⟨?_, ?_⟩
    · intro args hf
      match args, hf with
      | [.int n], hf =>
        have hf : 0 ≤ n ∧ n < 2 ^ 8 := by simpa [Val.FitsAll, Val.Fits] using hf
        refine sound_mono ?_ _ (collect_sound rfl n.toNat 0 (by omega))
        rintro _ ⟨z, rfl, h1, h2⟩
        have : Val.Fits (Safe pc .offsetBinary) (.uint 4) (.int z) := ⟨h1, by simpa using h2⟩
        exact ⟨this, this⟩
    · intro args hf
      match args, hf with
      | [.int n], hf =>
        refine ⟨_, _, rfl, rfl, hf, hf, fun r hr => ?_⟩
        match r, hr with
        | none, _ => exact ⟨trivial, trivial⟩
  · simp only [dialRing, List.mem_cons, List.not_mem_nil, or_false, forall_eq_or_imp, forall_eq]
    refine ⟨?_, ?_, ?_⟩
    · intro args hf
      match args, hf with
      | [.int n], hf =>
        have hf : Val.Fits (Safe pc .twosComplement) (.uint 2) (.int n) := hf.1
        exact ⟨hf, hf⟩
    · intro args hf
      match args, hf with
      | [], hf =>
        intro w
        have : Val.Fits (Safe pc .twosComplement) (.uint 2) (.int ((w + 1) % 65536 : Nat)) := ⟨by omega, by omega⟩
        exact ⟨this, this⟩
    · intro args hf
      match args, hf with
      | [.int n], hf => exact ⟨trivial, trivial⟩

/-- Sets the counter to 40 through both devices, then asks for the sum of 3 values of the counter. -/
def summing : Talk Nat (Option Val) := .call 1 [.int 40] fun _ => .call 0 [.int 3] .done

theorem summing_sound : TalkSound pc (fun _ => True) sumTower summing := by
  have h1 : ∀ (P : Platform) (s : Mode), Val.FitsAll (Safe P s) [.uint 2] [.int 40] := fun _ _ => by simp [Val.FitsAll, Val.Fits]
  have h2 : ∀ (P : Platform) (s : Mode), Val.FitsAll (Safe P s) [.uint 1] [.int 3] := fun _ _ => by simp [Val.FitsAll, Val.Fits]
  exact ⟨_, ⟨9, [.uint 2], none⟩, rfl, rfl, h1 _ _, h1 _ _, fun _ _ => ⟨_, ⟨7, [.uint 1], some (.uint 4)⟩, rfl, rfl, h2 _ _, h2 _ _, fun _ _ => trivial⟩⟩

theorem summing_run : ordinary (layered sumTower) summing 5 = .ret (some (.int 126)) 43 := rfl

example : ∃ W, summing.on (Tower.rest sumTower) (Tower.call sumTower pc) (newTower 255 5 sumTower) = .ret (some (.int 126)) W ∧ Settled sumTower W ∧
    (Tower.rest sumTower).get W = 43 := by
  have h := C110_layers sumTower_ok summing summing_sound (C110_new 255 5 sumTower).1
  rw [(C110_new 255 5 sumTower).2, summing_run] at h
  exact h

/-- Whatever is on the links, the sum of `n` values has 4 bytes. -/
example (n : Nat) (hn : n < 256) (W W' : Tower Nat sumTower) (a : Option Val)
    (h : (Talk.call 0 [.int n] .done : Talk Nat (Option Val)).on (Tower.rest sumTower) (Tower.call sumTower pc) W = .ret a W') :
    ∃ z : Int, a = some (.int z) ∧ 0 ≤ z ∧ z < 2 ^ 32 := by
  have h1 : ∀ (P : Platform) (s : Mode), Val.FitsAll (Safe P s) [.uint 1] [.int n] := fun _ _ => by
    simp only [Val.FitsAll, Val.Fits, and_true]; exact ⟨by omega, by omega⟩
  refine C110_types pc_valid sumTower_ok (post := fun a => ∃ z : Int, a = some (.int z) ∧ 0 ≤ z ∧ z < 2 ^ 32) _ ?_ h
  refine ⟨_, ⟨7, [.uint 1], some (.uint 4)⟩, rfl, rfl, h1 _ _, h1 _ _, fun r hr => ?_⟩
  match r, hr with
  | some (.int z), hz =>
    have hz : 0 ≤ z ∧ z < 2 ^ 32 := by simpa [RetOk, Val.Fits] using hz
    exact ⟨z, rfl, hz⟩

/-- A gateway from little-endian sign-magnitude to big-endian two's complement. -/
def dialGate : Tier Nat :=
  ⟨.buffered avr .weakReference false, ⟨.little, .signMagnitude, dialRing.decls⟩, fun name args => .call (name - 1) args .done⟩

theorem dialGate_ok : TowerOk pc (dialGate :: sumTower.drop 1) := by
  refine ⟨pc_valid, pc_supported _ _, ⟨by decide, (dial_setting .any).ring.2⟩, ⟨avr_valid, avr_supported _ _, ?_, ?_⟩, ?_, sumTower_ok.2.2.2.2.2⟩
  · have h1 : neededOutput dialGate.ring = 2 := rfl
    intro d hd
    simp only [dialGate, dialRing, List.mem_cons, List.not_mem_nil, or_false] at hd
    rcases hd with rfl | rfl | rfl <;> simp [h1, retSize, wireSize]
  · simp [dialGate, dialRing, Ty.sizeof, wireSize]
  · have key : ∀ (P Q : Platform) (s s' : Mode) (r : Option Val), RetOk P s (some (.uint 2)) r → RetOk Q s' (some (.uint 2)) r := by
      intro P Q s s' r hr
      match r, hr with
      | some (.int z), hz => simpa [RetOk, Val.Fits] using hz
    have key0 : ∀ (P Q : Platform) (s s' : Mode) (r : Option Val), RetOk P s none r → RetOk Q s' none r := by
      intro P Q s s' r hr
      match r, hr with
      | none, _ => trivial
    have keyA : ∀ (P Q : Platform) (s s' : Mode) (args : List Val), Val.FitsAll (Safe P s) [.uint 2] args → Val.FitsAll (Safe Q s') [.uint 2] args := by
      intro P Q s s' args ha
      match args, ha with
      | [.int z], hz => simpa [Val.FitsAll, Val.Fits] using hz
    simp only [dialGate, dialRing, List.mem_cons, List.not_mem_nil, or_false, forall_eq_or_imp, forall_eq]
    refine ⟨?_, ?_, ?_⟩
    · intro args hf
      exact ⟨_, ⟨1, [.uint 2], some (.uint 2)⟩, rfl, rfl, keyA _ _ _ _ _ hf, keyA _ _ _ _ _ hf, fun r hr => ⟨key _ _ _ _ _ hr, key _ _ _ _ _ hr⟩⟩
    · intro args hf
      match args, hf with
      | [], _ => exact ⟨_, ⟨2, [], some (.uint 2)⟩, rfl, rfl, trivial, trivial, fun r hr => ⟨key _ _ _ _ _ hr, key _ _ _ _ _ hr⟩⟩
    · intro args hf
      exact ⟨_, ⟨3, [.uint 2], none⟩, rfl, rfl, keyA _ _ _ _ _ hf, keyA _ _ _ _ _ hf, fun r hr => ⟨key0 _ _ _ _ _ hr, key0 _ _ _ _ _ hr⟩⟩

example : ∃ W, Tower.call (dialGate :: sumTower.drop 1) pc 1 [] (newTower 255 41 (dialGate :: sumTower.drop 1)) = .ret (some (.int 42)) W ∧
    Settled (dialGate :: sumTower.drop 1) W ∧ (Tower.rest (dialGate :: sumTower.drop 1)).get W = 42 := by
  have hg : ∀ i d args, dialGate.ring.decls[i]? = some d → dialGate.body d.name args = .call i args .done := by
    intro i d args hd
    match i, hd with
    | 0, hd => cases hd; rfl
    | 1, hd => cases hd; rfl
    | 2, hd => cases hd; rfl
  have h := C110_gateway dialGate_ok hg (C110_new 255 41 _).1 (i := 1) rfl (args := []) trivial trivial
  rw [(C110_new 255 41 _).2] at h
  exact h

end Upd
