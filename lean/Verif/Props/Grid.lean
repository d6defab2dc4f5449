import Verif.Lemmas.Grid
import Verif.Props.Tower

/-!
# Networks of devices

C112: devices whose functions call functions of several other devices, which may be shared, behave as ordinary functions which call each other.
-/

namespace Upd
open Spec TypeList

variable {σ α : Type} {P : Platform} {clients : Nat → Platform → Prop} {ts us : List (Outpost σ)}

/-- C112. A program which calls functions of any of the devices, whose bodies call functions of the devices after them, has the outcome of the same program where everything is an ordinary function: same
result, same effects on the rest of the world, same exception, same undefined behaviour. If it ends, no byte is left on any link, and every dispatcher is ready for the next request. -/
theorem C112_network (h : GridOk clients ts) {post : α → Prop} (prog : Script σ α) (hp : ScriptSound P post clients ts prog) {W : Grid σ ts} (hw : AtRest ts W) :
    GridOutcome ts (scripted (netted ts) prog ((Grid.rest ts).get W)) (prog.on (Grid.rest ts) (Grid.call ts P) W) :=
  script_on (grid_call ts clients P h) prog hp W hw

/-- C112. Such a program ends with values as expected (`post`), if it ends, even if the links and the dispatchers were in any other state. -/
theorem C112_types (h : GridOk clients ts) {post : α → Prop} (prog : Script σ α) (hp : ScriptSound P post clients ts prog) {W W' : Grid σ ts} {a : α}
    (hr : prog.on (Grid.rest ts) (Grid.call ts P) W = .ret a W') : post a :=
  script_post h prog hp W W' a hr

/-- C112. New devices are ready. -/
theorem C112_new (sizeMax : Nat) (w : σ) : ∀ (ts : List (Outpost σ)), AtRest ts (newGrid sizeMax w ts) ∧ (Grid.rest ts).get (newGrid sizeMax w ts) = w
  | [] => ⟨trivial, rfl⟩
  | ⟨.buffered P f shared, K, body⟩ :: ts =>
    have ih := C112_new sizeMax w ts
    ⟨⟨rfl, rfl, ⟨sizeMax, _, .start⟩, fresh_pending _ _ _ _ _ _, ih.1⟩, ih.2⟩
  | ⟨.unbuffered P f, K, body⟩ :: ts =>
    have ih := C112_new sizeMax w ts
    ⟨⟨rfl, rfl, ih.1⟩, ih.2⟩

theorem netted_same : ∀ {ts us : List (Outpost σ)}, ts.map (fun t => (t.ring.decls, t.body)) = us.map (fun t => (t.ring.decls, t.body)) → netted ts = netted us
  | [], [], _ => rfl
  | t :: ts, u :: us, h => by
    injection h with h1 h2
    injection h1 with h1 h3
    have ih := netted_same h2
    funext dev i args
    cases dev with
    | zero =>
      show (match t.ring.decls[i]? with | none => _ | some d => scripted (netted ts) (t.body d.name args)) =
        (match u.ring.decls[i]? with | none => _ | some d => scripted (netted us) (u.body d.name args))
      rw [h1, h3, ih]
    | succ dev => exact congrFun (congrFun (congrFun ih dev) i) args

/-- C112. Two networks with the same functions, on other platforms, with other kinds of dispatchers, other byte orders and other signed modes, cannot be told apart by a program: the results, the
exceptions, the undefined behaviours and the effects on the rest of the world are the same. -/
theorem C112_formats {Q : Platform} {clients' : Nat → Platform → Prop} (h : GridOk clients ts) (h' : GridOk clients' us)
    (hsame : ts.map (fun t => (t.ring.decls, t.body)) = us.map (fun t => (t.ring.decls, t.body))) {post post' : α → Prop} (prog : Script σ α)
    (hp : ScriptSound P post clients ts prog) (hp' : ScriptSound Q post' clients' us prog) {W : Grid σ ts} {W' : Grid σ us} (hw : AtRest ts W) (hw' : AtRest us W')
    (hr : (Grid.rest ts).get W = (Grid.rest us).get W') :
    ∃ r : Res σ α, GridOutcome ts r (prog.on (Grid.rest ts) (Grid.call ts P) W) ∧ GridOutcome us r (prog.on (Grid.rest us) (Grid.call us Q) W') := by
  refine ⟨_, C112_network h prog hp hw, ?_⟩
  rw [netted_same hsame, hr]
  exact C112_network h' prog hp' hw'

theorem scripted_toNext {call : Nat → Nat → List Val → Eff σ (Option Val)} {call' : Nat → List Val → Eff σ (Option Val)} (h : call 0 = call') :
    ∀ prog : Talk σ α, scripted call (toNext prog) = ordinary call' prog
  | .done _ => rfl
  | .look k => funext fun w => congrFun (scripted_toNext h (k w)) w
  | .act x k => congrArg (fun y => x >>= fun _ => y) (scripted_toNext h k)
  | .call i args k => by
    show (call 0 i args >>= fun r => scripted call (toNext (k r))) = (call' i args >>= fun r => ordinary call' (k r))
    rw [h]
    exact congrArg _ (funext fun r => scripted_toNext h (k r))

/-- C112. Rows of devices (C110) are networks where each device only calls the next one: the ordinary functions which they behave as are the same ones. -/
theorem C112_rows : ∀ (ts : List (Tier σ)) (prog : Talk σ α), scripted (netted (ts.map Tier.outpost)) (toNext prog) = ordinary (layered ts) prog := by
  have h : ∀ ts : List (Tier σ), netted (ts.map Tier.outpost) 0 = layered ts := by
    intro ts
    induction ts with
    | nil => rfl
    | cons t ts ih =>
      funext i args
      show (match t.ring.decls[i]? with | none => _ | some d => scripted (netted (ts.map Tier.outpost)) (toNext (t.body d.name args))) =
        (match t.ring.decls[i]? with | none => _ | some d => ordinary (layered ts) (t.body d.name args))
      cases t.ring.decls[i]? with
      | none => rfl
      | some d => exact scripted_toNext ih _
  exact fun ts prog => scripted_toNext (h ts) prog

example : scripted (netted (sumTower.map Tier.outpost)) (toNext summing) 5 = .ret (some (.int 126)) 43 :=
  (congrFun (C112_rows sumTower summing) 5).trans summing_run

/-! Example: a computer calls two microcontrollers, which have the same functions, and both call a third device, which the computer calls too. The keyrings and formats are different. -/

/-- The functions of `dialDefs`, as programs. -/
def dialScript : Nat → List Val → Script Nat (Option Val)
  | 1, [.int x] => .act (fun _ => .ret () x.toNat) (.done (some (.int x)))
  | 2, [] => .look fun w => .act (fun _ => .ret () ((w + 1) % 65536)) (.done (some (.int ((w + 1) % 65536 : Nat))))
  | 3, [.int x] => .act (fun _ => .ret () x.toNat) (.done none)
  | _, _ => .act (fun _ => .fault .illTyped) (.done none)

/-- Adds up `n` results of the function of index 1 of the device `dev`. -/
def gather (dev : Nat) : Nat → Nat → Script Nat (Option Val)
  | 0, acc => .done (some (.int acc))
  | n + 1, acc => .call dev 1 [] fun r =>
    match r with
    | some (.int z) => gather dev n (acc + z.toNat)
    | _ => .done none

def sumScript (dev : Nat) : Nat → List Val → Script Nat (Option Val)
  | 7, [.int n] => gather dev n.toNat 0
  | 9, [.int n] => .call dev 2 [.int n] .done
  | _, _ => .done none

/-- Both summing devices call the last one. -/
def diamond : List (Outpost Nat) :=
  [⟨.unbuffered avr .any, sumRing, sumScript 1⟩, ⟨.unbuffered pc .weakReference, ⟨.big, .signMagnitude, sumRing.decls⟩, sumScript 0⟩, ⟨.buffered pc .any true, dialRing, dialScript⟩]

/-- Platforms of the callers. -/
def diamondClients : Nat → Platform → Prop := fun _ P => P = pc ∨ P = avr

theorem gather_sound {P : Platform} {cl : Nat → Platform → Prop} {ts : List (Outpost Nat)} {dev : Nat} (hc : cl dev P) (hts : ts[dev]?.map Outpost.ring = some dialRing) :
    ∀ n acc, acc + n * 65535 < 2 ^ 32 → ScriptSound P (fun r => ∃ z : Int, r = some (.int z) ∧ 0 ≤ z ∧ z < 2 ^ 32) cl ts (gather dev n acc)
  | 0, acc, h => ⟨acc, rfl, by omega, by omega⟩
  | n + 1, acc, h => by
    obtain ⟨t, ht, hr⟩ := Option.map_eq_some_iff.mp hts
    refine ⟨hc, t, ⟨2, [], some (.uint 2)⟩, ht, by rw [hr]; rfl, trivial, trivial, ?_⟩
    intro r hr
    match r, hr with
    | some (.int z), hz =>
      have hz : 0 ≤ z ∧ z < 2 ^ 16 := by
        simpa [RetOk, Val.Fits] using hz
      exact gather_sound hc hts n (acc + z.toNat) (by omega)

theorem sumScript_sound {P : Platform} {s : Mode} {cl : Nat → Platform → Prop} {callers : Platform → Prop} {ts : List (Outpost Nat)} {dev : Nat} (hc : cl dev P)
    (hts : ts[dev]?.map Outpost.ring = some dialRing) : ∀ d ∈ sumRing.decls, ∀ args, Val.FitsAll (Safe P s) d.sig.params args →
      ScriptSound P (fun r => (∀ Q, callers Q → RetOk Q s d.sig.ret r) ∧ RetOk P s d.sig.ret r) cl ts (sumScript dev d.name args) := by
  simp only [sumRing, List.mem_cons, List.not_mem_nil, or_false, forall_eq_or_imp, forall_eq]
  refine ⟨?_, ?_⟩
  · intro args hf
    match args, hf with
    | [.int n], hf =>
      have hf : 0 ≤ n ∧ n < 2 ^ 8 := by simpa [Val.FitsAll, Val.Fits] using hf
      refine script_mono ?_ _ (gather_sound hc hts n.toNat 0 (by omega))
      rintro _ ⟨z, rfl, h1, h2⟩
      have : ∀ Q, Val.Fits (Safe Q s) (.uint 4) (.int z) := fun Q => ⟨h1, by simpa using h2⟩
      exact ⟨fun Q _ => this Q, this P⟩
  · intro args hf
    match args, hf with
    | [.int n], hf =>
      obtain ⟨t, ht, hr⟩ := Option.map_eq_some_iff.mp hts
      have hf' : 0 ≤ n ∧ n < 2 ^ 16 := by simpa [Val.FitsAll, Val.Fits] using hf
      have hf2 : ∀ Q s, Val.FitsAll (Safe Q s) [.uint 2] [.int n] := fun Q s => by simpa [Val.FitsAll, Val.Fits] using hf'
      refine ⟨hc, t, ⟨3, [.uint 2], none⟩, ht, by rw [hr]; rfl, hf2 _ _, hf2 _ _, fun r hr => ?_⟩
      match r, hr with
      | none, _ => exact ⟨fun _ _ => trivial, trivial⟩

theorem diamond_ok : GridOk diamondClients diamond := by
  have hcl : ∀ (e : Endian) (s : Mode) P, diamondClients 0 P → P.Valid ∧ Supported P e s := by
    rintro e s P (rfl | rfl)
    · exact ⟨pc_valid, pc_supported _ _⟩
    · exact ⟨avr_valid, avr_supported _ _⟩
  have hring : KeyringOk sumRing := ⟨by decide, by simp [sumRing, SigOk, Ty.WFs, Ty.WF, PackedAll, Packed]⟩
  refine ⟨hcl _ _, hring, ⟨avr_valid, avr_supported _ _⟩, sumScript_sound (.inr rfl) rfl,
    hcl _ _, ⟨hring.1, hring.2⟩, ⟨pc_valid, pc_supported _ _⟩, sumScript_sound (.inl rfl) rfl,
    hcl _ _, (dial_setting .any).ring, ⟨pc_valid, pc_supported _ _, dial_fit true, (dial_setting .any).sizes⟩, ?_, trivial⟩
  simp only [dialRing, List.mem_cons, List.not_mem_nil, or_false, forall_eq_or_imp, forall_eq]
  refine ⟨?_, ?_, ?_⟩
  · intro args hf
    match args, hf with
    | [.int n], hf =>
      have hf : 0 ≤ n ∧ n < 2 ^ 16 := by simpa [Val.FitsAll, Val.Fits] using hf
      have : ∀ Q, Val.Fits (Safe Q .twosComplement) (.uint 2) (.int n) := fun _ => by simpa [Val.Fits] using hf
      exact ⟨fun Q _ => this Q, this pc⟩
  · intro args hf
    match args, hf with
    | [], hf =>
      intro w
      have : ∀ Q, Val.Fits (Safe Q .twosComplement) (.uint 2) (.int ((w + 1) % 65536 : Nat)) := fun _ => ⟨by omega, by omega⟩
      exact ⟨fun Q _ => this Q, this pc⟩
  · intro args hf
    match args, hf with
    | [.int n], hf => exact ⟨fun _ _ => trivial, trivial⟩

/-- Sets the counter through the first device, asks the second one for the sum of 3 values, then asks the shared device for the next value. -/
def touring : Script Nat (Option Val) := .call 0 1 [.int 40] fun _ => .call 1 0 [.int 3] fun _ => .call 2 1 [] .done

theorem touring_sound {a b c : Outpost Nat} (ha : a.ring.decls = sumRing.decls) (hb : b.ring.decls = sumRing.decls) (hc : c.ring.decls = dialRing.decls) :
    ScriptSound pc (fun _ => True) diamondClients [a, b, c] touring := by
  have h1 : ∀ (P : Platform) (s : Mode), Val.FitsAll (Safe P s) [.uint 2] [.int 40] := fun _ _ => by simp [Val.FitsAll, Val.Fits]
  have h2 : ∀ (P : Platform) (s : Mode), Val.FitsAll (Safe P s) [.uint 1] [.int 3] := fun _ _ => by simp [Val.FitsAll, Val.Fits]
  exact ⟨.inl rfl, a, ⟨9, [.uint 2], none⟩, rfl, by rw [ha]; rfl, h1 _ _, h1 _ _, fun _ _ => ⟨.inl rfl, b, ⟨7, [.uint 1], some (.uint 4)⟩, rfl, by rw [hb]; rfl, h2 _ _, h2 _ _,
    fun _ _ => ⟨.inl rfl, c, ⟨2, [], some (.uint 2)⟩, rfl, by rw [hc]; rfl, trivial, trivial, fun _ _ => trivial⟩⟩⟩

theorem touring_run : scripted (netted diamond) touring 5 = .ret (some (.int 44)) 44 := rfl

example : ∃ W, touring.on (Grid.rest diamond) (Grid.call diamond pc) (newGrid 255 5 diamond) = .ret (some (.int 44)) W ∧ AtRest diamond W ∧ (Grid.rest diamond).get W = 44 := by
  have h := C112_network diamond_ok touring (touring_sound rfl rfl rfl) (C112_new 255 5 diamond).1
  rw [(C112_new 255 5 diamond).2, touring_run] at h
  exact h

/-- Whatever is on the links, the sum of `n` values has 4 bytes. -/
example (n : Nat) (hn : n < 256) (W W' : Grid Nat diamond) (a : Option Val)
    (h : (Script.call 1 0 [.int n] .done : Script Nat (Option Val)).on (Grid.rest diamond) (Grid.call diamond avr) W = .ret a W') : ∃ z : Int, a = some (.int z) ∧ 0 ≤ z ∧ z < 2 ^ 32 := by
  have h1 : ∀ (P : Platform) (s : Mode), Val.FitsAll (Safe P s) [.uint 1] [.int n] := fun _ _ => by
    simp only [Val.FitsAll, Val.Fits, and_true]; exact ⟨by omega, by omega⟩
  refine C112_types diamond_ok (post := fun a => ∃ z : Int, a = some (.int z) ∧ 0 ≤ z ∧ z < 2 ^ 32) _ ?_ h
  refine ⟨.inr rfl, _, ⟨7, [.uint 1], some (.uint 4)⟩, rfl, rfl, h1 _ _, h1 _ _, fun r hr => ?_⟩
  match r, hr with
  | some (.int z), hz =>
    have hz : 0 ≤ z ∧ z < 2 ^ 32 := by simpa [RetOk, Val.Fits] using hz
    exact ⟨z, rfl, hz⟩

/-- The same network with other platforms and formats. -/
def diamond' : List (Outpost Nat) :=
  [⟨.unbuffered pc .any, ⟨.big, .onesComplement, sumRing.decls⟩, sumScript 1⟩, ⟨.unbuffered avr .any, sumRing, sumScript 0⟩, ⟨.buffered pc .any true, dialRing, dialScript⟩]

theorem diamond'_ok : GridOk diamondClients diamond' := by
  have h := diamond_ok
  exact ⟨fun P hP => ⟨(h.1 P hP).1, hP.elim (fun h => h ▸ pc_supported _ _) (fun h => h ▸ avr_supported _ _)⟩, ⟨h.2.1.1, h.2.1.2⟩, ⟨pc_valid, pc_supported _ _⟩,
    sumScript_sound (.inl rfl) rfl, h.1, h.2.1, ⟨avr_valid, avr_supported _ _⟩, sumScript_sound (.inr rfl) rfl, h.2.2.2.2.2.2.2.2⟩

example : ∃ r : Res Nat (Option Val), GridOutcome diamond r (touring.on (Grid.rest diamond) (Grid.call diamond pc) (newGrid 255 5 diamond)) ∧
    GridOutcome diamond' r (touring.on (Grid.rest diamond') (Grid.call diamond' pc) (newGrid 9 5 diamond')) :=
  C112_formats diamond_ok diamond'_ok rfl touring (touring_sound rfl rfl rfl) (touring_sound rfl rfl rfl) (C112_new 255 5 _).1 (C112_new 9 5 _).1
    ((C112_new 255 5 _).2.trans (C112_new 9 5 _).2.symm)

end Upd
