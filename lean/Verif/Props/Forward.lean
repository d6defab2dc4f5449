import Verif.Model.Forward
import Verif.Spec.Forward
import Verif.Lemmas.Forward
import Verif.Lemmas.Dispatcher
import Verif.Props.Key
import Verif.Props.Tuple

/-!
# C104: tuples and views invoked on keys
-/

namespace Upd
open Spec

variable {σ τ : Type}

/-! ## C104 -/

/-- A key whose tuples have negative zeros. -/
def gearKey : Key := ⟨.big, .signMagnitude, 1, 2, ⟨[.sint 1, .bool, .uint 2], none⟩⟩

theorem gear_ok : SigOk gearKey.sig := by simp [SigOk, gearKey, Ty.WFs, Ty.WF, PackedAll, Packed]

/-- A key without `bool`. -/
def stepKey : Key := ⟨.little, .offsetBinary, 1, 1, ⟨[.sint 2, .uint 1], some (.uint 1)⟩⟩

theorem step_ok : SigOk stepKey.sig := by simp [SigOk, stepKey, Ty.WFs, Ty.WF, PackedAll, Packed]

/-- A keyring where the callback of index 0 takes what `gearKey` takes. -/
def gearRing : Keyring := ⟨.big, .signMagnitude, [⟨1, ⟨[.sint 1, .bool, .uint 2], none⟩⟩]⟩

theorem gear_ring_ok : KeyringOk gearRing := by
  refine ⟨by decide, fun d hd => ?_⟩
  simp only [gearRing, List.mem_cons, List.not_mem_nil, or_false] at hd
  subst hd
  simp [SigOk, Ty.WFs, Ty.WF, PackedAll, Packed]

/-- C104. `t.invoke(key).write_to(dest)` writes the request for the values which `t` holds, in the format of the key, whatever the format of `t`. -/
theorem C104_forward {P : Platform} (hP : P.Valid) {k : Key} (hs : Supported P k.e k.s) (hk : 1 ≤ k.idxBytes) (hi : k.index < 256 ^ k.idxBytes)
    (hg : SigOk k.sig) {V : View} (hts : V.ts = k.sig.params) {mem : Mem} {vs : List Val} (hlen : vs.length = V.ts.length)
    (hget : ∀ i (hi : i < vs.length), V.get P i mem = .ok vs[i]) (hf : Val.FitsAll (Safe P k.s) V.ts vs) (dest : Byte → Eff τ Unit) :
    V.forward P k mem dest = putAll dest (request k.e k.s k.idxBytes k.index k.sig.params vs) := by
  rw [hts] at hf
  unfold View.forward View.message
  rw [C24_invoke hlen hget]
  show (Eff.lift (k.message P vs) >>= fun content => outAll dest content) = _
  rw [message_eq hP hs hk hi hg hf, Eff.lift_ok, pure_bind, outAll_eq]

example (dest : Byte → Eff τ Unit) :
    (View.mk .little .twosComplement [.sint 1, .bool, .uint 2] 1).forward pc gearKey [7#8, 0xfe#8, 1#8, 4#8, 3#8] dest =
      putAll dest [2#8, 0x82#8, 1#8, 3#8, 4#8] :=
  C104_forward (k := gearKey) (V := View.mk .little .twosComplement [.sint 1, .bool, .uint 2] 1) (vs := [.int (-2), .bool true, .int 0x304]) pc_valid
    (pc_supported _ _) (by decide) (by decide) gear_ok rfl rfl
    (by intro i hi; match i, hi with | 0, _ => rfl | 1, _ => rfl | 2, _ => rfl)
    (by simp [gearKey, Val.FitsAll, Val.Fits, Safe, MinSafe, Representable, InRange]) dest

/-- The elements of the view, all at once. -/
theorem forward_gets {P : Platform} {k : Key} {V : View} {mem : Mem} (dest : Byte → Eff τ Unit) :
    V.forward P k mem dest = (Eff.lift (readAll P V.e V.s V.ts mem V.off) >>= fun vs => k.writeTo P vs dest) := by
  unfold View.forward View.message View.invoke
  rw [View.indices_eq, View.gets_eq]
  cases readAll P V.e V.s V.ts mem V.off with
  | error e => rfl
  | ok vs => rfl

/-- C104, from the bytes: the values which the bytes of the view stand for in its format are written in the format of the key. -/
theorem C104_translate {P : Platform} (hP : P.Valid) {k : Key} (hs : Supported P k.e k.s) (hk : 1 ≤ k.idxBytes) (hi : k.index < 256 ^ k.idxBytes)
    (hg : SigOk k.sig) {V : View} (hts : V.ts = k.sig.params) (hv : Supported P V.e V.s) {mem : Mem} (hb : V.off + wireSizes V.ts ≤ mem.length)
    (hd : undecodables P V.e V.s V.ts (slice mem V.off (wireSizes V.ts)) = none)
    (hf : Val.FitsAll (Safe P k.s) V.ts (unwires V.e V.s V.ts (slice mem V.off (wireSizes V.ts)))) (dest : Byte → Eff τ Unit) :
    V.forward P k mem dest =
      putAll dest (request k.e k.s k.idxBytes k.index k.sig.params (unwires V.e V.s V.ts (slice mem V.off (wireSizes V.ts)))) := by
  have hg' := hg
  rw [SigOk, ← hts] at hg'
  rw [forward_gets, (decodable hP hv hg'.1 hg'.2.1 hb hd).1, Eff.lift_ok, pure_bind]
  rw [hts] at hf
  rw [hts]
  exact C29_request_format hP hs hk hi hg hf dest

example (dest : Byte → Eff τ Unit) :
    (View.mk .big .onesComplement [.sint 2, .uint 1] 0).forward pc stepKey [0xff#8, 0xfe#8, 9#8] dest = putAll dest [1#8, 0xff#8, 0x7f#8, 9#8] :=
  C104_translate (k := stepKey) (V := View.mk .big .onesComplement [.sint 2, .uint 1] 0) pc_valid (pc_supported _ _) (by decide) (by decide) step_ok rfl
    (pc_supported _ _) (by decide) (by decide +kernel)
    (by
      rw [show unwires (View.mk .big .onesComplement [.sint 2, .uint 1] 0).e (View.mk .big .onesComplement [.sint 2, .uint 1] 0).s
        (View.mk .big .onesComplement [.sint 2, .uint 1] 0).ts _ = [.int (-1), .int 9] from rfl]
      simp [stepKey, Val.FitsAll, Val.Fits, Safe, MinSafe, Representable, InRange]) dest

/-- C104, a tuple of the format of the key (`key::tuple_t`): the bytes of the tuple are written after the index, except that negative zeros become zeros and that
`bool`s become 0 or 1. -/
theorem C104_same_format {P : Platform} (hP : P.Valid) {k : Key} (hs : Supported P k.e k.s) (hk : 1 ≤ k.idxBytes) (hi : k.index < 256 ^ k.idxBytes)
    (hg : SigOk k.sig) {V : View} (hts : V.ts = k.sig.params) (he : V.e = k.e) (hm : V.s = k.s) {mem : Mem}
    (hb : V.off + wireSizes V.ts ≤ mem.length) (hd : undecodables P V.e V.s V.ts (slice mem V.off (wireSizes V.ts)) = none) (dest : Byte → Eff τ Unit) :
    V.forward P k mem dest =
      putAll dest (wireBytes k.e k.idxBytes k.index ++ canonicals k.e k.s k.sig.params (slice mem V.off (wireSizes V.ts))) := by
  have hv : Supported P V.e V.s := by rw [he, hm]; exact hs
  have hg' := hg
  rw [SigOk, ← hts] at hg'
  have hf := (decodable hP hv hg'.1 hg'.2.1 hb hd).2
  have hl := slice_length hb
  rw [C104_translate hP hs hk hi hg hts hv hb hd (by rw [← hm]; exact hf), request]
  rw [hts] at hl
  rw [he, hm, hts, canonicals_eq _ _ hg.1 hl]

example (dest : Byte → Eff τ Unit) :
    (View.mk .big .signMagnitude [.sint 1, .bool, .uint 2] 0).forward pc gearKey [0x80#8, 2#8, 3#8, 4#8] dest = putAll dest [2#8, 0#8, 1#8, 3#8, 4#8] :=
  C104_same_format (k := gearKey) (V := View.mk .big .signMagnitude [.sint 1, .bool, .uint 2] 0) pc_valid (pc_supported _ _) (by decide) (by decide) gear_ok rfl
    rfl rfl (by decide) (by decide +kernel) dest

/-- C104, without `bool` and in the modes which have no negative zero: the bytes of the tuple are written as they are. -/
theorem C104_verbatim {P : Platform} (hP : P.Valid) {k : Key} (hs : Supported P k.e k.s) (hk : 1 ≤ k.idxBytes) (hi : k.index < 256 ^ k.idxBytes)
    (hg : SigOk k.sig) {V : View} (hts : V.ts = k.sig.params) (he : V.e = k.e) (hm : V.s = k.s) {mem : Mem}
    (hb : V.off + wireSizes V.ts ≤ mem.length) (hd : undecodables P V.e V.s V.ts (slice mem V.off (wireSizes V.ts)) = none)
    (hz : k.s = .twosComplement ∨ k.s = .offsetBinary) (hn : NoBools k.sig.params) (dest : Byte → Eff τ Unit) :
    V.forward P k mem dest = putAll dest (wireBytes k.e k.idxBytes k.index ++ slice mem V.off (wireSizes V.ts)) := by
  have hl := slice_length hb
  rw [hts] at hl
  rw [C104_same_format hP hs hk hi hg hts he hm hb hd, hts, canonicals_id hz _ _ hn hl]

example (x y z : Byte) (dest : Byte → Eff τ Unit) :
    (View.mk .little .offsetBinary [.sint 2, .uint 1] 0).forward pc stepKey [x, y, z] dest = putAll dest [1#8, x, y, z] :=
  C104_verbatim (k := stepKey) (V := View.mk .little .offsetBinary [.sint 2, .uint 1] 0) (mem := [x, y, z]) pc_valid (pc_supported _ _) (by decide) (by decide)
    step_ok rfl rfl rfl (by simp [wireSizes, wireSize]) (by simp [undecodables, undecodable]) (.inr rfl) (by simp [stepKey, NoBools, NoBool]) dest

/-- C104, the bytes which are written stand for the same values, and forwarding them again changes nothing. -/
theorem C104_again {P : Platform} (hP : P.Valid) {e : Endian} {s : Mode} (hs : Supported P e s) {ts : List Ty} (hw : Ty.WFs ts) (hp : PackedAll ts)
    {bs : List Byte} (hl : bs.length = wireSizes ts) (hd : undecodables P e s ts bs = none) :
    (canonicals e s ts bs).length = wireSizes ts ∧ unwires e s ts (canonicals e s ts bs) = unwires e s ts bs ∧
      undecodables P e s ts (canonicals e s ts bs) = none ∧ canonicals e s ts (canonicals e s ts bs) = canonicals e s ts bs := by
  have hsl := slice_all hl
  have hf := (decodable hP hs hw hp (mem := bs) (off := 0) (by omega) (by rw [hsl]; exact hd)).2
  rw [hsl] at hf
  have hcl : (canonicals e s ts bs).length = wireSizes ts := by rw [← canonicals_eq ts bs hw hl]; exact wires_length hp hf
  have hu : unwires e s ts (canonicals e s ts bs) = unwires e s ts bs := by
    rw [← canonicals_eq ts bs hw hl]
    exact unwires_wires hP hs hw hp hf
  refine ⟨hcl, hu, ?_, ?_⟩
  · have h1 := readAll_wires hP hs hw hp hf
    rw [canonicals_eq ts bs hw hl, readAll_exact hP hs ts _ 0 hw hp (by omega), slice_all hcl] at h1
    cases hx : undecodables P e s ts (canonicals e s ts bs) with
    | none => rfl
    | some f =>
      rw [hx] at h1
      cases h1
  · rw [← canonicals_eq ts _ hw hcl, hu, canonicals_eq ts bs hw hl]

example : unwires .big .signMagnitude [.sint 1, .bool] (canonicals .big .signMagnitude [.sint 1, .bool] [0x80#8, 5#8]) =
      unwires .big .signMagnitude [.sint 1, .bool] [0x80#8, 5#8] ∧
    canonicals .big .signMagnitude [.sint 1, .bool] [0x80#8, 5#8] = [0#8, 1#8] :=
  ⟨(C104_again pc_valid (pc_supported _ _) (by simp [Ty.WFs, Ty.WF]) (by simp [PackedAll, Packed]) (by decide) (by decide +kernel)).2.1, by decide +kernel⟩

/-- A dispatcher fed with an index and bytes which can be decoded. -/
theorem run_bytes {P : Platform} (hP : P.Valid) {D : Dispatcher σ} (hs : Supported P D.e D.s) (hi : 1 ≤ D.idxBytes)
    {i : Nat} (hi1 : i < D.size) (hi2 : i < 256 ^ D.idxBytes) {a : Action σ} (ha : D.acts[i]? = some a) {cb : Callback σ}
    (hh : a.Holds D.e D.s cb) (hg : SigOk cb.sig) (L : Lens τ σ) {src : Eff τ Byte} {dest : Byte → Eff τ Unit} {bs : List Byte}
    (hl : bs.length = wireSizes cb.sig.params) (hd : undecodables P D.e D.s cb.sig.params bs = none) {w w1 : τ}
    (hy : Yields src w (wireBytes D.e D.idxBytes i ++ bs) w1) :
    D.run P L src dest w =
      (Eff.zoom L (cb.fn (unwires D.e D.s cb.sig.params bs)) >>= fun r => respond P D.e D.s cb.sig.ret r dest >>= fun _ => pure i) w1 := by
  obtain ⟨w0, hy0, hy1⟩ := Yields.split hy
  have hg0 := getN_yields hy0
  rw [wireBytes_length] at hg0
  have hg1 := getN_yields hy1
  rw [hl] at hg1
  have hsl := slice_all hl
  have hr := (decodable hP hs hg.1 hg.2.1 (mem := bs) (off := 0) (by omega) (by rw [hsl]; exact hd)).1
  rw [hsl] at hr
  rw [run_eq hP hs hi, Eff.bind_ret hg0, wireValue_wireBytes hi2, if_pos hi1, at_eq ha, Eff.lift_ok, pure_bind,
    hh.invoke P L src dest, call_eq hP hs cb hg.1 hg.2.1, bind_assoc, Eff.bind_ret hg1, hr, Eff.lift_ok, pure_bind, bind_assoc]

/-- C104, at the other end: a callee does on the forwarded request exactly what it would do on the original one, that is the index and the bytes of the tuple:
same calls, same response, same index returned. -/
theorem C104_transparent {Q : Platform} (hQ : Q.Valid) {K : Keyring} (hK : KeyringOk K) (hs : Supported Q K.e K.s) {f : Features}
    {defs : Nat → List Val → Eff σ (Option Val)} {i : Nat} (hi : i < K.decls.length) {bs : List Byte}
    (hl : bs.length = wireSizes K.decls[i].sig.params) (hd : undecodables Q K.e K.s K.decls[i].sig.params bs = none)
    (L : Lens τ σ) {src : Eff τ Byte} {dest : Byte → Eff τ Unit} {w w' w1 : τ}
    (hy : Yields src w (wireBytes K.e K.idxBytes i ++ bs) w1)
    (hy' : Yields src w' (wireBytes K.e K.idxBytes i ++ canonicals K.e K.s K.decls[i].sig.params bs) w1) :
    (Dispatcher.make K f defs).run Q L src dest w' = (Dispatcher.make K f defs).run Q L src dest w := by
  have hg := hK.2 K.decls[i] (List.getElem_mem _)
  obtain ⟨h1, h2, h3, _⟩ := C104_again hQ hs hg.1 hg.2.1 hl hd
  have hsz : i < K.size := by rw [K.size_eq hK.1]; exact hi
  rw [run_bytes hQ (D := Dispatcher.make K f defs) hs (idxBytes_pos hK.1).1 hsz (Nat.lt_trans hi (idxBytes_pos hK.1).2) (make_acts hi)
      (makeAction_holds f K.e K.s _) hg L hl hd hy,
    run_bytes hQ (D := Dispatcher.make K f defs) hs (idxBytes_pos hK.1).1 hsz (Nat.lt_trans hi (idxBytes_pos hK.1).2) (make_acts hi)
      (makeAction_holds f K.e K.s _) hg L h1 h3 hy']
  show (Eff.zoom L (defs _ (unwires K.e K.s K.decls[i].sig.params _)) >>= _) w1 = _
  rw [h2]
  rfl

/-- Reads the first byte of a list. -/
def popByte : Eff (List Byte × List (List Val)) Byte := fun w =>
  match w.1 with
  | [] => .fault .starved
  | b :: bs => .ret b (bs, w.2)

example (rest : List Byte) (w : List (List Val)) (dest : Byte → Eff (List Byte × List (List Val)) Unit) (f : Features)
    (defs : Nat → List Val → Eff (List (List Val)) (Option Val)) :
    (Dispatcher.make gearRing f defs).run pc ⟨Prod.snd, fun x y => (y.1, x)⟩ popByte dest ([0#8, 0#8, 1#8, 3#8, 4#8] ++ rest, w) =
      (Dispatcher.make gearRing f defs).run pc ⟨Prod.snd, fun x y => (y.1, x)⟩ popByte dest ([0#8, 0x80#8, 7#8, 3#8, 4#8] ++ rest, w) :=
  C104_transparent (K := gearRing) (i := 0) (bs := [0x80#8, 7#8, 3#8, 4#8]) (w1 := (rest, w)) pc_valid gear_ring_ok (pc_supported _ _) (by decide) (by decide)
    (by decide +kernel) _ (.cons rfl (.cons rfl (.cons rfl (.cons rfl (.cons rfl (.nil _))))))
    (.cons rfl (.cons rfl (.cons rfl (.cons rfl (.cons rfl (.nil _))))))

/-- C104, bytes which cannot be decoded: the first fault among the elements, and nothing is written. -/
theorem C104_undecodable {P : Platform} (hP : P.Valid) {k : Key} (hg : SigOk k.sig) {V : View} (hts : V.ts = k.sig.params) (hv : Supported P V.e V.s)
    {mem : Mem} (hb : V.off + wireSizes V.ts ≤ mem.length) {flt : Fault}
    (hd : undecodables P V.e V.s V.ts (slice mem V.off (wireSizes V.ts)) = some flt) (dest : Byte → Eff τ Unit) (w : τ) :
    V.forward P k mem dest w = .fault flt := by
  have hg' := hg
  rw [SigOk, ← hts] at hg'
  have h := readAll_exact hP hv V.ts mem V.off hg'.1 hg'.2.1 hb
  rw [hd] at h
  rw [forward_gets, h]
  rfl

example (dest : Byte → Eff τ Unit) (w : τ) :
    (View.mk .little .twosComplement [.sint 1, .bool, .uint 2] 0).forward pcMacros gearKey [1#8, 2#8, 3#8, 4#8] dest w = .fault .badBool :=
  C104_undecodable (k := gearKey) (V := View.mk .little .twosComplement [.sint 1, .bool, .uint 2] 0) pcMacros_valid gear_ok rfl (.inl rfl) (by decide)
    (by decide +kernel) dest w

end Upd
