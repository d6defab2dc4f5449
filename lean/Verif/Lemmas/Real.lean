import Verif.Spec.Real
import Verif.Props.Float
import Verif.Lemmas.Tuple
import Verif.Lemmas.Dispatcher

/-!
# Lemmas: floating-point objects seen as integers
-/

namespace Upd
open Spec TypeList

variable {σ τ : Type} {P : Platform} {e : Endian} {s : Mode}

theorem sizeof_ints : ∀ t : RTy, (RTy.ints t).sizeof = t.sizeof
  | .bool => rfl
  | .uint _ => rfl
  | .sint _ => rfl
  | .real _ => rfl
  | .arr t n => by rw [RTy.ints, Ty.sizeof, RTy.sizeof, sizeof_ints t]
  | .user _ _ => rfl

mutual
theorem serSize_ints : ∀ t : RTy, (RTy.ints t).serSize = t.serSize
  | .bool => rfl
  | .uint _ => rfl
  | .sint _ => rfl
  | .real _ => rfl
  | .arr t n => by rw [RTy.ints, Ty.serSize, RTy.serSize, sizeof_ints t]
  | .user _ fs => by rw [RTy.ints, Ty.serSize, RTy.serSize, serSizes_ints fs]

theorem serSizes_ints : ∀ ts : List RTy, Ty.serSizes (RTy.intss ts) = RTy.serSizes ts
  | [] => rfl
  | t :: ts => by rw [RTy.intss, Ty.serSizes, RTy.serSizes, serSize_ints t, serSizes_ints ts]
end

theorem intss_map : ∀ ts : List RTy, RTy.intss ts = ts.map RTy.ints
  | [] => rfl
  | t :: ts => by rw [RTy.intss, intss_map ts, List.map_cons]

theorem vals_intss_map : ∀ vs : List RVal, RVal.intss vs = vs.map RVal.ints
  | [] => rfl
  | v :: vs => by rw [RVal.intss, vals_intss_map vs, List.map_cons]

theorem ofAll_map (t : RTy) : ∀ vs : List Val, RVal.ofAll t vs = vs.map (RVal.of t)
  | [] => rfl
  | v :: vs => by rw [RVal.ofAll, ofAll_map t vs, List.map_cons]

theorem readLoopR_eq {read : Mem → Nat → M RVal} {read' : Mem → Nat → M Val} {g : Val → RVal} (h : ∀ mem off, read mem off = (read' mem off).map g) (stride : Nat) (mem : Mem) :
    ∀ n off, readLoopR read stride mem n off = (readLoop read' stride mem n off).map (List.map g)
  | 0, off => rfl
  | n + 1, off => by
    rw [readLoopR, readLoop, h, readLoopR_eq h stride mem n]
    cases read' mem off with
    | error f => rfl
    | ok v => cases readLoop read' stride mem n (off + stride) <;> rfl

mutual
/-- Reading. -/
theorem readR_eq (hm : P.signedMacro = some s) : ∀ (t : RTy) (mem : Mem) (off : Nat), readR P e s t mem off = (readAs P e s (RTy.ints t) mem off).map (RVal.of t)
  | .bool, mem, off => by
    rw [readR, RTy.ints, readAs]
    cases readBool P e mem off <;> rfl
  | .uint n, mem, off => by
    rw [readR, RTy.ints, readAs]
    cases readUint P e n mem off <;> rfl
  | .sint k, mem, off => by
    rw [readR, RTy.ints, readAs]
    cases readSint P e s k mem off <;> rfl
  | .real k, mem, off => by
    rw [readR, RTy.ints, readAs, readSint_native hm]
    cases readFloatNative P e k mem off with
    | error f => rfl
    | ok bits =>
      show Except.ok _ = Except.ok (RVal.real k (BitVec.ofInt (8 * k) bits.toInt))
      rw [BitVec.ofInt_toInt]
  | .arr t n, mem, off => by
    rw [readR, RTy.ints, readAs, readLoopR_eq (readR_eq hm t), sizeof_ints]
    cases readLoop (readAs P e s (RTy.ints t)) t.sizeof mem n off with
    | error f => rfl
    | ok vs =>
      show Except.ok (RVal.arr (vs.map (RVal.of t))) = Except.ok (RVal.arr (RVal.ofAll t vs))
      rw [ofAll_map]
  | .user size fs, mem, off => by
    rw [readR, RTy.ints, readAs, readAllR_eq hm fs]
    cases readAll P e s (RTy.intss fs) mem off <;> rfl

theorem readAllR_eq (hm : P.signedMacro = some s) : ∀ (ts : List RTy) (mem : Mem) (off : Nat),
    readAllR P e s ts mem off = (readAll P e s (RTy.intss ts) mem off).map (RVal.ofs ts)
  | [], mem, off => rfl
  | t :: ts, mem, off => by
    rw [readAllR, RTy.intss, readAll, readR_eq hm t, readAllR_eq hm ts, serSize_ints]
    cases readAs P e s (RTy.ints t) mem off with
    | error f => rfl
    | ok v => cases readAll P e s (RTy.intss ts) mem (off + t.serSize) <;> rfl
end

theorem writeLoopR_eq {write : RVal → Mem → Nat → M Mem} {write' : Val → Mem → Nat → M Mem} {ok : RVal → Prop} (h : ∀ v, ok v → ∀ mem off, write v mem off = write' (RVal.ints v) mem off) (stride : Nat) :
    ∀ (vs : List RVal), (∀ v ∈ vs, ok v) → ∀ mem off, writeLoopR write stride vs mem off = writeLoop write' stride (RVal.intss vs) mem off
  | [], _, mem, off => rfl
  | v :: vs, hv, mem, off => by
    rw [writeLoopR, RVal.intss, writeLoop, h v (hv v (List.mem_cons_self ..))]
    cases write' (RVal.ints v) mem off with
    | error f => rfl
    | ok mem => exact writeLoopR_eq h stride vs (fun u hu => hv u (List.mem_cons_of_mem _ hu)) mem _

mutual
/-- Writing. -/
theorem writeR_eq (hm : P.signedMacro = some s) : ∀ (t : RTy) (v : RVal), RVal.Shaped t v → ∀ (mem : Mem) (off : Nat),
    writeR P e s t v mem off = writeAs P e s (RTy.ints t) (RVal.ints v) mem off
  | .bool, .bool b, _, mem, off => by rw [writeR, RTy.ints, RVal.ints, writeAs]
  | .uint n, .int z, _, mem, off => by rw [writeR, RTy.ints, RVal.ints, writeAs]
  | .sint k, .int z, _, mem, off => by rw [writeR, RTy.ints, RVal.ints, writeAs]
  | .real k, .real k' bits, h, mem, off => by
    rw [RVal.Shaped] at h
    subst h
    rw [writeR, RTy.ints, RVal.ints, writeAs, writeSint_native hm, if_pos rfl]
  | .arr t n, .arr vs, h, mem, off => by
    rw [RVal.Shaped] at h
    rw [writeR, RTy.ints, RVal.ints, writeAs, if_pos h.1, if_pos (by rw [vals_intss_map, List.length_map]; exact h.1), sizeof_ints]
    exact writeLoopR_eq (ok := RVal.Shaped t) (fun v hv mem off => writeR_eq hm t v hv mem off) _ vs h.2 mem off
  | .user size fs, .user vs, h, mem, off => by
    rw [RVal.Shaped] at h
    rw [writeR, RTy.ints, RVal.ints, writeAs]
    exact writeAllR_eq hm fs vs h mem off

theorem writeAllR_eq (hm : P.signedMacro = some s) : ∀ (ts : List RTy) (vs : List RVal), RVal.ShapedAll ts vs → ∀ (mem : Mem) (off : Nat),
    writeAllR P e s ts vs mem off = writeAll P e s (RTy.intss ts) (RVal.intss vs) mem off
  | [], [], _, mem, off => rfl
  | t :: ts, v :: vs, h, mem, off => by
    rw [RVal.ShapedAll] at h
    rw [writeAllR, RTy.intss, RVal.intss, writeAll, writeR_eq hm t v h.1, serSize_ints]
    cases writeAs P e s (RTy.ints t) (RVal.ints v) mem off with
    | error f => rfl
    | ok mem => exact writeAllR_eq hm ts vs h.2 mem _
end

mutual
theorem of_ints : ∀ (t : RTy) (v : RVal), RVal.Shaped t v → RVal.of t (RVal.ints v) = v
  | .bool, .bool b, _ => rfl
  | .uint n, .int z, _ => rfl
  | .sint k, .int z, _ => rfl
  | .real k, .real k' bits, h => by
    rw [RVal.Shaped] at h
    subst h
    rw [RVal.ints, RVal.of, BitVec.ofInt_toInt]
  | .arr t n, .arr vs, h => by
    rw [RVal.Shaped] at h
    rw [RVal.ints, RVal.of, ofAll_map, vals_intss_map, List.map_map]
    congr 1
    calc vs.map (RVal.of t ∘ RVal.ints) = vs.map id := List.map_congr_left fun v hv => of_ints t v (h.2 v hv)
      _ = vs := List.map_id vs
  | .user size fs, .user vs, h => by
    rw [RVal.Shaped] at h
    rw [RVal.ints, RVal.of, ofs_intss fs vs h]

theorem ofs_intss : ∀ (ts : List RTy) (vs : List RVal), RVal.ShapedAll ts vs → RVal.ofs ts (RVal.intss vs) = vs
  | [], [], _ => rfl
  | t :: ts, v :: vs, h => by
    rw [RVal.ShapedAll] at h
    rw [RVal.intss, RVal.ofs, of_ints t v h.1, ofs_intss ts vs h.2]
end

mutual
theorem zero_ints : ∀ t : RTy, RVal.ints (RVal.zero t) = Val.zero (RTy.ints t)
  | .bool => rfl
  | .uint _ => rfl
  | .sint _ => rfl
  | .real k => by rw [RVal.zero, RVal.ints, RTy.ints, Val.zero, show (0 : BitVec (8 * k)) = 0#(8 * k) from rfl, BitVec.toInt_zero]
  | .arr t n => by rw [RVal.zero, RVal.ints, RTy.ints, Val.zero, vals_intss_map, List.map_replicate, zero_ints t]
  | .user size fs => by rw [RVal.zero, RVal.ints, RTy.ints, Val.zero, zeros_ints fs]

theorem zeros_ints : ∀ ts : List RTy, RVal.intss (RVal.zeros ts) = Val.zeros (RTy.intss ts)
  | [] => rfl
  | t :: ts => by rw [RVal.zeros, RVal.intss, RTy.intss, Val.zeros, zero_ints t, zeros_ints ts]
end

mutual
theorem zero_shaped : ∀ t : RTy, RVal.Shaped t (RVal.zero t)
  | .bool => by rw [RVal.zero, RVal.Shaped]; trivial
  | .uint _ => by rw [RVal.zero, RVal.Shaped]; trivial
  | .sint _ => by rw [RVal.zero, RVal.Shaped]; trivial
  | .real k => by rw [RVal.zero, RVal.Shaped]
  | .arr t n => by
    rw [RVal.zero, RVal.Shaped]
    exact ⟨List.length_replicate, fun v hv => by rw [List.eq_of_mem_replicate hv]; exact zero_shaped t⟩
  | .user size fs => by rw [RVal.zero, RVal.Shaped]; exact zeros_shaped fs

theorem zeros_shaped : ∀ ts : List RTy, RVal.ShapedAll ts (RVal.zeros ts)
  | [] => by rw [RVal.zeros, RVal.ShapedAll]; trivial
  | t :: ts => by rw [RVal.zeros, RVal.ShapedAll]; exact ⟨zero_shaped t, zeros_shaped ts⟩
end

theorem makeR_eq (hm : P.signedMacro = some s) {ts : List RTy} {vs : List RVal} (h : RVal.ShapedAll ts vs) : makeR P e s ts vs = Tuple.make P e s (RTy.intss ts) (RVal.intss vs) := by
  unfold makeR Tuple.make
  dsimp only
  rw [View.indices_eq, View.lay_eq, View.size_eq, writeAllR_eq hm ts vs h, serSizes_ints]

theorem intss_get (ts : List RTy) (i : Nat) : (RTy.intss ts)[i]? = ts[i]?.map RTy.ints := by rw [intss_map, List.getElem?_map]

theorem intss_take (ts : List RTy) (i : Nat) : Ty.serSizes ((RTy.intss ts).take i) = RTy.serSizes (ts.take i) := by rw [← serSizes_ints, intss_map, intss_map, List.map_take]

theorem getR_eq (hm : P.signedMacro = some s) {ts : List RTy} {i : Nat} {t : RTy} (hi : ts[i]? = some t) (mem : Mem) :
    getR P e s ts i mem = ((Tuple.self e s (RTy.intss ts)).get P i mem).map (RVal.of t) := by
  obtain ⟨h1, h2⟩ := List.getElem?_eq_some_iff.mp hi
  have h3 := intss_get ts i
  rw [hi] at h3
  obtain ⟨h4, h5⟩ := List.getElem?_eq_some_iff.mp h3
  unfold getR
  rw [hi, View.get_eq P (Tuple.self e s (RTy.intss ts)) h4]
  dsimp only [Tuple.self]
  rw [h5, readR_eq hm, intss_take, Nat.zero_add]

theorem setR_eq (hm : P.signedMacro = some s) {ts : List RTy} {i : Nat} {t : RTy} (hi : ts[i]? = some t) {v : RVal} (hv : RVal.Shaped t v) (mem : Mem) :
    setR P e s ts i v mem = (Tuple.self e s (RTy.intss ts)).set P i (RVal.ints v) mem := by
  have h3 := intss_get ts i
  rw [hi] at h3
  obtain ⟨h4, h5⟩ := List.getElem?_eq_some_iff.mp h3
  unfold setR
  rw [hi, View.set_eq P (Tuple.self e s (RTy.intss ts)) h4]
  dsimp only [Tuple.self]
  rw [h5, writeR_eq hm t v hv, intss_take, Nat.zero_add]

theorem readFromR_eq (hm : P.signedMacro = some s) (ts : List RTy) (src : Eff τ Byte) : readFromR P e s ts src = Tuple.readFrom P e s (RTy.intss ts) src := by
  unfold readFromR Tuple.readFrom Tuple.default
  rw [makeR_eq hm (zeros_shaped ts), zeros_ints, View.size_eq]
  dsimp only [Tuple.self]
  rw [serSizes_ints]

theorem native_mode (hP : P.Valid) (hm : P.signedMacro = some s) : s = .twosComplement := hP.signed s hm

theorem safe_native (hP : P.Valid) (hm : P.signedMacro = some s) {k : Nat} {z : Int} (h : InRange k z) : Safe P s k z := by
  have := native_mode hP hm
  subst this
  exact ⟨h, Or.inl (Or.inl hm)⟩

theorem toInt_inRange {k : Nat} (hk : 1 ≤ k) (bits : BitVec (8 * k)) : InRange k bits.toInt := by
  have h1 := BitVec.le_toInt bits
  have h2 := BitVec.toInt_lt (x := bits)
  exact ⟨h1, h2⟩

theorem code_toInt {k : Nat} (bits : BitVec (8 * k)) : signedCode .twosComplement k bits.toInt = bits.toNat := by
  have h := bits.isLt
  have hc : ((2 ^ (8 * k) : Nat) : Int) = 2 ^ (8 * k) := by simp
  unfold signedCode
  simp only []
  rw [BitVec.toInt_eq_toNat_cond]
  split <;> split <;> omega

mutual
theorem fits_shaped : ∀ (t : RTy) (v : RVal), RVal.Fits t v → RVal.Shaped t v
  | .bool, .bool b, h => by rw [RVal.Shaped]; trivial
  | .uint n, .int z, h => by rw [RVal.Shaped]; trivial
  | .sint k, .int z, h => by rw [RVal.Shaped]; trivial
  | .real k, .real k' bits, h => by rw [RVal.Fits] at h; rw [RVal.Shaped]; exact h
  | .arr t n, .arr vs, h => by
    rw [RVal.Fits] at h
    rw [RVal.Shaped]
    exact ⟨h.1, fun v hv => fits_shaped t v (h.2 v hv)⟩
  | .user size fs, .user vs, h => by
    rw [RVal.Fits] at h
    rw [RVal.Shaped]
    exact fitsAll_shaped fs vs h

theorem fitsAll_shaped : ∀ (ts : List RTy) (vs : List RVal), RVal.FitsAll ts vs → RVal.ShapedAll ts vs
  | [], [], _ => by rw [RVal.ShapedAll]; trivial
  | t :: ts, v :: vs, h => by
    rw [RVal.FitsAll] at h
    rw [RVal.ShapedAll]
    exact ⟨fits_shaped t v h.1, fitsAll_shaped ts vs h.2⟩
end

mutual
theorem fits_ints (hP : P.Valid) (hm : P.signedMacro = some s) : ∀ (t : RTy) (v : RVal), (RTy.ints t).WF → RVal.Fits t v → (RVal.ints v).Fits (Safe P s) (RTy.ints t)
  | .bool, .bool b, _, _ => by rw [RTy.ints, RVal.ints, Val.Fits]; trivial
  | .uint n, .int z, _, h => by rw [RVal.Fits] at h; rw [RTy.ints, RVal.ints, Val.Fits]; exact h
  | .sint k, .int z, _, h => by rw [RVal.Fits] at h; rw [RTy.ints, RVal.ints, Val.Fits]; exact safe_native hP hm h
  | .real k, .real k' bits, hw, h => by
    rw [RVal.Fits] at h
    subst h
    rw [RTy.ints, Ty.WF] at hw
    rw [RTy.ints, RVal.ints, Val.Fits]
    exact safe_native hP hm (toInt_inRange hw.1 bits)
  | .arr t n, .arr vs, hw, h => by
    rw [RVal.Fits] at h
    rw [RTy.ints, Ty.WF] at hw
    rw [RTy.ints, RVal.ints, Val.Fits, vals_intss_map, List.length_map]
    refine ⟨h.1, fun v hv => ?_⟩
    obtain ⟨u, hu, rfl⟩ := List.mem_map.mp hv
    exact fits_ints hP hm t u hw.1 (h.2 u hu)
  | .user size fs, .user vs, hw, h => by
    rw [RVal.Fits] at h
    rw [RTy.ints, Ty.WF] at hw
    rw [RTy.ints, RVal.ints, Val.Fits]
    exact fitsAll_ints hP hm fs vs hw.2 h

theorem fitsAll_ints (hP : P.Valid) (hm : P.signedMacro = some s) : ∀ (ts : List RTy) (vs : List RVal), Ty.WFs (RTy.intss ts) → RVal.FitsAll ts vs →
    Val.FitsAll (Safe P s) (RTy.intss ts) (RVal.intss vs)
  | [], [], _, _ => by rw [RTy.intss, RVal.intss, Val.FitsAll]; trivial
  | t :: ts, v :: vs, hw, h => by
    rw [RVal.FitsAll] at h
    rw [RTy.intss, Ty.WFs] at hw
    rw [RTy.intss, RVal.intss, Val.FitsAll]
    exact ⟨fits_ints hP hm t v hw.1 h.1, fitsAll_ints hP hm ts vs hw.2 h.2⟩
end

mutual
theorem wire_ints : ∀ (t : RTy) (v : RVal), RVal.Fits t v → wire e .twosComplement (RTy.ints t) (RVal.ints v) = rwire e t v
  | .bool, .bool b, _ => by rw [RTy.ints, RVal.ints, wire, rwire]
  | .uint n, .int z, _ => by rw [RTy.ints, RVal.ints, wire, rwire]
  | .sint k, .int z, _ => by rw [RTy.ints, RVal.ints, wire, rwire]
  | .real k, .real k' bits, h => by
    rw [RVal.Fits] at h
    subst h
    rw [RTy.ints, RVal.ints, wire, rwire, code_toInt]
  | .arr t n, .arr vs, h => by
    rw [RVal.Fits] at h
    rw [RTy.ints, RVal.ints, wire, rwire, vals_intss_map, List.flatMap_map]
    have h2 := h.2
    clear h
    induction vs with
    | nil => rfl
    | cons v vs ih =>
      rw [List.flatMap_cons, List.flatMap_cons, wire_ints t v (h2 v (List.mem_cons_self ..)), ih fun u hu => h2 u (List.mem_cons_of_mem _ hu)]
  | .user size fs, .user vs, h => by
    rw [RVal.Fits] at h
    rw [RTy.ints, RVal.ints, wire, rwire]
    exact wires_ints fs vs h

theorem wires_ints : ∀ (ts : List RTy) (vs : List RVal), RVal.FitsAll ts vs → wires e .twosComplement (RTy.intss ts) (RVal.intss vs) = rwires e ts vs
  | [], [], _ => by rw [RTy.intss, RVal.intss, wires, rwires] <;> simp
  | t :: ts, v :: vs, h => by
    rw [RVal.FitsAll] at h
    rw [RTy.intss, RVal.intss, wires, rwires, wire_ints t v h.1, wires_ints ts vs h.2]
end

theorem callR_eq (hm : P.signedMacro = some s) {cb : RCallback σ} (hc : ∀ args w r w', cb.fn args w = .ret r w' → RetFits cb.ret r) (L : Lens τ σ) (src : Eff τ Byte)
    (dest : Byte → Eff τ Unit) : callR P e s cb L src dest = call P e s (RCallback.ints cb) L src dest := by
  unfold callR call
  rw [readFromR_eq hm]
  refine Eff.bind_congr fun w mem w1 _ => ?_
  rw [invoke_eq]
  show (Eff.lift (readAllR P e s cb.params mem 0) >>= _) w1 = (Eff.lift (readAll P e s (RTy.intss cb.params) mem 0 >>= _) >>= _) w1
  rw [readAllR_eq hm]
  cases readAll P e s (RTy.intss cb.params) mem 0 with
  | error f => rfl
  | ok vs =>
    show (Eff.zoom L (cb.fn (RVal.ofs cb.params vs)) >>= _) w1 = (Eff.zoom L (cb.fn (RVal.ofs cb.params vs) >>= fun r => pure (r.map RVal.ints)) >>= _) w1
    cases hr : cb.fn (RVal.ofs cb.params vs) (L.get w1) with
    | fault f =>
      have hr' : (cb.fn (RVal.ofs cb.params vs) >>= fun r => pure (r.map RVal.ints)) (L.get w1) = .fault f := Eff.bind_fault hr
      rw [Eff.bind_fault (show Eff.zoom L (cb.fn (RVal.ofs cb.params vs)) w1 = .fault f by unfold Eff.zoom; rw [hr]),
        Eff.bind_fault (show Eff.zoom L (cb.fn (RVal.ofs cb.params vs) >>= fun r => pure (r.map RVal.ints)) w1 = .fault f by unfold Eff.zoom; rw [hr'])]
    | threw v =>
      have hr' : (cb.fn (RVal.ofs cb.params vs) >>= fun r => pure (r.map RVal.ints)) (L.get w1) = .threw v := Eff.bind_threw hr
      rw [Eff.bind_threw (zoom_threw hr), Eff.bind_threw (zoom_threw hr')]
    | ret r v =>
      have h := hc _ _ _ _ hr
      have hr' : (cb.fn (RVal.ofs cb.params vs) >>= fun r => pure (r.map RVal.ints)) (L.get w1) = .ret (r.map RVal.ints) v := Eff.bind_ret hr
      rw [Eff.bind_ret (zoom_ret hr), Eff.bind_ret (zoom_ret hr')]
      show _ = (match cb.ret.map RTy.ints, r.map RVal.ints with
        | none, none => pure ()
        | some t, some v => insert P e s t v dest
        | _, _ => Eff.lift (.error .illTyped) : Eff τ Unit) (L.put v w1)
      cases hret : cb.ret with
      | none =>
        cases r with
        | none => rfl
        | some u => rw [hret] at h; cases h
      | some t =>
        cases r with
        | none => rw [hret] at h; cases h
        | some u =>
          rw [hret] at h
          show (Eff.lift (makeR P e s [t] [u]) >>= _) _ = (Eff.lift (Tuple.make P e s [RTy.ints t] [RVal.ints u]) >>= _) _
          rw [makeR_eq hm (by rw [RVal.ShapedAll]; exact ⟨fits_shaped t u h, by rw [RVal.ShapedAll]; trivial⟩)]
          rfl

end Upd
