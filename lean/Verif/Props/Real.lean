import Verif.Lemmas.Real
import Verif.Lemmas.Session
import Verif.Props.Tuple
import Verif.Props.Key
import Verif.Props.Buffered

/-!
# C115: floating-point numbers in arrays, classes, tuples, requests and responses

The macro for the signed representation is the signed mode of the format (`P.signedMacro = some s`). Restrictions on types (they exist, no padding inside arrays) are those on the types where
floating-point numbers are replaced by integers of the same size.
-/

namespace Upd
open Spec TypeList

variable {σ τ : Type} {P Q : Platform} {e : Endian} {s : Mode}

/-- C115, objects. The bytes written for a value are those of the elements one after the other, where a floating-point number has the bytes of its object representation in the order of the format; the
rest of the buffer is left as it was. Another host reads the same value: all the bits of the floating-point numbers, infinities and NaN included. -/
theorem C115_object (hP : P.Valid) (hQ : Q.Valid) (hs : Supported P e s) (hsQ : Supported Q e s) (hm : P.signedMacro = some s) (hmQ : Q.signedMacro = some s) {t : RTy} (hw : (RTy.ints t).WF)
    (hp : Packed (RTy.ints t)) {v : RVal} (hv : RVal.Fits t v) {mem : Mem} {off : Nat} (h : off + t.serSize ≤ mem.length) :
    (rwire e t v).length = t.serSize ∧ writeR P e s t v mem off = .ok (splice mem off (rwire e t v)) ∧ readR Q e s t (splice mem off (rwire e t v)) off = .ok v := by
  have hmode := native_mode hP hm
  have hsz : wireSize (RTy.ints t) = t.serSize := by rw [← serSize_ints, packed_serSize _ hp]
  have hwr := writeAs_packed hP hs hw hp (fits_ints hP hm t v hw hv) (by rw [hsz]; exact h)
  have hlen := wire_length (e := e) (s := s) hp (fits_ints hP hm t v hw hv)
  subst hmode
  rw [wire_ints t v hv] at hwr hlen
  rw [hsz] at hlen
  refine ⟨hlen, by rw [writeR_eq hm t v (fits_shaped t v hv)]; exact hwr, ?_⟩
  rw [readR_eq hmQ, readAs_packed hQ hsQ hw hp (fits_ints hQ hmQ t v hw hv) (by
    rw [wire_ints t v hv, hsz, ← hlen]
    exact slice_splice_same (by rw [hlen]; exact h))]
  show Except.ok _ = _
  rw [of_ints t v (fits_shaped t v hv)]

theorem makeR_ok (hP : P.Valid) (hs : Supported P e s) (hm : P.signedMacro = some s) {ts : List RTy} (hw : Ty.WFs (RTy.intss ts)) (hp : PackedAll (RTy.intss ts)) {vs : List RVal}
    (hv : RVal.FitsAll ts vs) : makeR P e s ts vs = .ok (rwires e ts vs) := by
  have hmode := native_mode hP hm
  rw [makeR_eq hm (fitsAll_shaped ts vs hv), make_wires hP hs hw hp (fitsAll_ints hP hm ts vs hw hv)]
  subst hmode
  rw [wires_ints ts vs hv]

theorem ofs_get : ∀ {ts : List RTy} {vs : List RVal} {i : Nat} {t : RTy} {v : RVal}, RVal.FitsAll ts vs → ts[i]? = some t → vs[i]? = some v → RVal.Fits t v
  | [], _, _, _, _, _, h, _ => by simp at h
  | _ :: _, [], _, _, _, hf, _, _ => by rw [RVal.FitsAll] at hf; exact hf.elim; all_goals simp
  | t :: ts, v :: vs, 0, _, _, hf, ht, hv => by
    rw [RVal.FitsAll] at hf
    simp at ht hv
    subst ht hv
    exact hf.1
  | t :: ts, v :: vs, i + 1, _, _, hf, ht, hv => by
    rw [RVal.FitsAll] at hf
    exact ofs_get hf.2 (by simpa using ht) (by simpa using hv)

/-- C115, tuples. A tuple made of values holds their bytes, one after the other; the values are got from it, on another host too. -/
theorem C115_tuple (hP : P.Valid) (hQ : Q.Valid) (hs : Supported P e s) (hsQ : Supported Q e s) (hm : P.signedMacro = some s) (hmQ : Q.signedMacro = some s) {ts : List RTy}
    (hw : Ty.WFs (RTy.intss ts)) (hp : PackedAll (RTy.intss ts)) {vs : List RVal} (hv : RVal.FitsAll ts vs) :
    makeR P e s ts vs = .ok (rwires e ts vs) ∧ ∀ i t v, ts[i]? = some t → vs[i]? = some v → getR Q e s ts i (rwires e ts vs) = .ok v := by
  refine ⟨makeR_ok hP hs hm hw hp hv, fun i t v ht hvi => ?_⟩
  obtain ⟨mem, h1, _, h3⟩ := C16_construct_get hP hQ hs hsQ hw (packedAll_loose _ hp) (fitsAll_ints hP hm ts vs hw hv) (fitsAll_ints hQ hmQ ts vs hw hv)
  have h4 := makeR_ok hP hs hm hw hp hv
  rw [makeR_eq hm (fitsAll_shaped ts vs hv), h1] at h4
  cases h4
  have hi : i < (RVal.intss vs).length := by
    rw [vals_intss_map, List.length_map]
    exact (List.getElem?_eq_some_iff.mp hvi).1
  have h5 := h3 i hi
  have h6 : (RVal.intss vs)[i] = RVal.ints v := by
    have := (List.getElem?_eq_some_iff.mp hvi).2
    simp only [vals_intss_map, List.getElem_map, this]
  rw [getR_eq hmQ ht, h5, h6]
  show Except.ok _ = _
  rw [of_ints t v (fits_shaped t v (ofs_get hv ht hvi))]

theorem rwires_split (hP : P.Valid) (hm : P.signedMacro = some s) (hsup : Supported P e s) : ∀ {ts : List RTy} {vs : List RVal} {i : Nat} {t : RTy} (hp : PackedAll (RTy.intss ts)) (hw : Ty.WFs (RTy.intss ts)) (_ : RVal.FitsAll ts vs) (_ : ts[i]? = some t),
    ∃ A B v, A.length = RTy.serSizes (ts.take i) ∧ vs[i]? = some v ∧ rwires e ts vs = A ++ rwire e t v ++ B ∧ ∀ u, rwires e ts (vs.set i u) = A ++ rwire e t u ++ B
  | [], _, _, _, _, _, _, h => by simp at h
  | _ :: _, [], _, _, _, _, hf, _ => by rw [RVal.FitsAll] at hf; exact hf.elim; all_goals simp
  | t :: ts, v :: vs, 0, _, hp, hw, hf, ht => by
    simp at ht
    subst ht
    exact ⟨[], rwires e ts vs, v, rfl, rfl, by rw [rwires]; rfl, fun u => by rw [List.set_cons_zero, rwires]; rfl⟩
  | t :: ts, v :: vs, i + 1, t', hp, hw, hf, ht => by
    rw [RVal.FitsAll] at hf
    rw [RTy.intss, PackedAll] at hp
    rw [RTy.intss, Ty.WFs] at hw
    obtain ⟨A, B, v', h1, h2, h3, h4⟩ := rwires_split hP hm hsup hp.2 hw.2 hf.2 (by simpa using ht)
    refine ⟨rwire e t v ++ A, B, v', ?_, by simpa using h2, by rw [rwires, h3]; simp, fun u => by rw [List.set_cons_succ, rwires, h4]; simp⟩
    have hl := (C115_object hP hP hsup hsup hm hm hw.1 hp.1 hf.1 (mem := List.replicate t.serSize 0#8) (off := 0) (by simp)).1
    rw [List.length_append, hl, h1, List.take_succ_cons, RTy.serSizes]

/-- C115, `set`. Setting an element of a tuple gives the tuple made of the updated values. -/
theorem C115_set (hP : P.Valid) (hs : Supported P e s) (hm : P.signedMacro = some s) {ts : List RTy} (hw : Ty.WFs (RTy.intss ts)) (hp : PackedAll (RTy.intss ts)) {vs : List RVal}
    (hv : RVal.FitsAll ts vs) {i : Nat} {t : RTy} (ht : ts[i]? = some t) {v : RVal} (hvi : RVal.Fits t v) : setR P e s ts i v (rwires e ts vs) = .ok (rwires e ts (vs.set i v)) := by
  obtain ⟨A, B, v0, h1, h2, h3, h4⟩ := rwires_split hP hm hs hp hw hv ht
  have hi := List.getElem?_eq_some_iff.mp ht
  have hwt : (RTy.ints t).WF ∧ Packed (RTy.ints t) := by
    have h5 := intss_get ts i
    rw [ht] at h5
    obtain ⟨h6, h7⟩ := List.getElem?_eq_some_iff.mp h5
    rw [← h7]
    exact ⟨wfs_get hw h6, packedAll_get hp h6⟩
  have hobj := fun u hu => C115_object hP hP hs hs hm hm hwt.1 hwt.2 (v := u) hu (mem := rwires e ts vs) (off := RTy.serSizes (ts.take i))
  have hl0 := (C115_object hP hP hs hs hm hm hwt.1 hwt.2 (ofs_get hv ht h2) (mem := List.replicate t.serSize 0#8) (off := 0) (by simp)).1
  have hlv := (C115_object hP hP hs hs hm hm hwt.1 hwt.2 hvi (mem := List.replicate t.serSize 0#8) (off := 0) (by simp)).1
  unfold setR
  rw [ht]
  show writeR P e s t v _ _ = _
  rw [(hobj v hvi (by rw [h3]; simp [h1, hl0])).2.1, h4, h3, splice, ← h1, hlv, ← hl0]
  simp

/-- C115, requests sent. -/
theorem C115_send (hP : P.Valid) (hs : Supported P e s) (hm : P.signedMacro = some s) {idxBytes index : Nat} (hi : 1 ≤ idxBytes) (hx : index < 256 ^ idxBytes) {params : List RTy}
    (hw : Ty.WFs (RTy.intss params)) (hp : PackedAll (RTy.intss params)) {args : List RVal} (hv : RVal.FitsAll params args) (dest : Byte → Eff τ Unit) :
    sendR P e s idxBytes index params args dest = putAll dest (wireBytes e idxBytes index ++ rwires e params args) := by
  unfold sendR
  rw [makeR_ok hP hs hm (ts := .uint idxBytes :: params) (vs := .int index :: args) (by rw [RTy.intss, Ty.WFs, RTy.ints, Ty.WF]; exact ⟨hi, hw⟩)
    (by rw [RTy.intss, PackedAll, RTy.ints, Packed]; exact ⟨trivial, hp⟩; all_goals simp)
    (by
      rw [RVal.FitsAll, RVal.Fits]
      refine ⟨⟨by omega, ?_⟩, hv⟩
      have : ((index : Nat) : Int) < ((256 ^ idxBytes : Nat) : Int) := Int.ofNat_lt.mpr hx
      simpa using this), Eff.lift_ok, pure_bind, outAll_eq]
  rw [rwires, rwire]
  rfl

theorem readFromR_ok (hP : P.Valid) (hs : Supported P e s) (hm : P.signedMacro = some s) {ts : List RTy} (hw : Ty.WFs (RTy.intss ts)) (hp : PackedAll (RTy.intss ts)) {vs : List RVal}
    (hv : RVal.FitsAll ts vs) {src : Eff τ Byte} {w w1 : τ} (hy : Yields src w (rwires e ts vs) w1) :
    readFromR P e s ts src w = .ret (rwires e ts vs) w1 ∧ readAllR P e s ts (rwires e ts vs) 0 = .ok vs := by
  have hmode := native_mode hP hm
  have hf := fitsAll_ints hP hm ts vs hw hv
  have hl := wires_length (e := e) (s := s) hp hf
  have hra := readAll_wires hP hs hw hp hf
  rw [readFromR_eq hm, readFrom_eq hP hs hw (packedAll_loose _ hp), packedAll_serSizes _ hp, ← hl, readAllR_eq hm]
  subst hmode
  rw [wires_ints ts vs hv] at hra ⊢
  refine ⟨getN_yields hy, ?_⟩
  rw [hra]
  show Except.ok _ = _
  rw [ofs_intss ts vs (fitsAll_shaped ts vs hv)]

/-- C115, responses read. -/
theorem C115_receive (hP : P.Valid) (hs : Supported P e s) (hm : P.signedMacro = some s) {ret : Option RTy} (hg : ∀ t, ret = some t → (RTy.ints t).WF ∧ Packed (RTy.ints t)) {r : Option RVal}
    (hr : RetFits ret r) {src : Eff τ Byte} {w w1 : τ} (hy : Yields src w (rresponse e ret r) w1) : receiveR P e s ret src w = .ret r w1 := by
  match ret, r, hr with
  | none, none, _ => cases hy; rfl
  | some t, some v, hr =>
    obtain ⟨hw, hp⟩ := hg t rfl
    have hw' : Ty.WFs (RTy.intss [t]) := by rw [RTy.intss, Ty.WFs, RTy.intss, Ty.WFs]; exact ⟨hw, trivial⟩
    have hp' : PackedAll (RTy.intss [t]) := by rw [RTy.intss, PackedAll, RTy.intss, PackedAll]; exact ⟨hp, trivial⟩
    have hv' : RVal.FitsAll [t] [v] := by rw [RVal.FitsAll, RVal.FitsAll]; exact ⟨hr, trivial⟩
    have hb : rwires e [t] [v] = rwire e t v := by rw [rwires, rwires, List.append_nil]; simp
    have h1 := (readFromR_ok hP hs hm hw' hp' hv' (src := src) (by rw [hb]; exact hy)).1
    have h2 := (C115_tuple hP hP hs hs hm hm hw' hp' hv').2 0 t v rfl rfl
    show (readFromR P e s [t] src >>= fun mem => Eff.lift (getR P e s [t] 0 mem) >>= fun v => pure (some v)) w = _
    rw [Eff.bind_ret h1, h2]
    rfl

/-- C115, callbacks. Given the bytes of arguments, the callback is called on these arguments, and the bytes of what it returns are put. -/
theorem C115_callback (hP : P.Valid) (hs : Supported P e s) (hm : P.signedMacro = some s) {cb : RCallback σ} (hg : SigOk (RCallback.sig cb)) (hc : RTyped cb) {args : List RVal}
    (hv : RVal.FitsAll cb.params args) (L : Lens τ σ) {src : Eff τ Byte} (dest : Byte → Eff τ Unit) {w w1 : τ} (hy : Yields src w (rwires e cb.params args) w1) :
    callR P e s cb L src dest w = (Eff.zoom L (cb.fn args) >>= fun r => putAll dest (rresponse e cb.ret r)) w1 := by
  obtain ⟨h1, h2⟩ := readFromR_ok hP hs hm hg.1 hg.2.1 hv hy
  unfold callR
  rw [Eff.bind_ret h1, h2, Eff.lift_ok, pure_bind]
  cases hr : cb.fn args (L.get w1) with
  | fault f =>
    have hz : Eff.zoom L (cb.fn args) w1 = .fault f := by unfold Eff.zoom; rw [hr]
    rw [Eff.bind_fault hz, Eff.bind_fault hz]
  | threw v => rw [Eff.bind_threw (zoom_threw hr), Eff.bind_threw (zoom_threw hr)]
  | ret r v =>
    rw [Eff.bind_ret (zoom_ret hr), Eff.bind_ret (zoom_ret hr)]
    have hf := hc args _ r v hv hr
    cases hret : cb.ret with
    | none =>
      cases r with
      | none => rfl
      | some u => rw [hret] at hf; cases hf
    | some t =>
      cases r with
      | none => rw [hret] at hf; cases hf
      | some u =>
        rw [hret] at hf
        obtain ⟨hw, hp⟩ := hg.2.2 (RTy.ints t) (by show cb.ret.map RTy.ints = _; rw [hret]; rfl)
        show (Eff.lift (makeR P e s [t] [u]) >>= _) _ = _
        rw [makeR_ok hP hs hm (by rw [RTy.intss, Ty.WFs, RTy.intss, Ty.WFs]; exact ⟨hw, trivial⟩) (by rw [RTy.intss, PackedAll, RTy.intss, PackedAll]; exact ⟨hp, trivial⟩)
          (by rw [RVal.FitsAll, RVal.FitsAll]; exact ⟨hf, trivial⟩), Eff.lift_ok, pure_bind, outAll_eq]
        rw [show rwires e [t] [u] = rwire e t u by rw [rwires, rwires, List.append_nil]; simp]
        rfl

theorem indexR (hP : P.Valid) (hs : Supported P e s) (hm : P.signedMacro = some s) {n i : Nat} (hn : 1 ≤ n) (hi : i < 256 ^ n) {src : Eff τ Byte} {w w0 : τ}
    (hy : Yields src w (wireBytes e n i) w0) :
    readFromR P e s [.uint n] src w = .ret (wireBytes e n i) w0 ∧ getR P e s [.uint n] 0 (wireBytes e n i) = .ok (.int i) := by
  have hw : Ty.WFs (RTy.intss [.uint n]) := by simp [RTy.intss, RTy.ints, Ty.WFs, Ty.WF, hn]
  have hp : PackedAll (RTy.intss [.uint n]) := by simp [RTy.intss, RTy.ints, PackedAll, Packed]
  have hv : RVal.FitsAll [.uint n] [.int i] := by
    have : ((i : Nat) : Int) < ((256 ^ n : Nat) : Int) := Int.ofNat_lt.mpr hi
    simp [RVal.FitsAll, RVal.Fits]
    simpa using this
  have hb : rwires e [.uint n] [.int i] = wireBytes e n i := by simp [rwires, rwire]
  rw [← hb] at hy ⊢
  exact ⟨(readFromR_ok hP hs hm hw hp hv hy).1, (C115_tuple hP hP hs hs hm hm hw hp hv).2 0 _ _ rfl rfl⟩

/-- C115, dispatchers. Given the bytes of a request, a dispatcher calls the function on the arguments and puts the bytes of what it returns. On an index which no function has, nothing else is got or put. -/
theorem C115_dispatcher (hP : P.Valid) (hs : Supported P e s) (hm : P.signedMacro = some s) {idxBytes : Nat} (hn : 1 ≤ idxBytes) {cbs : List (RCallback σ)} {i : Nat} (hi : i < 256 ^ idxBytes)
    (L : Lens τ σ) {src : Eff τ Byte} (dest : Byte → Eff τ Unit) {w w1 : τ} :
    (∀ cb args, cbs[i]? = some cb → SigOk (RCallback.sig cb) → RTyped cb → RVal.FitsAll cb.params args → Yields src w (wireBytes e idxBytes i ++ rwires e cb.params args) w1 →
      runR P e s idxBytes cbs L src dest w = (Eff.zoom L (cb.fn args) >>= fun r => putAll dest (rresponse e cb.ret r) >>= fun _ => pure i) w1) ∧
    (cbs.length ≤ i → Yields src w (wireBytes e idxBytes i) w1 → runR P e s idxBytes cbs L src dest w = .ret i w1) := by
  refine ⟨fun cb args hcb hg hc hv hy => ?_, fun hl hy => ?_⟩
  · obtain ⟨w0, hy0, hy1⟩ := Yields.split hy
    obtain ⟨h1, h2⟩ := indexR hP hs hm hn hi hy0
    unfold runR
    rw [Eff.bind_ret h1, h2, Eff.lift_ok, pure_bind]
    show (if (i : Int).toNat < cbs.length then _ else _ : Eff τ Nat) w0 = _
    rw [Int.toNat_natCast, if_pos (List.getElem?_eq_some_iff.mp hcb).1, hcb]
    show (callR P e s cb L src dest >>= fun _ => pure i) w0 = _
    have h3 := C115_callback hP hs hm hg hc hv L dest hy1
    show Eff.bind _ _ w0 = _
    unfold Eff.bind
    rw [h3, ← bind_assoc]
    rfl
  · obtain ⟨h1, h2⟩ := indexR hP hs hm hn hi hy
    unfold runR
    rw [Eff.bind_ret h1, h2, Eff.lift_ok, pure_bind]
    show (if (i : Int).toNat < cbs.length then _ else _ : Eff τ Nat) w1 = _
    rw [Int.toNat_natCast, if_neg (by omega)]
    rfl

/-- C115, any bytes. Whatever is got, a callback behaves as one which takes and returns integers in place of floating-point numbers, with the same object representations: what is proved of callbacks on
integers holds of it. -/
theorem C115_integers (hm : P.signedMacro = some s) {cb : RCallback σ} (hc : ∀ args w r w', cb.fn args w = .ret r w' → RetFits cb.ret r) (L : Lens τ σ) (src : Eff τ Byte)
    (dest : Byte → Eff τ Unit) : callR P e s cb L src dest = call P e s (RCallback.ints cb) L src dest :=
  callR_eq hm hc L src dest

/-- C115, remote calls. The client sends a request to the other host, whose dispatcher serves it, and reads the response: it gets what the function returns on the very objects which it gave. -/
theorem C115_remote (hP : P.Valid) (hQ : Q.Valid) (hs : Supported P e s) (hsQ : Supported Q e s) (hm : P.signedMacro = some s) (hmQ : Q.signedMacro = some s) {idxBytes : Nat} (hn : 1 ≤ idxBytes)
    {cbs : List (RCallback σ)} {i : Nat} (hi : i < 256 ^ idxBytes) {cb : RCallback σ} (hcb : cbs[i]? = some cb) (hg : SigOk (RCallback.sig cb)) (hc : RTyped cb) {args : List RVal}
    (hv : RVal.FitsAll cb.params args) (w : σ) :
    (do
        sendR P e s idxBytes i cb.params args Link.writeToSlave
        let _ ← runR Q e s idxBytes cbs Link.rest Link.readFromMaster Link.writeToMaster
        receiveR P e s cb.ret Link.readFromSlave : Eff (Link σ) (Option RVal)) ⟨[], [], w⟩ =
      match cb.fn args w with
      | .ret r w' => .ret r ⟨[], [], w'⟩
      | .threw w' => .threw ⟨[], [], w'⟩
      | .fault f => .fault f := by
  rw [C115_send hP hs hm hn hi hg.1 hg.2.1 hv, Eff.bind_ret (putAll_accepts (accepts_up _ [] [] w))]
  have hy := yields_up (wireBytes e idxBytes i ++ rwires e cb.params args) [] [] w
  rw [List.append_nil] at hy
  have hrun := (C115_dispatcher hQ hsQ hmQ hn (cbs := cbs) hi Link.rest (src := Link.readFromMaster) Link.writeToMaster
    (w := ⟨[] ++ (wireBytes e idxBytes i ++ rwires e cb.params args), [], w⟩) (w1 := ⟨[], [], w⟩)).1 cb args hcb hg hc hv (by rw [List.nil_append]; exact hy)
  cases hf : cb.fn args w with
  | fault f =>
    have hz : Eff.zoom Link.rest (cb.fn args) ⟨[], [], w⟩ = .fault f := by
      unfold Eff.zoom
      rw [show cb.fn args (Link.rest.get ⟨[], [], w⟩) = .fault f from hf]
    rw [Eff.bind_fault hz] at hrun
    exact Eff.bind_fault hrun
  | threw w' =>
    rw [Eff.bind_threw (zoom_threw (L := Link.rest) (w := ⟨[], [], w⟩) hf)] at hrun
    exact Eff.bind_threw hrun
  | ret r w' =>
    rw [Eff.bind_ret (zoom_ret (L := Link.rest) (w := ⟨[], [], w⟩) hf)] at hrun
    rw [show Link.rest.put w' ⟨[], [], w⟩ = ⟨[], [], w'⟩ from rfl, Eff.bind_ret (putAll_accepts (accepts_down _ [] [] w'))] at hrun
    rw [Eff.bind_ret hrun]
    have hy := yields_down (rresponse e cb.ret r) [] [] w'
    rw [List.append_nil] at hy
    exact C115_receive hP hs hm (fun t ht => hg.2.2 (RTy.ints t) (by show cb.ret.map RTy.ints = _; rw [ht]; rfl)) (hc args _ r w' hv hf) (by rw [List.nil_append]; exact hy)

/-! ### Dispatchers on any bytes, buffered dispatchers -/

theorem realRing_length (cbs : List (RCallback σ)) : (realRing e s cbs).decls.length = cbs.length := by simp [realRing]

theorem realRing_get {cbs : List (RCallback σ)} {i : Nat} (hi : i < (realRing e s cbs).decls.length) (hi' : i < cbs.length) :
    (realRing e s cbs).decls[i] = ⟨i, RCallback.sig cbs[i]⟩ := by simp [realRing]

theorem realDefs_get {cbs : List (RCallback σ)} {i : Nat} (hi : i < cbs.length) : realDefs cbs i = (RCallback.ints cbs[i]).fn := by
  funext args
  unfold realDefs
  rw [List.getElem?_eq_getElem hi]

/-- C115, any bytes. Whatever is got, the dispatcher behaves as the one of a keyring of functions which take and return integers in place of floating-point numbers. -/
theorem C115_dispatcher_integers (hm : P.signedMacro = some s) {cbs : List (RCallback σ)} (hn : cbs.length < 2 ^ 64) (hc : ∀ cb ∈ cbs, ∀ args w r w', cb.fn args w = .ret r w' → RetFits cb.ret r)
    (f : Features) (L : Lens τ σ) (src : Eff τ Byte) (dest : Byte → Eff τ Unit) :
    runR P e s (realRing e s cbs).idxBytes cbs L src dest = (Dispatcher.make (realRing e s cbs) f (realDefs cbs)).run P L src dest := by
  unfold runR Dispatcher.run Dispatcher.getIndex
  rw [readFromR_eq hm, bind_assoc]
  refine Eff.bind_congr fun w mem w1 _ => ?_
  rw [getR_eq hm (ts := [.uint (realRing e s cbs).idxBytes]) (i := 0) rfl, bind_assoc]
  show (Eff.lift (((Tuple.self e s [.uint (realRing e s cbs).idxBytes]).get P 0 mem).map _) >>= _) w1 = (Eff.lift ((Tuple.self e s [.uint (realRing e s cbs).idxBytes]).get P 0 mem) >>= _) w1
  cases (Tuple.self e s [.uint (realRing e s cbs).idxBytes]).get P 0 mem with
  | error g => rfl
  | ok v =>
    cases v with
    | bool b => rfl
    | arr vs => rfl
    | user vs => rfl
    | int z =>
      show (if z.toNat < cbs.length then _ else _ : Eff τ Nat) w1 = (if z.toNat < (realRing e s cbs).size then _ else _ : Eff τ Nat) w1
      rw [(realRing e s cbs).size_eq (by rw [realRing_length]; exact hn), realRing_length]
      by_cases hz : z.toNat < cbs.length
      · rw [if_pos hz, if_pos hz, List.getElem?_eq_getElem hz]
        have hz' : z.toNat < (realRing e s cbs).decls.length := by rw [realRing_length]; exact hz
        have ha := make_acts (f := f) (defs := realDefs cbs) hz'
        rw [at_eq ha, Eff.lift_ok, pure_bind, (makeAction_holds f _ _ _).invoke P L src dest]
        show (callR P e s cbs[z.toNat] L src dest >>= fun _ => pure z.toNat) w1 = _
        rw [callR_eq hm (hc _ (List.getElem_mem hz)), realRing_get hz' hz]
        show _ = (call P e s ⟨RCallback.sig cbs[z.toNat], realDefs cbs z.toNat⟩ L src dest >>= _) w1
        rw [realDefs_get hz]
        rfl
      · rw [if_neg hz, if_neg hz]

mutual
theorem of_fits (hP : P.Valid) (hm : P.signedMacro = some s) : ∀ (t : RTy) (v : Val), (RTy.ints t).WF → v.Fits (Safe P s) (RTy.ints t) → RVal.Fits t (RVal.of t v) ∧ RVal.ints (RVal.of t v) = v
  | .bool, .bool b, _, _ => ⟨by rw [RVal.of, RVal.Fits]; trivial; all_goals simp, rfl⟩
  | .uint n, .int z, _, h => ⟨by rw [RTy.ints, Val.Fits] at h; exact h, rfl⟩
  | .sint k, .int z, _, h => ⟨by
      rw [RTy.ints, Val.Fits] at h
      have hmode := native_mode hP hm
      subst hmode
      exact h.1, rfl⟩
  | .real k, .int z, hw, h => by
    rw [RTy.ints, Val.Fits] at h
    rw [RTy.ints, Ty.WF] at hw
    have hmode := native_mode hP hm
    subst hmode
    rw [RVal.of, RVal.Fits, RVal.ints]
    refine ⟨rfl, ?_⟩
    congr 1
    have hr : InRange k z := h.1
    unfold InRange at hr
    rw [BitVec.toInt_ofInt]
    have h2 : ((2 ^ (8 * k) : Nat) : Int) = 2 * 2 ^ (8 * k - 1) := by
      rw [show 8 * k = (8 * k - 1) + 1 by omega, Nat.pow_succ]
      simp
      omega
    apply Int.bmod_eq_of_le <;> omega
  | .arr t n, .arr vs, hw, h => by
    rw [RTy.ints, Ty.WF] at hw
    rw [RTy.ints, Val.Fits] at h
    rw [RVal.of, RVal.Fits, ofAll_map, RVal.ints, vals_intss_map, List.map_map, List.length_map]
    refine ⟨⟨h.1, fun v hv => ?_⟩, ?_⟩
    · obtain ⟨u, hu, rfl⟩ := List.mem_map.mp hv
      exact (of_fits hP hm t u hw.1 (h.2 u hu)).1
    · congr 1
      calc vs.map (RVal.ints ∘ RVal.of t) = vs.map id := List.map_congr_left fun v hv => (of_fits hP hm t v hw.1 (h.2 v hv)).2
        _ = vs := List.map_id vs
  | .user size fs, .user vs, hw, h => by
    rw [RTy.ints, Ty.WF] at hw
    rw [RTy.ints, Val.Fits] at h
    have := ofs_fits hP hm fs vs hw.2 h
    rw [RVal.of, RVal.Fits, RVal.ints]
    exact ⟨this.1, by rw [this.2]⟩

theorem ofs_fits (hP : P.Valid) (hm : P.signedMacro = some s) : ∀ (ts : List RTy) (vs : List Val), Ty.WFs (RTy.intss ts) → Val.FitsAll (Safe P s) (RTy.intss ts) vs → RVal.FitsAll ts (RVal.ofs ts vs) ∧ RVal.intss (RVal.ofs ts vs) = vs
  | [], [], _, _ => ⟨trivial, rfl⟩
  | t :: ts, v :: vs, hw, h => by
    rw [RTy.intss, Ty.WFs] at hw
    rw [RTy.intss, Val.FitsAll] at h
    have h1 := of_fits hP hm t v hw.1 h.1
    have h2 := ofs_fits hP hm ts vs hw.2 h.2
    rw [RVal.ofs, RVal.FitsAll, RVal.intss, h1.2, h2.2]
    exact ⟨⟨h1.1, h2.1⟩, rfl⟩
end

theorem ints_welltyped (hP : P.Valid) (hm : P.signedMacro = some s) {cb : RCallback σ} (hg : SigOk (RCallback.sig cb)) (hc : RTyped cb) : WellTyped P s (RCallback.ints cb) := by
  intro args w r w' hf hr
  have h1 := ofs_fits hP hm cb.params args hg.1 hf
  obtain ⟨r0, w0, h2, h3⟩ := Eff.bind_eq_ret hr
  cases h3
  have h4 := hc _ _ _ _ h1.1 h2
  show RetOk P s (cb.ret.map RTy.ints) (r0.map RVal.ints)
  cases hret : cb.ret with
  | none =>
    rw [hret] at h4
    cases r0 with
    | none => trivial
    | some u => cases h4
  | some t =>
    rw [hret] at h4
    cases r0 with
    | none => cases h4
    | some u => exact fits_ints hP hm t u (hg.2.2 (RTy.ints t) (by show cb.ret.map RTy.ints = _; rw [hret]; rfl)).1 h4

/-- C115, buffered dispatchers: the hypotheses of the theorems on them hold of the functions which take integers in place of floating-point numbers, so these theorems apply. -/
theorem C115_setting (hP : P.Valid) (hs : Supported P e s) (hm : P.signedMacro = some s) {cbs : List (RCallback σ)} (hn : cbs.length < 2 ^ 64) (hg : ∀ cb ∈ cbs, SigOk (RCallback.sig cb))
    (hc : ∀ cb ∈ cbs, RTyped cb) {f : Features}
    (hz : ∀ cb ∈ cbs, ∀ t ∈ cb.params, wireSize (RTy.ints t) ≤ t.sizeof ∧ (f = .weakReference → t.sizeof = wireSize (RTy.ints t))) :
    Setting P (realRing e s cbs) f (realDefs cbs) := by
  have hd : ∀ d ∈ (realRing e s cbs).decls, ∃ i, ∃ hi : i < cbs.length, d = ⟨i, RCallback.sig cbs[i]⟩ := by
    intro d hd
    obtain ⟨i, hi, rfl⟩ := List.mem_iff_getElem.mp hd
    have hi' : i < cbs.length := by rw [realRing_length] at hi; exact hi
    exact ⟨i, hi', realRing_get hi hi'⟩
  refine ⟨hP, ⟨by rw [realRing_length]; exact hn, fun d h => ?_⟩, hs, fun d h t ht => ?_, fun d h => ?_⟩
  · obtain ⟨i, hi, rfl⟩ := hd d h
    exact hg _ (List.getElem_mem hi)
  · obtain ⟨i, hi, rfl⟩ := hd d h
    have ht : t ∈ RTy.intss cbs[i].params := ht
    rw [intss_map] at ht
    obtain ⟨u, hu, rfl⟩ := List.mem_map.mp ht
    have := hz _ (List.getElem_mem hi) u hu
    rw [sizeof_ints]
    exact this
  · obtain ⟨i, hi, rfl⟩ := hd d h
    show WellTyped P s ⟨RCallback.sig cbs[i], realDefs cbs i⟩
    rw [realDefs_get hi]
    exact ints_welltyped hP hm (hg _ (List.getElem_mem hi)) (hc _ (List.getElem_mem hi))

/-- C115, buffered dispatchers. The bytes of a request are put one by one, between two packets: on the last one, the function is called on the very arguments given, and the bytes of what it returns are
to be got. -/
theorem C115_buffered (hm : P.signedMacro = some s) {cbs : List (RCallback σ)} {f : Features} (h : Setting P (realRing e s cbs) f (realDefs cbs)) {shared : Bool} {b : Buf σ} {w : σ}
    (hr : Reachable P (realRing e s cbs) f (realDefs cbs) shared (b, w)) (hp : Pending b []) {i : Nat} {cb : RCallback σ} (hcb : cbs[i]? = some cb) (hc : RTyped cb) {args : List RVal}
    (hv : RVal.FitsAll cb.params args) (ho : retSize (RCallback.sig cb).ret ≤ outRoom (realRing e s cbs) shared) {r : Option RVal} {w' : σ} (hd : cb.fn args w = .ret r w') {req : List Byte}
    (hreq : req = wireBytes e (realRing e s cbs).idxBytes i ++ rwires e cb.params args) :
    ∃ b', puts P req (b, w) = .ret (List.replicate (req.length - 1) .loading ++ [.resolved]) (b', w') ∧ Pending b' [] ∧ Unread b' (rresponse e cb.ret r) := by
  obtain ⟨hi, rfl⟩ := List.getElem?_eq_some_iff.mp hcb
  have hi' : i < (realRing e s cbs).decls.length := by rw [realRing_length]; exact hi
  have hget := realRing_get hi' hi
  have hmode := native_mode h.valid hm
  have hg : SigOk (RCallback.sig cbs[i]) := by
    have := h.ring.2 _ (List.getElem_mem hi')
    rw [hget] at this
    exact this
  have hf := fitsAll_ints h.valid hm _ args hg.1 hv
  have hfn : realDefs cbs i (RVal.intss args) w = .ret (r.map RVal.ints) w' := by
    rw [realDefs_get hi]
    show (cbs[i].fn (RVal.ofs cbs[i].params (RVal.intss args)) >>= fun r => pure (r.map RVal.ints)) w = _
    rw [ofs_intss _ args (fitsAll_shaped _ args hv), Eff.bind_ret hd]
    rfl
  have hrf := hc args w r w' hv hd
  have := C39_whole_request h hr hp (i := i) hi' (args := RVal.intss args) (by rw [hget]; exact hf) (by rw [hget]; exact ho) (r := r.map RVal.ints) (w' := w') (by rw [hget]; exact hfn) (req := req)
    (by
      rw [hreq, hget]
      show _ = wireBytes e _ i ++ wires e s (RTy.intss cbs[i].params) (RVal.intss args)
      subst hmode
      rw [wires_ints _ args hv])
  obtain ⟨b', h1, h2, h3⟩ := this
  refine ⟨b', h1, h2, ?_⟩
  rw [hget] at h3
  have he : response e s (cbs[i].ret.map RTy.ints) (r.map RVal.ints) = rresponse e cbs[i].ret r := by
    subst hmode
    cases hret : cbs[i].ret with
    | none =>
      rw [hret] at hrf
      cases r with
      | none => rfl
      | some u => cases hrf
    | some t =>
      rw [hret] at hrf
      cases r with
      | none => cases hrf
      | some u => exact wire_ints t u hrf
  rw [← he]
  exact h3

/-! ### Examples -/

/-- `std::array<double, 2> f(float x, struct { bool; float } y, std::array<double, 2> z)`, which logs `x` and returns `z` with its elements swapped. -/
def realCb : RCallback (List RVal) where
  params := [.real 4, .user 8 [.bool, .real 4], .arr (.real 8) 2]
  ret := some (.arr (.real 8) 2)
  fn := fun args w =>
    match args with
    | [x, _, .arr [a, b]] => .ret (some (.arr [b, a])) (w ++ [x])
    | _ => .ret (some (.arr [.real 8 0, .real 8 0])) w

theorem realCb_sig : SigOk (RCallback.sig realCb) := by
  refine ⟨?_, ?_, fun t ht => ?_⟩
  · simp [RCallback.sig, realCb, RTy.intss, RTy.ints, Ty.WFs, Ty.WF]
  · simp [RCallback.sig, realCb, RTy.intss, RTy.ints, PackedAll, Packed, Ty.sizeof, wireSize]
  · simp only [RCallback.sig, realCb, Option.map_some, Option.some.injEq] at ht
    subst ht
    simp [RTy.ints, Ty.WF, Packed, Ty.sizeof, wireSize]

theorem realCb_typed : RTyped realCb := by
  intro args w r w' hf hr
  obtain ⟨x, y, z, rfl⟩ : ∃ x y z, args = [x, y, z] := by
    match args, hf with
    | [x, y, z], _ => exact ⟨x, y, z, rfl⟩
  simp only [realCb, RVal.FitsAll] at hf
  obtain ⟨_, _, hz, _⟩ := hf
  match z, hz with
  | .arr [a, b], hz =>
    rw [RVal.Fits] at hz
    have ha := hz.2 a (by simp)
    have hb := hz.2 b (by simp)
    cases hr
    show RVal.Fits _ _
    rw [RVal.Fits]
    refine ⟨rfl, fun v hv => ?_⟩
    rcases List.mem_cons.mp hv with rfl | hv
    · exact hb
    · rw [List.mem_singleton.mp hv]; exact ha

/-- A NaN with a payload, negative zero, the least denormal number and an infinity. -/
def realArgs : List RVal := [.real 4 0x7fc00001, .user [.bool true, .real 4 0x80000000], .arr [.real 8 1, .real 8 0xfff0000000000000]]

theorem realArgs_fit : RVal.FitsAll realCb.params realArgs := by simp [realCb, realArgs, RVal.FitsAll, RVal.Fits]

theorem rmacros_big : Supported ppcMacros .big .twosComplement := Or.inr (Or.inr ⟨rfl, rfl⟩)

example : (do
      sendR pcMacros .big .twosComplement 1 0 realCb.params realArgs Link.writeToSlave
      let _ ← runR ppcMacros .big .twosComplement 1 [realCb] Link.rest Link.readFromMaster Link.writeToMaster
      receiveR pcMacros .big .twosComplement realCb.ret Link.readFromSlave : Eff (Link (List RVal)) (Option RVal)) ⟨[], [], []⟩ =
    .ret (some (.arr [.real 8 0xfff0000000000000, .real 8 1])) ⟨[], [], [.real 4 0x7fc00001]⟩ :=
  C115_remote pcMacros_valid ppcMacros_valid (pcMacros_supported _ _) rmacros_big rfl rfl (by decide) (by decide) rfl realCb_sig realCb_typed realArgs_fit []

example : rwires .big realCb.params realArgs =
    [0x7f#8, 0xc0#8, 0#8, 1#8, 1#8, 0x80#8, 0#8, 0#8, 0#8, 0#8, 0#8, 0#8, 0#8, 0#8, 0#8, 0#8, 1#8, 0xff#8, 0xf0#8, 0#8, 0#8, 0#8, 0#8, 0#8, 0#8] := by rfl

example : makeR pcMacros .big .twosComplement realCb.params realArgs = .ok (rwires .big realCb.params realArgs) :=
  (C115_tuple pcMacros_valid pcMacros_valid (pcMacros_supported _ _) (pcMacros_supported _ _) rfl rfl realCb_sig.1 realCb_sig.2.1 realArgs_fit).1

example : setR pcMacros .little .twosComplement [.bool, .real 4] 1 (.real 4 0x3f800000) (rwires .little [.bool, .real 4] [.bool true, .real 4 0]) =
    .ok [1#8, 0#8, 0#8, 0x80#8, 0x3f#8] :=
  C115_set pcMacros_valid (pcMacros_supported _ _) rfl (by simp [RTy.intss, RTy.ints, Ty.WFs, Ty.WF]) (by simp [RTy.intss, RTy.ints, PackedAll, Packed])
    (by simp [RVal.FitsAll, RVal.Fits]) (i := 1) (t := .real 4) rfl (by simp [RVal.Fits])

example (L : Lens τ (List RVal)) (src : Eff τ Byte) (dest : Byte → Eff τ Unit) :
    callR pcMacros .little .twosComplement ⟨[.real 4], some .bool, fun args w => .ret (some (.bool (args.length == 1))) w⟩ L src dest =
      call pcMacros .little .twosComplement (RCallback.ints ⟨[.real 4], some .bool, fun args w => .ret (some (.bool (args.length == 1))) w⟩) L src dest :=
  C115_integers rfl (fun _ _ _ _ h => by cases h; simp [RetFits, RVal.Fits]) L src dest

example : runR pcMacros .little .twosComplement 1 [realCb] Link.rest Link.readFromMaster Link.writeToMaster ⟨[1#8], [], []⟩ = .ret 1 ⟨[], [], []⟩ :=
  (C115_dispatcher pcMacros_valid (pcMacros_supported _ _) rfl (by decide) (by decide) _ _).2 (by decide) (.cons rfl (.nil _))

/-- `float f(float x)`, which logs `x` and returns it. -/
def realEcho : RCallback (List RVal) := ⟨[.real 4], some (.real 4), fun args w => .ret (some (args.headD (.real 4 0))) (w ++ args)⟩

theorem realEcho_sig : SigOk (RCallback.sig realEcho) := by
  refine ⟨by simp [RCallback.sig, realEcho, RTy.intss, RTy.ints, Ty.WFs, Ty.WF], by simp [RCallback.sig, realEcho, RTy.intss, RTy.ints, PackedAll, Packed], fun t ht => ?_⟩
  simp only [RCallback.sig, realEcho, Option.map_some, Option.some.injEq] at ht
  subst ht
  simp [RTy.ints, Ty.WF, Packed]

theorem realEcho_typed : RTyped realEcho := by
  intro args w r w' hf hr
  match args, hf with
  | [x], hf =>
    simp only [realEcho, RVal.FitsAll] at hf
    cases hr
    exact hf.1

theorem realEcho_setting (f : Features) : Setting pcMacros (realRing .big .twosComplement [realEcho]) f (realDefs [realEcho]) :=
  C115_setting pcMacros_valid (pcMacros_supported _ _) rfl (by decide) (by simpa using realEcho_sig) (by simpa using realEcho_typed)
    (by simp [realEcho, RTy.ints, wireSize, RTy.sizeof])

example : ∃ b', puts pcMacros [0#8, 0x7f#8, 0xc0#8, 0#8, 1#8] (fresh pcMacros (realRing .big .twosComplement [realEcho]) .any (realDefs [realEcho]) (2 ^ 64 - 1) false, []) =
      .ret [.loading, .loading, .loading, .loading, .resolved] (b', [.real 4 0x7fc00001]) ∧ Pending b' [] ∧ Unread b' [0x7f#8, 0xc0#8, 0#8, 1#8] :=
  C115_buffered (e := .big) (s := .twosComplement) rfl (realEcho_setting .any) (shared := false) ⟨_, _, .start⟩ (fresh_pending _ _ _ _ _ _) (i := 0) rfl realEcho_typed (args := [.real 4 0x7fc00001])
    (by simp [realEcho, RVal.FitsAll, RVal.Fits]) (by decide) rfl rfl

end Upd
