import Verif.Model.Packet
import Verif.Lemmas.Unwire
import Verif.Props.Tuple

/-!
# C71: packets with a header and a checksum
-/

namespace Upd
open Spec

variable {τ : Type}

theorem wires_append {e : Endian} {s : Mode} {ts us : List Ty} {vs ws : List Val} (h : vs.length = ts.length) :
    wires e s (ts ++ us) (vs ++ ws) = wires e s ts vs ++ wires e s us ws := by
  induction ts generalizing vs with
  | nil => cases vs with
    | nil => simp [wires]
    | cons v vs => simp at h
  | cons t ts ih => cases vs with
    | nil => simp at h
    | cons v vs =>
      simp only [List.cons_append, wires, List.append_assoc]
      rw [ih (by simpa using h)]

theorem wireSizes_append (ts us : List Ty) : wireSizes (ts ++ us) = wireSizes ts + wireSizes us := by
  induction ts with
  | nil => simp [wireSizes]
  | cons t ts ih => simp only [List.cons_append, wireSizes, ih]; omega

theorem fitsAll_append {leaf : Nat → Int → Prop} {ts us : List Ty} {vs ws : List Val} (h : Val.FitsAll leaf ts vs) (h' : Val.FitsAll leaf us ws) :
    Val.FitsAll leaf (ts ++ us) (vs ++ ws) := by
  induction ts generalizing vs with
  | nil => cases vs with
    | nil => exact h'
    | cons v vs => simp [Val.FitsAll] at h
  | cons t ts ih => cases vs with
    | nil => simp [Val.FitsAll] at h
    | cons v vs =>
      simp only [Val.FitsAll] at h
      simp only [List.cons_append, Val.FitsAll]
      exact ⟨h.1, ih h.2⟩

theorem wfs_append {ts us : List Ty} (h : Ty.WFs ts) (h' : Ty.WFs us) : Ty.WFs (ts ++ us) := by
  induction ts with
  | nil => exact h'
  | cons t ts ih => simp only [Ty.WFs] at h; simp only [List.cons_append, Ty.WFs]; exact ⟨h.1, ih h.2⟩

theorem packedAll_append {ts us : List Ty} (h : PackedAll ts) (h' : PackedAll us) : PackedAll (ts ++ us) := by
  induction ts with
  | nil => exact h'
  | cons t ts ih => simp only [PackedAll] at h; simp only [List.cons_append, PackedAll]; exact ⟨h.1, ih h.2⟩

theorem range_middle (x y z : List Byte) : Tuple.range (x ++ y ++ z) x.length z.length = y := by
  rw [Tuple.range, List.append_assoc, List.drop_append_of_le_length (Nat.le_refl _), List.drop_length, List.nil_append]
  rw [show (x ++ (y ++ z)).length - x.length - z.length = y.length by simp]
  exact List.take_left ..

/-- C71, sender. The packet is the header, the data, and the checksum of the encoding of the data. `c0` is the placeholder for the checksum. -/
theorem C71_send {P : Platform} (hP : P.Valid) {e : Endian} {s : Mode} (hs : Supported P e s) {hts dts : List Ty} {ct : Ty}
    (hwh : Ty.WFs hts) (hwd : Ty.WFs dts) (hwc : ct.WF) (hph : PackedAll hts) (hpd : PackedAll dts) (hpc : Packed ct) {hvs dvs : List Val}
    (hfh : Val.FitsAll (Safe P s) hts hvs) (hfd : Val.FitsAll (Safe P s) dts dvs) {c0 : Val} (hf0 : c0.Fits (Safe P s) ct) {crc : List Byte → Val}
    (hfc : (crc (wires e s dts dvs)).Fits (Safe P s) ct) {dest : Byte → Eff τ Unit} {w w' : τ}
    (hd : Accepts dest w (wires e s hts hvs ++ wires e s dts dvs ++ wire e s ct (crc (wires e s dts dvs))) w') :
    Packet.send P e s (hts ++ dts ++ [ct]) (wireSizes hts) (wireSize ct) crc (hvs ++ dvs ++ [c0]) dest w = .ret () w' := by
  have hw : Ty.WFs (hts ++ dts ++ [ct]) := wfs_append (wfs_append hwh hwd) (by simp [Ty.WFs, hwc])
  have hp : PackedAll (hts ++ dts ++ [ct]) := packedAll_append (packedAll_append hph hpd) (by simp [PackedAll, hpc])
  have hf : Val.FitsAll (Safe P s) (hts ++ dts ++ [ct]) (hvs ++ dvs ++ [c0]) :=
    fitsAll_append (fitsAll_append hfh hfd) (by simp [Val.FitsAll, hf0])
  have hlh := wires_length (e := e) (s := s) hph hfh
  have hld := wires_length (e := e) (s := s) hpd hfd
  have hl0 := wire_length (e := e) (s := s) hpc hf0
  have hlc := wire_length (e := e) (s := s) hpc hfc
  have hws : wires e s (hts ++ dts ++ [ct]) (hvs ++ dvs ++ [c0]) = wires e s hts hvs ++ wires e s dts dvs ++ wire e s ct c0 := by
    rw [wires_append (by simp [fitsAll_length hfh, fitsAll_length hfd]), wires_append (fitsAll_length hfh)]
    simp [wires]
  unfold Packet.send
  rw [(C15_tuple_layout hP hs hw hp hf).1, Eff.lift_ok, pure_bind, hws]
  have hr : Tuple.range (wires e s hts hvs ++ wires e s dts dvs ++ wire e s ct c0) (wireSizes hts) (wireSize ct) = wires e s dts dvs := by
    rw [← hlh, ← hl0]; exact range_middle ..
  rw [hr]
  have hi : (hts ++ dts ++ [ct]).length - 1 < (hts ++ dts ++ [ct]).length := by simp
  have hn : (hts ++ dts ++ [ct]).length - 1 = (hts ++ dts).length := by simp
  have hget : (hts ++ dts ++ [ct])[(hts ++ dts ++ [ct]).length - 1] = ct := by simp
  have htk : (hts ++ dts ++ [ct]).take ((hts ++ dts ++ [ct]).length - 1) = hts ++ dts := by rw [hn]; exact List.take_left ..
  have hset : (Tuple.self e s (hts ++ dts ++ [ct])).set P ((hts ++ dts ++ [ct]).length - 1) (crc (wires e s dts dvs))
      (wires e s hts hvs ++ wires e s dts dvs ++ wire e s ct c0) =
        .ok (wires e s hts hvs ++ wires e s dts dvs ++ wire e s ct (crc (wires e s dts dvs))) := by
    rw [View.set_eq P _ hi]
    show writeAs P e s (hts ++ dts ++ [ct])[(hts ++ dts ++ [ct]).length - 1] _ _ (0 + Ty.serSizes ((hts ++ dts ++ [ct]).take ((hts ++ dts ++ [ct]).length - 1))) = _
    rw [hget, htk, Nat.zero_add, packedAll_serSizes _ (packedAll_append hph hpd), wireSizes_append,
      writeAs_packed hP hs hwc hpc hfc (by simp only [List.length_append]; omega)]
    congr 1
    have ht : (wires e s hts hvs ++ wires e s dts dvs).length = wireSizes hts + wireSizes dts := by simp only [List.length_append]; omega
    rw [splice, ← ht, List.take_left, List.drop_eq_nil_of_le (by simp only [List.length_append]; omega), List.append_nil]
  rw [hset, Eff.lift_ok, pure_bind, outAll_eq]
  exact putAll_accepts hd

/-- C71, receiver, possibly on another platform: the elements are those which were sent, and the checksum computed is the one received. -/
theorem C71_receive {P : Platform} (hP : P.Valid) {e : Endian} {s : Mode} (hs : Supported P e s) {hts dts : List Ty} {ct : Ty}
    (hwh : Ty.WFs hts) (hwd : Ty.WFs dts) (hwc : ct.WF) (hph : PackedAll hts) (hpd : PackedAll dts) (hpc : Packed ct) {hvs dvs : List Val}
    (hfh : Val.FitsAll (Safe P s) hts hvs) (hfd : Val.FitsAll (Safe P s) dts dvs) {crc : List Byte → Val}
    (hfc : (crc (wires e s dts dvs)).Fits (Safe P s) ct) {src : Eff τ Byte} {w w' : τ}
    (hy : Yields src w (wires e s hts hvs ++ wires e s dts dvs ++ wire e s ct (crc (wires e s dts dvs))) w') :
    Packet.receive P e s (hts ++ dts ++ [ct]) (wireSizes hts) (wireSize ct) crc src w =
      .ret (hvs ++ dvs ++ [crc (wires e s dts dvs)], crc (wires e s dts dvs)) w' := by
  have hw : Ty.WFs (hts ++ dts ++ [ct]) := wfs_append (wfs_append hwh hwd) (by simp [Ty.WFs, hwc])
  have hp : PackedAll (hts ++ dts ++ [ct]) := packedAll_append (packedAll_append hph hpd) (by simp [PackedAll, hpc])
  have hf : Val.FitsAll (Safe P s) (hts ++ dts ++ [ct]) (hvs ++ dvs ++ [crc (wires e s dts dvs)]) :=
    fitsAll_append (fitsAll_append hfh hfd) (by simp [Val.FitsAll, hfc])
  have hlh := wires_length (e := e) (s := s) hph hfh
  have hlc := wire_length (e := e) (s := s) hpc hfc
  have hws : wires e s (hts ++ dts ++ [ct]) (hvs ++ dvs ++ [crc (wires e s dts dvs)]) =
      wires e s hts hvs ++ wires e s dts dvs ++ wire e s ct (crc (wires e s dts dvs)) := by
    rw [wires_append (by simp [fitsAll_length hfh, fitsAll_length hfd]), wires_append (fitsAll_length hfh)]
    simp [wires]
  have hg := getN_yields hy
  rw [← hws, wires_length hp hf] at hg
  unfold Packet.receive
  rw [readFrom_eq hP hs hw (packedAll_loose _ hp), packedAll_serSizes _ hp, Eff.bind_ret hg, View.indices_eq, View.gets_eq]
  show (Eff.lift (readAll P e s (hts ++ dts ++ [ct]) _ 0) >>= _) w' = _
  rw [readAll_wires hP hs hw hp hf, Eff.lift_ok, pure_bind, hws, ← hlh, ← hlc, range_middle]
  rfl

/-! ## Examples -/

/-- A checksum: the sum of the bytes modulo 65536. -/
def byteSum (bs : List Byte) : Val := .int ((bs.map BitVec.toNat).sum % 65536 : Nat)

/-- The packet to the device of doc/serialization.rst.in. -/
example : Packet.send pc .big .onesComplement [.arr (.uint 1) 4, .uint 4, .uint 4, .uint 2] 4 2 byteSum
      [.arr [.int 255, .int 255, .int 255, .int 255], .int 64, .int 32, .int 0] (fun b w => .ret () (w ++ [b])) ([] : List Byte) =
    .ret () [255#8, 255#8, 255#8, 255#8, 0#8, 0#8, 0#8, 64#8, 0#8, 0#8, 0#8, 32#8, 0#8, 96#8] :=
  C71_send (hts := [.arr (.uint 1) 4]) (dts := [.uint 4, .uint 4]) (ct := .uint 2) (hvs := [.arr [.int 255, .int 255, .int 255, .int 255]])
    (dvs := [.int 64, .int 32]) (c0 := .int 0) (crc := byteSum) pc_valid (pc_supported _ _) (by simp [Ty.WFs, Ty.WF]) (by simp [Ty.WFs, Ty.WF])
    (by simp [Ty.WF]) (by simp [PackedAll, Packed, Ty.sizeof, wireSize]) (by simp [PackedAll, Packed]) (by simp [Packed])
    (by simp [Val.FitsAll, Val.Fits]) (by simp [Val.FitsAll, Val.Fits]) (by simp [Val.Fits]) (by simp only [byteSum, Val.Fits]; decide)
    (by
      iterate 14 refine Accepts.cons (by rfl) ?_
      exact .nil _)

/-- The packet from the device. -/
example : Packet.receive avr .big .onesComplement [.arr (.uint 1) 4, .sint 2, .uint 2, .uint 2] 4 2 byteSum
      (fun w => match w with | [] => .threw w | b :: bs => .ret b bs)
      ([255#8, 255#8, 255#8, 255#8, 255#8, 250#8, 1#8, 0#8, 1#8, 250#8] : List Byte) =
    .ret ([.arr [.int 255, .int 255, .int 255, .int 255], .int (-5), .int 256, .int 506], .int 506) [] :=
  C71_receive (hts := [.arr (.uint 1) 4]) (dts := [.sint 2, .uint 2]) (ct := .uint 2) (hvs := [.arr [.int 255, .int 255, .int 255, .int 255]])
    (dvs := [.int (-5), .int 256]) (crc := byteSum) avr_valid (avr_supported _ _) (by simp [Ty.WFs, Ty.WF]) (by simp [Ty.WFs, Ty.WF])
    (by simp [Ty.WF]) (by simp [PackedAll, Packed, Ty.sizeof, wireSize]) (by simp [PackedAll, Packed]) (by simp [Packed])
    (by simp [Val.FitsAll, Val.Fits]) (by simp [Val.FitsAll, Val.Fits, Safe, Representable]) (by simp only [byteSum, Val.Fits]; decide)
    (by
      iterate 10 refine Yields.cons (by rfl) ?_
      exact .nil _)

end Upd
