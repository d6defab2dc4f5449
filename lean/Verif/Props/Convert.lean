import Verif.Spec.Convert
import Verif.Model.Convert
import Verif.Props.Tuple
import Verif.Props.Dispatcher
import Verif.Props.Buffered

/-!
# C65: conversion of the arguments
-/

namespace Upd
open Spec TypeList

theorem convert_eq {t : Ty} (hw : t.WF) {x y : Val} (h : Converted t x y) : t.convert x = y := by
  cases t with
  | uint n =>
    cases x with
    | int x =>
      cases y with
      | int y =>
        obtain ⟨h1, h2, q, h3⟩ := h
        show Val.int (x % 256 ^ n) = _
        rw [h3, Int.add_mul_emod_self_left, Int.emod_eq_of_lt h1 h2]
      | _ => exact h.elim
    | bool b =>
      cases y with
      | int y => exact congrArg Val.int h.symm
      | _ => exact h.elim
    | _ => exact h.elim
  | sint k =>
    cases x with
    | int x =>
      cases y with
      | int y =>
        obtain ⟨h1, q, h3⟩ := h
        exact congrArg Val.int (toSigned_unique hw h1 h3)
      | _ => exact h.elim
    | bool b =>
      cases y with
      | int y => exact congrArg Val.int h.symm
      | _ => exact h.elim
    | _ => exact h.elim
  | bool =>
    cases x with
    | int x =>
      cases y with
      | bool b =>
        have h : b = true ↔ x ≠ 0 := h
        show Val.bool (x != 0) = _
        congr 1
        rw [Bool.eq_iff_iff, h]
        simp
      | _ => exact h.elim
    | bool a =>
      cases y with
      | bool b => exact congrArg Val.bool h
      | _ => exact h.elim
    | _ => exact h.elim
  | arr t n =>
    cases x with
    | arr xs => exact h.symm
    | _ => exact h.elim
  | user n fs =>
    cases x with
    | user xs => exact h.symm
    | _ => exact h.elim

theorem convertAll_eq : ∀ {ts : List Ty} {xs ys : List Val}, Ty.WFs ts → ConvertedAll ts xs ys → Ty.convertAll ts xs = ys
  | [], [], [], _, _ => rfl
  | t :: ts, x :: xs, y :: ys, hw, h => by
    show t.convert x :: Ty.convertAll ts xs = _
    rw [convert_eq hw.1 h.1, convertAll_eq hw.2 h.2]
  | [], _ :: _, _, _, h => h.elim
  | [], [], _ :: _, _, h => h.elim
  | _ :: _, [], _, _, h => h.elim
  | _ :: _, _ :: _, [], _, h => h.elim

theorem convertedAll_get : ∀ {ts : List Ty} {xs ys : List Val}, ConvertedAll ts xs ys → xs.length = ts.length ∧ ys.length = ts.length ∧
    ∀ i (h1 : i < ts.length) (h2 : i < xs.length) (h3 : i < ys.length), Converted ts[i] xs[i] ys[i]
  | [], [], [], _ => ⟨rfl, rfl, fun i h1 => absurd h1 (Nat.not_lt_zero i)⟩
  | t :: ts, x :: xs, y :: ys, h => by
    obtain ⟨h1, h2, h3⟩ := convertedAll_get h.2
    refine ⟨by simp [h1], by simp [h2], ?_⟩
    intro i
    cases i with
    | zero => intro _ _ _; exact h.1
    | succ i => intro a b c; exact h3 i (Nat.lt_of_succ_lt_succ a) (Nat.lt_of_succ_lt_succ b) (Nat.lt_of_succ_lt_succ c)
  | [], _ :: _, _, h => h.elim
  | [], [], _ :: _, h => h.elim
  | _ :: _, [], _, h => h.elim
  | _ :: _, _ :: _, [], h => h.elim

/-- The rules of conversion determine the result, and any integer or `bool` can be given for any integer type or `bool`. -/
theorem C65_conversion {t : Ty} (hw : t.WF) :
    (∀ x y y', Converted t x y → Converted t x y' → y = y') ∧
    ((t = .bool ∨ (∃ n, t = .uint n) ∨ ∃ k, t = .sint k) → ∀ x, (∃ z, x = .int z) ∨ (∃ b, x = .bool b) → ∃ y, Converted t x y) := by
  refine ⟨fun x y y' h h' => by rw [← convert_eq hw h, ← convert_eq hw h'], ?_⟩
  rintro (rfl | ⟨n, rfl⟩ | ⟨k, rfl⟩) x (⟨z, rfl⟩ | ⟨b, rfl⟩)
  · exact ⟨.bool (z != 0), by simp [Converted]⟩
  · exact ⟨.bool b, rfl⟩
  · have h0 : (0 : Int) < 256 ^ n := Int.pow_pos (by decide)
    exact ⟨.int (z % 256 ^ n), Int.emod_nonneg _ (by omega), Int.emod_lt_of_pos _ h0, z / 256 ^ n, by
      rw [Int.emod_add_mul_ediv]⟩
  · exact ⟨.int (if b then 1 else 0), rfl⟩
  · have h := BitVec.toInt_ofInt (n := 8 * k) z
    have h1 : SizeOk k := hw
    refine ⟨.int (toSigned k z), ?_, ?_⟩
    · have a := BitVec.toInt_lt (x := BitVec.ofInt (8 * k) z)
      have b := BitVec.le_toInt (x := BitVec.ofInt (8 * k) z)
      exact ⟨b, a⟩
    · refine ⟨(z - toSigned k z) / 2 ^ (8 * k), ?_⟩
      rw [Int.mul_ediv_cancel', Int.add_comm, Int.sub_add_cancel]
      rw [toSigned_eq]
      exact Int.dvd_self_sub_bmod ..
  · exact ⟨.int (if b then 1 else 0), rfl⟩

/-- C65, `set`. -/
theorem C65_set_get {P : Platform} (hP : P.Valid) {V : View} (hs : Supported P V.e V.s) (hw : Ty.WFs V.ts)
    (hl : LooseAll V.ts) {mem : Mem} (hb : V.off + V.size ≤ mem.length) {i : Nat} (hi : i < V.ts.length) {x y : Val}
    (hc : Converted V.ts[i] x y) (hy : y.Fits (Safe P V.s) V.ts[i]) :
    ∃ mem', V.setAny P i x mem = .ok mem' ∧ V.get P i mem' = .ok y := by
  rw [View.setAny, at11_eq, List.getElem?_eq_getElem hi]
  simp only
  rw [convert_eq (wfs_get hw hi) hc]
  exact C17_set_get hP hs hw hl hb hi hy

/-- C65, constructor of tuples. -/
theorem C65_construct_get {P : Platform} (hP : P.Valid) {e : Endian} {s : Mode} (hs : Supported P e s) {ts : List Ty} (hw : Ty.WFs ts)
    (hl : LooseAll ts) {xs ys : List Val} (hc : ConvertedAll ts xs ys) (hf : Val.FitsAll (Safe P s) ts ys) :
    ∃ mem, Tuple.makeAny P e s ts xs = .ok mem ∧ mem.length = (Tuple.self e s ts).size ∧
      ∀ i (hi : i < ys.length), (Tuple.self e s ts).get P i mem = .ok ys[i] := by
  rw [Tuple.makeAny, convertAll_eq hw hc]
  exact C16_construct_get hP hP hs hs hw hl hf hf

theorem layAny_eq (P : Platform) (V : View) (hw : Ty.WFs V.ts) : ∀ (is : List Nat) (xs ys : List Val) (mem : Mem),
    is.length = xs.length → ys.length = xs.length →
    (∀ k (h : k < is.length) (hx : k < xs.length) (hy : k < ys.length), ∃ hi : is[k] < V.ts.length, Converted V.ts[is[k]] xs[k] ys[k]) →
    V.layAny P is xs mem = V.lay P is ys mem
  | [], [], [], _, _, _, _ => rfl
  | i :: is, x :: xs, y :: ys, mem, h1, h2, h => by
    obtain ⟨hi, hc⟩ := h 0 (by simp) (by simp) (by simp)
    simp only [List.getElem_cons_zero] at hi hc
    have e : V.setAny P i x mem = V.set P i y mem := by
      rw [View.setAny, at11_eq, List.getElem?_eq_getElem hi]
      simp only
      rw [convert_eq (wfs_get hw hi) hc]
    rw [View.layAny, View.lay, e]
    congr 1
    funext mem
    exact layAny_eq P V hw is xs ys mem (by simpa using h1) (by simpa using h2) (fun k a b c => h (k + 1) (by simpa using a) (by simpa using b)
      (by simpa using c))
  | [], _ :: _, _, _, h, _, _ => by simp at h
  | [], [], _ :: _, _, _, h, _ => by simp at h
  | _ :: _, [], _, _, h, _, _ => by simp at h
  | _ :: _, _ :: _, [], _, _, h, _ => by simp at h

/-- C65, assignment: each element of the assigned object becomes the element of the source, converted. The source may have more elements, and
overlap the assigned object. -/
theorem C65_assignment {P : Platform} (hP : P.Valid) {V W : View} (hs : Supported P V.e V.s) (hw : Ty.WFs V.ts) (hl : LooseAll V.ts) {mem : Mem}
    (hb : V.off + V.size ≤ mem.length) {xs ys : List Val} (hget : ∀ i (hi : i < xs.length), W.get P i mem = .ok xs[i])
    (hc : ConvertedAll V.ts xs ys) (hf : Val.FitsAll (Safe P V.s) V.ts ys) :
    ∃ mem', V.assignAny P W mem = .ok mem' ∧ (∀ i (hi : i < ys.length), V.get P i mem' = .ok ys[i]) ∧
      mem'.length = mem.length ∧ ∀ k, (k < V.off ∨ V.off + V.size ≤ k) → mem'[k]? = mem[k]? := by
  obtain ⟨hx, hy, hcv⟩ := convertedAll_get hc
  have hgets : W.gets P V.indices mem = .ok xs := by
    rw [View.indices_eq]
    have key : ∀ (is : List Nat) (ws : List Val), is.length = ws.length →
        (∀ k (h1 : k < is.length) (h2 : k < ws.length), W.get P is[k] mem = .ok ws[k]) → W.gets P is mem = .ok ws := by
      intro is
      induction is with
      | nil => intro ws h _; cases ws <;> simp at h; rfl
      | cons i is ih =>
        intro ws h hk
        cases ws with
        | nil => simp at h
        | cons w ws =>
          have h0 := hk 0 (by simp) (by simp)
          simp only [List.getElem_cons_zero] at h0
          have hr := ih ws (by simpa using h) (fun k h1 h2 => by
            have := hk (k + 1) (by simpa using h1) (by simpa using h2)
            simpa using this)
          rw [View.gets, h0, except_bind_ok, hr]
          rfl
    apply key
    · rw [List.length_range, hx]
    · intro k h1 h2
      rw [List.getElem_range]
      exact hget k h2
  have hb' : V.off + Ty.serSizes V.ts ≤ mem.length := by rw [← V.size_eq]; exact hb
  have hcl := cellsAll_length V.e V.s _ V.ts ys hl hf
  refine ⟨overlay mem V.off (cellsAll V.e V.s V.ts ys), ?_, ?_, overlay_length _ _ _, ?_⟩
  · rw [View.assignAny, hgets, except_bind_ok, layAny_eq P V hw _ xs ys mem (by rw [View.indices_eq, List.length_range, hx]) (by rw [hx, hy]),
      View.indices_eq, View.lay_eq, writeAll_ok hP hs V.ts ys mem V.off hw hl hf hb']
    intro k h h1 h2
    have e : V.indices[k] = k := by simp [View.indices_eq]
    simp only [e]
    exact ⟨by omega, hcv k (by omega) h1 h2⟩
  · intro i hi
    have hi' : i < V.ts.length := by rw [← hy]; exact hi
    rw [View.get_eq P V hi']
    exact readAs_ok hP hs _ _ _ _ (wfs_get hw hi') (looseAll_get hl hi') (fitsAll_get hf hi' hi)
      (cellsAll_get hl hf (matches_overlay (by rw [hcl]; exact hb')) hi' hi)
  · intro k hk
    apply overlay_getElem?_out
    rw [hcl, ← V.size_eq]
    exact hk

/-- C65, remote calls: the function is called on what it would have received, had it been called directly with the same arguments. -/
theorem C65_remote_call {σ τ : Type} {P Q : Platform} (hP : P.Valid) (hQ : Q.Valid) {K : Keyring} (hK : KeyringOk K)
    (hsP : Supported P K.e K.s) (hsQ : Supported Q K.e K.s) (f : Features) (defs : Nat → List Val → Eff σ (Option Val))
    {name : Nat} {k : Key} (hk : K.get11 name = some k ∨ K.get17 name = some k) {args received : List Val}
    (hc : ConvertedAll k.sig.params args received)
    (hfP : Val.FitsAll (Safe P K.s) k.sig.params received) (hfQ : Val.FitsAll (Safe Q K.s) k.sig.params received) :
    ∃ m, k.messageAny P args = .ok m ∧
      ∀ (src : Eff σ Byte) (w w1 w2 : σ) (r : Option Val), Yields src w m w1 → defs name received w1 = .ret r w2 →
        RetOk P K.s k.sig.ret r → RetOk Q K.s k.sig.ret r →
        ∃ out : List Byte,
          (∀ (dest : Byte → Eff σ Unit) (w3 : σ), Accepts dest w2 out w3 →
            (Dispatcher.make K f defs).run Q (Lens.whole σ) src dest w = .ret k.index w3) ∧
          (∀ (src' : Eff τ Byte) (u u' : τ), Yields src' u out u' → k.readFrom P src' u = .ret r u') := by
  have hw : Ty.WFs k.sig.params := by
    have hk : K.get11 name = some k := hk.elim id get17_get11
    obtain ⟨i, hi, rfl, rfl⟩ := K.get11_cases hK.1 hk
    exact (hK.2 K.decls[i] (List.getElem_mem _)).1
  rw [Key.messageAny, convertAll_eq hw hc]
  exact C35_end_to_end hP hQ hK hsP hsQ f defs hk hfP hfQ

/-! ## Examples -/

example : Converted (.uint 1) (.int 300) (.int 44) ∧ Converted (.sint 1) (.int 200) (.int (-56)) ∧ Converted (.uint 2) (.int (-1)) (.int 65535) ∧
    Converted .bool (.int 256) (.bool true) ∧ Converted (.sint 4) (.bool true) (.int 1) :=
  ⟨⟨by decide, by decide, 1, by decide⟩, ⟨by simp [InRange], 1, by decide⟩, ⟨by decide, by decide, -1, by decide⟩, by simp [Converted], rfl⟩

example (mem : Mem) (h : mem.length = 3) : ∃ mem', (View.mk .big .onesComplement [.uint 1, .sint 2] 0).setAny ppc 1 (.int 65534) mem = .ok mem' ∧
    (View.mk .big .onesComplement [.uint 1, .sint 2] 0).get ppc 1 mem' = .ok (.int (-2)) :=
  C65_set_get (x := .int 65534) (y := .int (-2)) ppc_valid (ppc_supported _ _) (by simp [Ty.WFs, Ty.WF]) (by simp [LooseAll, Loose])
    (by rw [h]; decide) (by decide) ⟨by simp [InRange], 1, by decide⟩ (by simp [Val.Fits, Safe, MinSafe, Representable, ppc])

example : ∃ mem, Tuple.makeAny pc .little .twosComplement [.bool, .sint 1] [.int 256, .int 255] = .ok mem ∧ mem.length = 2 ∧
    ∀ i (hi : i < 2), (Tuple.self .little .twosComplement [.bool, .sint 1]).get pc i mem = .ok [Val.bool true, .int (-1)][i] :=
  C65_construct_get pc_valid (pc_supported _ _) (by simp [Ty.WFs, Ty.WF]) (by simp [LooseAll, Loose])
    (ys := [.bool true, .int (-1)]) ⟨by simp [Converted], ⟨by simp [InRange], 1, by decide⟩, trivial⟩
    (by simp [Val.FitsAll, Val.Fits, Safe, MinSafe, Representable, InRange, pc])

/-- From `tuple<little, ..., uint16_t, int8_t, uint8_t>` to `tuple<big, ..., uint8_t, uint16_t>`. -/
example : ∃ mem', (View.mk .big .twosComplement [.uint 1, .uint 2] 4).assignAny pc (View.mk .little .twosComplement [.uint 2, .sint 1, .uint 1] 0)
      [1#8, 2#8, 0xfe#8, 9#8, 0#8, 0#8, 0#8] = .ok mem' ∧
    (∀ i (hi : i < 2), (View.mk .big .twosComplement [.uint 1, .uint 2] 4).get pc i mem' = .ok [Val.int 1, .int 0xfffe][i]) ∧
    mem'.length = 7 ∧ ∀ k, (k < 4 ∨ 7 ≤ k) → mem'[k]? = [1#8, 2#8, 0xfe#8, 9#8, 0#8, 0#8, 0#8][k]? :=
  C65_assignment (V := View.mk .big .twosComplement [.uint 1, .uint 2] 4) (W := View.mk .little .twosComplement [.uint 2, .sint 1, .uint 1] 0)
    (xs := [.int 0x201, .int (-2)]) (ys := [.int 1, .int 0xfffe]) pc_valid
    (pc_supported _ _) (by simp [Ty.WFs, Ty.WF]) (by simp [LooseAll, Loose]) (by decide)
    (by
      intro i hi
      match i, hi with
      | 0, _ => rfl
      | 1, _ => rfl)
    ⟨⟨by decide, by decide, 2, by decide⟩, ⟨by decide, by decide, -1, by decide⟩, trivial⟩ (by simp [Val.FitsAll, Val.Fits])

/-- `f(uint16_t, uint8_t)` called remotely as `key(-1, 300)`. -/
example : ∃ m, (⟨.little, .twosComplement, 1, 0, [.uint 2, .uint 1], some (.uint 2)⟩ : Key).messageAny pc [.int (-1), .int 300] = .ok m ∧
    ∀ (src : Eff (List Byte × List (List Val) × List Byte) Byte) w w1 w2 r, Yields src w m w1 → ledDefs 1 [.int 65535, .int 44] w1 = .ret r w2 →
      RetOk pc .twosComplement (some (.uint 2)) r → RetOk pc .twosComplement (some (.uint 2)) r → ∃ out : List Byte,
        (∀ (dest : Byte → Eff _ Unit) w3, Accepts dest w2 out w3 → (Dispatcher.make ledRing .any ledDefs).run pc (Lens.whole _) src dest w = .ret 0 w3) ∧
        (∀ (src' : Eff (List Byte) Byte) (u u' : List Byte), Yields src' u out u' →
          (⟨.little, .twosComplement, 1, 0, [.uint 2, .uint 1], some (.uint 2)⟩ : Key).readFrom pc src' u = .ret r u') :=
  C65_remote_call (K := ledRing) (name := 1) (k := ⟨.little, .twosComplement, 1, 0, [.uint 2, .uint 1], some (.uint 2)⟩) pc_valid pc_valid ledRing_ok
    (pc_supported _ _) (pc_supported _ _) .any ledDefs (Or.inl rfl) (args := [.int (-1), .int 300]) (received := [.int 65535, .int 44])
    ⟨⟨by decide, by decide, -1, by decide⟩, ⟨by decide, by decide, 1, by decide⟩, trivial⟩
    (by simp [Val.FitsAll, Val.Fits]) (by simp [Val.FitsAll, Val.Fits])

/-- There is one `uint16_t` to which a Boolean is converted. -/
example : ∃ y, Converted (.uint 2) (.bool true) y ∧ ∀ y', Converted (.uint 2) (.bool true) y' → y' = y := by
  have h := C65_conversion (t := .uint 2) (by simp [Ty.WF])
  obtain ⟨y, hy⟩ := h.2 (.inr (.inl ⟨2, rfl⟩)) (.bool true) (.inr ⟨true, rfl⟩)
  exact ⟨y, hy, fun y' hy' => h.1 _ _ _ hy' hy⟩

end Upd
