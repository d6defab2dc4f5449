import Verif.Spec.Shortest
import Verif.Lemmas.Shortest
import Verif.Props.Key

/-!
# C106: how short packets can be
-/

namespace Upd
open Spec TypeList

/-! ## C106 -/

/-- A keyring with two callbacks, `void(uint16_t, int8_t)` and `uint8_t()`. -/
def duoRing : Keyring := ⟨.little, .twosComplement, [⟨1, ⟨[.uint 2, .sint 1], none⟩⟩, ⟨2, ⟨[], some (.uint 1)⟩⟩]⟩

theorem duo_ok : KeyringOk duoRing := by
  refine ⟨by decide, fun d hd => ?_⟩
  simp only [duoRing, List.mem_cons, List.not_mem_nil, or_false] at hd
  rcases hd with rfl | rfl <;> simp [SigOk, Ty.WFs, Ty.WF, PackedAll, Packed]

theorem duo_dense : ∀ d ∈ duoRing.decls, NoBools d.sig.params := by
  intro d hd
  simp only [duoRing, List.mem_cons, List.not_mem_nil, or_false] at hd
  rcases hd with rfl | rfl <;> simp [NoBools, NoBool]

/-- The size of the packets of a key. -/
theorem message_length {P : Platform} (hP : P.Valid) {K : Keyring} (hK : KeyringOk K) (hs : Supported P K.e K.s) {i : Nat} {k : Key}
    (hk : K.keyAt (some i) = some k) {args : List Val} (hf : Val.FitsAll (Safe P K.s) k.sig.params args) :
    ∃ d, K.decls[i]? = some d ∧ k.sig = d.sig ∧ ∃ m, k.message P args = .ok m ∧ m.length = K.idxBytes + wireSizes d.sig.params := by
  unfold Keyring.keyAt at hk
  simp only [at11_eq] at hk
  cases hd : K.decls[i]? with
  | none => simp [hd] at hk
  | some d =>
    simp only [hd, Option.some.injEq] at hk
    subst hk
    obtain ⟨hi, rfl⟩ := List.getElem?_eq_some_iff.mp hd
    have hg := hK.2 _ (List.getElem_mem hi)
    refine ⟨_, rfl, rfl, _, message_eq hP hs (idxBytes_pos hK.1).1 (Nat.mod_lt _ (Nat.pow_pos (by omega))) hg hf, ?_⟩
    rw [request, List.length_append, wireBytes_length, wires_length hg.2.1 hf]

/-- C106, the packets of the library are a protocol like those they are compared to. -/
theorem C106_fair {P : Platform} (hP : P.Valid) {K : Keyring} (hK : KeyringOk K) (hs : Supported P K.e K.s) {enc : Nat → List Val → List Byte}
    (he : ∀ i a, Askable K i a → ∃ k, K.keyAt (some i) = some k ∧ Val.FitsAll (Safe P K.s) k.sig.params a ∧ k.message P a = .ok (enc i a)) :
    SelfDelimiting K enc := by
  have key : ∀ i a, Askable K i a → ∃ hi : i < K.decls.length, Val.FitsAll (Representable K.s) K.decls[i].sig.params a ∧
      enc i a = request K.e K.s K.idxBytes i K.decls[i].sig.params a := by
    rintro i a ⟨d, hd, ha⟩
    obtain ⟨k, hk, hf, hm⟩ := he i a ⟨d, hd, ha⟩
    obtain ⟨hi, rfl⟩ := List.getElem?_eq_some_iff.mp hd
    have hlt : i < 256 ^ K.idxBytes := Nat.lt_trans hi (idxBytes_pos hK.1).2
    unfold Keyring.keyAt at hk
    simp only [at11_eq, hd, Option.some.injEq, Nat.mod_eq_of_lt hlt] at hk
    subst hk
    rw [message_eq hP hs (idxBytes_pos hK.1).1 hlt (hK.2 _ (List.getElem_mem hi)) hf] at hm
    injection hm with hm
    exact ⟨hi, ha, hm.symm⟩
  rintro i a j b ha hb ⟨r, hr⟩
  obtain ⟨hi, ha, h1⟩ := key i a ha
  obtain ⟨hj, hb, h2⟩ := key j b hb
  rw [h1, h2] at hr
  obtain ⟨h1, h2, _⟩ := request_inj hK hi hj (r := r) (r' := []) ha hb (by rw [List.append_nil]; exact hr)
  exact ⟨h1, h2⟩

/-- The packets of `duoRing`, on `pc`. -/
def duoPackets (i : Nat) (a : List Val) : List Byte :=
  match duoRing.keyAt (some i) with
  | none => []
  | some k => match k.message pc a with
    | .ok m => m
    | .error _ => []

example : SelfDelimiting duoRing duoPackets := C106_fair pc_valid duo_ok (pc_supported _ _) (by
  rintro i a ⟨d, hd, ha⟩
  have hk : duoRing.keyAt (some i) = some ⟨duoRing.e, duoRing.s, duoRing.idxBytes, i % 256 ^ duoRing.idxBytes, d.sig⟩ := by
    unfold Keyring.keyAt
    simp only [at11_eq, hd]
  have hf : Val.FitsAll (Safe pc duoRing.s) d.sig.params a := by
    match i, hd with
    | 0, hd => cases hd; match a, ha with
      | [.int x, .int y], ha => simpa [Val.FitsAll, Val.Fits, Safe, MinSafe, pc, duoRing] using ha
    | 1, hd => cases hd; match a, ha with
      | [], _ => simp [Val.FitsAll]
    | i + 2, hd => simp [duoRing] at hd
  obtain ⟨_, _, _, m, hm, _⟩ := message_length pc_valid duo_ok (pc_supported _ _) hk hf
  exact ⟨_, hk, hf, by simp only [duoPackets, hk, hm]⟩)

/-- The lengths of the encodings of the requests of a keyring, when they are all shorter than `n + 1` bytes. -/
theorem spread_le {K : Keyring} (hK : KeyringOk K) (hs : K.s = .twosComplement ∨ K.s = .offsetBinary) (hb : ∀ d ∈ K.decls, NoBools d.sig.params)
    {enc : Nat → List Val → List Byte} (he : SelfDelimiting K enc) {n : Nat} (hl : ∀ i a, Askable K i a → (enc i a).length ≤ n) : spread K ≤ 256 ^ n := by
  apply Nat.le_of_not_lt
  intro hlt
  let ns := K.decls.map fun d => 256 ^ wireSizes d.sig.params
  let vals : Nat → List Val := fun x => match K.decls[(unpack ns x).1]? with
    | some d => nthVals K.s d.sig.params (unpack ns x).2
    | none => []
  have key : ∀ x, x < spread K → ∃ d ∈ K.decls, K.decls[(unpack ns x).1]? = some d ∧ (unpack ns x).2 < 256 ^ wireSizes d.sig.params ∧
      vals x = nthVals K.s d.sig.params (unpack ns x).2 ∧ Askable K (unpack ns x).1 (vals x) := by
    intro x hx
    obtain ⟨⟨n', h1, h2⟩, _⟩ := unpack_spec ns x hx
    rw [List.getElem?_map] at h1
    cases hd : K.decls[(unpack ns x).1]? with
    | none => rw [hd] at h1; simp at h1
    | some d =>
      rw [hd] at h1
      simp only [Option.map_some, Option.some.injEq] at h1
      subst h1
      have hv : vals x = nthVals K.s d.sig.params (unpack ns x).2 := by simp only [vals, hd]
      have hm := List.mem_of_getElem? hd
      exact ⟨d, hm, rfl, h2, hv, d, hd, by rw [hv]; exact nthVals_fits (hK.2 d hm).1 _⟩
  obtain ⟨x, hx, hx'⟩ := no_short_prefix_free hlt (fun x => enc (unpack ns x).1 (vals x)) (by
    intro x y hx hy h
    obtain ⟨d, hm, hd, h1, h2, h3⟩ := key x hx
    obtain ⟨d', hm', hd', h1', h2', h3'⟩ := key y hy
    obtain ⟨e1, e2⟩ := he _ _ _ _ h3 h3' h
    rw [e1, hd'] at hd
    injection hd with hd
    subst hd
    rw [h2, h2'] at e2
    have e3 := nthVals_inj hs (hK.2 d' hm').1 (hb d' hm') h1 h1' e2
    rw [← (unpack_spec ns x hx).2, ← (unpack_spec ns y hy).2, e1, e3])
  obtain ⟨d, _, _, _, _, h3⟩ := key x hx
  have := hl _ _ h3
  exact absurd hx' (by omega)

/-- A protocol which numbers the requests. -/
theorem exists_shorter {K : Keyring} (hK : KeyringOk K) {n : Nat} (hn : spread K ≤ 256 ^ n) :
    ∃ enc, SelfDelimiting K enc ∧ ∀ i a, (enc i a).length = n := by
  let ns := K.decls.map fun d => 256 ^ wireSizes d.sig.params
  let num : Nat → List Val → Nat := fun i a => match K.decls[i]? with
    | some d => wireValue .little (wires .little K.s d.sig.params a)
    | none => 0
  refine ⟨fun i a => wireBytes .little n (pack ns i (num i a)), ?_, fun i a => wireBytes_length _ _ _⟩
  have key : ∀ i a, Askable K i a → ∃ d ∈ K.decls, K.decls[i]? = some d ∧ num i a = wireValue .little (wires .little K.s d.sig.params a) ∧
      Val.FitsAll (Representable K.s) d.sig.params a ∧ ns[i]? = some (256 ^ wireSizes d.sig.params) ∧ num i a < 256 ^ wireSizes d.sig.params := by
    rintro i a ⟨d, hd, hf⟩
    have hm := List.mem_of_getElem? hd
    have hv : num i a = wireValue .little (wires .little K.s d.sig.params a) := by simp only [num, hd]
    refine ⟨d, hm, hd, hv, hf, by rw [List.getElem?_map, hd]; rfl, ?_⟩
    have := wireValue_lt .little (wires .little K.s d.sig.params a)
    rwa [wires_length (hK.2 d hm).2.1 hf, ← hv] at this
  intro i a j b ha hb h
  obtain ⟨d, hm, hd, hv, hf, hn1, hlt⟩ := key i a ha
  obtain ⟨d', hm', hd', hv', hf', hn1', hlt'⟩ := key j b hb
  have h := List.IsPrefix.eq_of_length h (by rw [wireBytes_length, wireBytes_length])
  have h := congrArg (wireValue .little) h
  rw [wireValue_wireBytes (Nat.lt_of_lt_of_le (pack_lt ns _ _ _ hn1 hlt) hn), wireValue_wireBytes (Nat.lt_of_lt_of_le (pack_lt ns _ _ _ hn1' hlt') hn)] at h
  obtain ⟨rfl, h⟩ := pack_inj ns _ _ _ _ _ _ hn1 hlt hn1' hlt' h
  rw [hd] at hd'
  injection hd' with hd'
  subst hd'
  rw [hv, hv'] at h
  have hg := hK.2 d hm
  exact ⟨rfl, wires_inj' hg.1 hg.2.1 hf hf' (wireValue_inj (by rw [wires_length hg.2.1 hf, wires_length hg.2.1 hf']) h)⟩

/-- C106, as stated: whatever the protocol for the requests of a keyring, its longest requests are as long as any request of the library. -/
def C106_Statement : Prop :=
  ∀ (P : Platform) (K : Keyring) (name : Nat) (k : Key) (args : List Val) (m : Mem) (enc : Nat → List Val → List Byte), P.Valid → KeyringOk K →
    Supported P K.e K.s → K.get11 name = some k → Val.FitsAll (Safe P K.s) k.sig.params args → k.message P args = .ok m → SelfDelimiting K enc →
    ∃ i a, Askable K i a ∧ m.length ≤ (enc i a).length

/-- A keyring with one callback, `void(uint8_t)`. -/
def loneRing : Keyring := ⟨.little, .twosComplement, [⟨1, ⟨[.uint 1], none⟩⟩]⟩

theorem lone_ok : KeyringOk loneRing := by
  refine ⟨by decide, fun d hd => ?_⟩
  simp only [loneRing, List.mem_cons, List.not_mem_nil, or_false] at hd
  subst hd
  simp [SigOk, Ty.WFs, Ty.WF, PackedAll, Packed]

/-- False: the byte of the index is useless when there is only one callback. -/
theorem C106_full_statement_is_false : ¬ C106_Statement := by
  intro h
  obtain ⟨enc, he, hl⟩ := exists_shorter lone_ok (n := 1) (by decide)
  obtain ⟨i, a, _, hi⟩ := h pc loneRing 1 ⟨.little, .twosComplement, 1, 0, ⟨[.uint 1], none⟩⟩ [.int 5] [0#8, 5#8] enc pc_valid lone_ok (pc_supported _ _) rfl
    (by simp [Val.FitsAll, Val.Fits]) rfl he
  rw [hl] at hi
  exact absurd hi (by decide)

/-- C106 for the keyrings of at least two callbacks whose indices fit in one byte, whose arguments have no `bool`, in a representation without negative
zero. Missing: the other keyrings, for which `C106_exact` and `C106_shorter` tell when it is false. -/
theorem C106_requests_partial {P : Platform} (hP : P.Valid) {K : Keyring} (hK : KeyringOk K) (hs : Supported P K.e K.s)
    (hm : K.s = .twosComplement ∨ K.s = .offsetBinary) (hb : ∀ d ∈ K.decls, NoBools d.sig.params) (h2 : 2 ≤ K.decls.length) (h255 : K.decls.length ≤ 255)
    {name : Nat} {k : Key} (hk : K.get11 name = some k) {args : List Val} (hf : Val.FitsAll (Safe P K.s) k.sig.params args) {m : Mem}
    (hmsg : k.message P args = .ok m) {enc : Nat → List Val → List Byte} (he : SelfDelimiting K enc) :
    ∃ i a, Askable K i a ∧ m.length ≤ (enc i a).length := by
  have hidx : K.idxBytes = 1 := by
    unfold Keyring.idxBytes
    rcases smallestUnsigned_cases K.decls.length (by omega) with h | h | h | h <;> omega
  unfold Keyring.get11 at hk
  cases hfd : find11 name 0 (K.decls.map (·.name)) with
  | none => rw [hfd] at hk; simp [Keyring.keyAt] at hk
  | some i =>
    rw [hfd] at hk
    obtain ⟨d, hd, hsig, m', hm', hl⟩ := message_length hP hK hs hk hf
    rw [hmsg] at hm'
    injection hm' with hm'
    subst hm'
    apply Classical.byContradiction
    intro hc
    have hall : ∀ i a, Askable K i a → (enc i a).length ≤ wireSizes d.sig.params := by
      intro i a ha
      apply Nat.le_of_not_lt
      intro hlt
      exact hc ⟨i, a, ha, by omega⟩
    have := spread_le hK hm hb he hall
    have hlt : 256 ^ wireSizes d.sig.params < spread K := by
      unfold spread
      have hpos : ∀ d : Decl, 0 < 256 ^ wireSizes d.sig.params := fun d => Nat.pow_pos (by omega)
      have key : ∀ (l : List Decl) (i : Nat), l[i]? = some d → 2 ≤ l.length → 256 ^ wireSizes d.sig.params < (l.map fun d => 256 ^ wireSizes d.sig.params).sum := by
        intro l
        match l with
        | [] => intro i h; simp at h
        | [_] => intro i _ h; simp at h
        | x :: y :: l =>
          intro i h _
          have hmem : ∀ (l : List Decl), d ∈ l → 256 ^ wireSizes d.sig.params ≤ (l.map fun d => 256 ^ wireSizes d.sig.params).sum := by
            intro l hl
            induction l with
            | nil => simp at hl
            | cons z l ih =>
              rw [List.map_cons, List.sum_cons]
              rcases List.mem_cons.mp hl with rfl | hl
              · omega
              · have := ih hl; have := hpos z; omega
          have h0 := hpos x
          have h1 := hpos y
          cases i with
          | zero =>
            simp only [List.getElem?_cons_zero, Option.some.injEq] at h
            subst h
            simp only [List.map_cons, List.sum_cons]
            omega
          | succ i =>
            have := hmem (y :: l) (List.mem_of_getElem? (by simpa using h))
            rw [List.map_cons, List.sum_cons]
            omega
      exact key K.decls i hd h2
    omega

example {enc : Nat → List Val → List Byte} (he : SelfDelimiting duoRing enc) : ∃ i a, Askable duoRing i a ∧ 4 ≤ (enc i a).length :=
  C106_requests_partial (k := ⟨.little, .twosComplement, 1, 0, ⟨[.uint 2, .sint 1], none⟩⟩) (args := [.int 258, .int (-1)]) (m := [0#8, 2#8, 1#8, 255#8]) (name := 1)
    pc_valid duo_ok (pc_supported _ _) (.inl rfl) duo_dense (by decide) (by decide) rfl
    (by simp [Val.FitsAll, Val.Fits, Safe, MinSafe, Representable, InRange, duoRing]) rfl he

/-- C106, the converse: when there are few enough requests, there is a protocol whose requests are all shorter than some request of the library. -/
theorem C106_shorter {P : Platform} (hP : P.Valid) {K : Keyring} (hK : KeyringOk K) (hs : Supported P K.e K.s) {i : Nat} {d : Decl}
    (hd : K.decls[i]? = some d) (hn : spread K ≤ 256 ^ (K.idxBytes + wireSizes d.sig.params - 1)) :
    ∃ enc, SelfDelimiting K enc ∧ ∃ k args m, K.keyAt (some i) = some k ∧ Val.FitsAll (Safe P K.s) k.sig.params args ∧ k.message P args = .ok m ∧
      ∀ j b, (enc j b).length < m.length := by
  obtain ⟨enc, he, hl⟩ := exists_shorter hK hn
  have hk : K.keyAt (some i) = some ⟨K.e, K.s, K.idxBytes, i % 256 ^ K.idxBytes, d.sig⟩ := by
    unfold Keyring.keyAt
    simp only [at11_eq, hd]
  obtain ⟨d', hd', _, m, hm, hml⟩ := message_length hP hK hs hk (zerosOf_fits P K.s d.sig.params)
  rw [hd] at hd'
  injection hd' with hd'
  subst hd'
  refine ⟨enc, he, _, zerosOf d.sig.params, m, hk, zerosOf_fits P K.s d.sig.params, hm, fun j b => ?_⟩
  have := (idxBytes_pos hK.1).1
  rw [hl, hml]
  unfold Keyring.idxBytes
  omega

example : ∃ enc, SelfDelimiting loneRing enc ∧ ∃ k args m, loneRing.keyAt (some 0) = some k ∧ Val.FitsAll (Safe pc .twosComplement) k.sig.params args ∧
    k.message pc args = .ok m ∧ ∀ j b, (enc j b).length < m.length :=
  C106_shorter pc_valid lone_ok (pc_supported _ _) (i := 0) rfl (by decide)

/-- C106, exactly, without `bool` nor negative zero: another protocol has shorter requests than some request of the library if and only if there are at most as
many requests as there are byte sequences with one byte less than that request. -/
theorem C106_exact {P : Platform} (hP : P.Valid) {K : Keyring} (hK : KeyringOk K) (hs : Supported P K.e K.s)
    (hm : K.s = .twosComplement ∨ K.s = .offsetBinary) (hb : ∀ d ∈ K.decls, NoBools d.sig.params) :
    (∃ enc, SelfDelimiting K enc ∧ ∃ i k args m, K.keyAt (some i) = some k ∧ Val.FitsAll (Safe P K.s) k.sig.params args ∧ k.message P args = .ok m ∧
      ∀ j b, Askable K j b → (enc j b).length < m.length) ↔
    ∃ d ∈ K.decls, spread K ≤ 256 ^ (K.idxBytes + wireSizes d.sig.params - 1) := by
  constructor
  · rintro ⟨enc, he, i, k, args, m, hk, hf, hmsg, hl⟩
    obtain ⟨d, hd, _, m', hm', hml⟩ := message_length hP hK hs hk hf
    rw [hmsg] at hm'
    injection hm' with hm'
    subst hm'
    refine ⟨d, List.mem_of_getElem? hd, spread_le hK hm hb he fun j b h => ?_⟩
    have := hl j b h
    omega
  · rintro ⟨d, hd, hn⟩
    obtain ⟨i, hi, hd⟩ := List.mem_iff_getElem.mp hd
    obtain ⟨enc, he, k, args, m, h1, h2, h3, h4⟩ := C106_shorter hP hK hs (i := i) (d := d) (List.getElem?_eq_some_iff.mpr ⟨hi, hd⟩) hn
    exact ⟨enc, he, i, k, args, m, h1, h2, h3, fun j b _ => h4 j b⟩

example : ¬ ∃ enc, SelfDelimiting duoRing enc ∧ ∃ i k args m, duoRing.keyAt (some i) = some k ∧ Val.FitsAll (Safe pc duoRing.s) k.sig.params args ∧
    k.message pc args = .ok m ∧ ∀ j b, Askable duoRing j b → (enc j b).length < m.length := by
  rw [C106_exact pc_valid duo_ok (pc_supported _ _) (.inl rfl) duo_dense]
  rintro ⟨d, hd, h⟩
  simp only [duoRing, List.mem_cons, List.not_mem_nil, or_false] at hd
  rcases hd with rfl | rfl <;> revert h <;> decide

/-- C106, tuples: without `bool` nor negative zero, any encoding of the values of a tuple takes, for some values, as many bytes as the tuple does, even if the
length of the encoding is known by other means. -/
theorem C106_tuple {P : Platform} (hP : P.Valid) {e : Endian} {s : Mode} (hs : Supported P e s) (hm : s = .twosComplement ∨ s = .offsetBinary) {ts : List Ty}
    (hw : Ty.WFs ts) (hp : PackedAll ts) (hb : NoBools ts) {vs : List Val} (hf : Val.FitsAll (Safe P s) ts vs) {m : Mem} (hmk : Tuple.make P e s ts vs = .ok m)
    {enc : List Val → List Byte} (he : Unambiguous s ts enc) : ∃ vs', Val.FitsAll (Representable s) ts vs' ∧ m.length ≤ (enc vs').length := by
  rw [make_wires hP hs hw hp hf] at hmk
  injection hmk with hmk
  rw [← hmk, wires_length hp hf]
  obtain ⟨x, _, hx⟩ := no_short (n := wireSizes ts) (m := 256 ^ wireSizes ts) (by omega) (fun x => enc (nthVals s ts x))
    (fun x y hx hy h => nthVals_inj hm hw hb hx hy (he _ _ (nthVals_fits hw x) (nthVals_fits hw y) h))
  exact ⟨_, nthVals_fits hw x, hx⟩

example {enc : List Val → List Byte} (he : Unambiguous .offsetBinary [.uint 2, .arr (.sint 1) 3] enc) :
    ∃ vs, Val.FitsAll (Representable .offsetBinary) [.uint 2, .arr (.sint 1) 3] vs ∧ 5 ≤ (enc vs).length :=
  C106_tuple (P := pc) (e := .big) (vs := [.int 258, .arr [.int 1, .int 2, .int (-128)]]) (m := [1#8, 2#8, 129#8, 130#8, 0#8]) pc_valid (pc_supported _ _) (.inr rfl)
    (by simp [Ty.WFs, Ty.WF]) (by simp [PackedAll, Packed, Ty.sizeof, wireSize]) (by simp [NoBools, NoBool])
    (by simp [Val.FitsAll, Val.Fits, Safe, MinSafe, Representable, InRange]) rfl he

/-- C106, requests compared to the encodings of their arguments alone: the request is longer by the index at most. -/
theorem C106_overhead {P : Platform} (hP : P.Valid) {K : Keyring} (hK : KeyringOk K) (hs : Supported P K.e K.s)
    (hm : K.s = .twosComplement ∨ K.s = .offsetBinary) {i : Nat} {k : Key} (hk : K.keyAt (some i) = some k) (hb : NoBools k.sig.params) {args : List Val}
    (hf : Val.FitsAll (Safe P K.s) k.sig.params args) {m : Mem} (hmsg : k.message P args = .ok m) {enc : List Val → List Byte}
    (he : Unambiguous K.s k.sig.params enc) : ∃ vs, Val.FitsAll (Representable K.s) k.sig.params vs ∧ m.length ≤ K.idxBytes + (enc vs).length := by
  obtain ⟨d, hd, hsig, m', hm', hl⟩ := message_length hP hK hs hk hf
  rw [hmsg] at hm'
  injection hm' with hm'
  subst hm'
  have hg := hK.2 d (List.mem_of_getElem? hd)
  rw [hsig] at hb he hf ⊢
  obtain ⟨vs, hv, h⟩ := C106_tuple hP hs hm hg.1 hg.2.1 hb hf (make_wires hP hs hg.1 hg.2.1 hf) he
  rw [wires_length hg.2.1 hf] at h
  exact ⟨vs, hv, by omega⟩

example {enc : List Val → List Byte} (he : Unambiguous .twosComplement [.uint 2, .sint 1] enc) :
    ∃ vs, Val.FitsAll (Representable .twosComplement) [.uint 2, .sint 1] vs ∧ 4 ≤ 1 + (enc vs).length :=
  C106_overhead (K := duoRing) (k := ⟨.little, .twosComplement, 1, 0, ⟨[.uint 2, .sint 1], none⟩⟩) (args := [.int 258, .int (-1)]) (m := [0#8, 2#8, 1#8, 255#8])
    pc_valid duo_ok (pc_supported _ _) (.inl rfl) (i := 0) rfl (by simp [NoBools, NoBool])
    (by simp [Val.FitsAll, Val.Fits, Safe, MinSafe, Representable, InRange, duoRing]) rfl he

/-- C106, integers and booleans by themselves, in any representation: any encoding takes as many bytes for some value. -/
theorem C106_single {P : Platform} (hP : P.Valid) {e : Endian} {s : Mode} (hs : Supported P e s) {t : Ty}
    (ht : t = .bool ∨ (∃ n, 1 ≤ n ∧ t = .uint n) ∨ ∃ k, 1 ≤ k ∧ k ≤ 8 ∧ t = .sint k) {v : Val} (hf : Val.FitsAll (Safe P s) [t] [v]) {m : Mem}
    (hmk : Tuple.make P e s [t] [v] = .ok m) {enc : List Val → List Byte} (he : Unambiguous s [t] enc) :
    ∃ v', Val.FitsAll (Representable s) [t] [v'] ∧ m.length ≤ (enc [v']).length := by
  have hp : PackedAll [t] := by rcases ht with rfl | ⟨n, _, rfl⟩ | ⟨k, _, _, rfl⟩ <;> simp [PackedAll, Packed]
  have hw : Ty.WFs [t] := by rcases ht with rfl | ⟨n, h, rfl⟩ | ⟨k, h, h', rfl⟩ <;> simp [Ty.WFs, Ty.WF] <;> omega
  rw [make_wires hP hs hw hp hf] at hmk
  injection hmk with hmk
  rw [← hmk, wires_length hp hf]
  have main : ∀ (c : Nat) (f : Nat → Val), 256 ^ wireSizes [t] ≤ 255 * c → (∀ x, x < c → Val.FitsAll (Representable s) [t] [f x]) →
      (∀ x y, x < c → y < c → f x = f y → x = y) → ∃ v', Val.FitsAll (Representable s) [t] [v'] ∧ wireSizes [t] ≤ (enc [v']).length := by
    intro c f hc hfit hinj
    obtain ⟨x, hx, h⟩ := no_short hc (fun x => enc [f x]) (fun x y hx hy h => hinj x y hx hy (by
      have := he _ _ (hfit x hx) (hfit y hy) h
      injection this))
    exact ⟨_, hfit x hx, h⟩
  rcases ht with rfl | ⟨n, hn, rfl⟩ | ⟨k, h1, h8, rfl⟩
  · refine main 2 (fun x => .bool (decide (x = 1))) (by simp [wireSizes, wireSize]) (fun x _ => by simp [Val.FitsAll, Val.Fits]) (fun x y hx hy h => ?_)
    injection h with h
    have h : (x = 1) ↔ (y = 1) := by simpa using h
    omega
  · refine main (256 ^ n) (fun x => .int x) (by simp [wireSizes, wireSize]; omega) (fun x hx => ?_) (fun x y hx hy h => ?_)
    · simp only [Val.FitsAll, Val.Fits, and_true]
      have := Int.ofNat_lt.mpr hx
      refine ⟨by omega, by simpa using this⟩
    · injection h with h
      omega
  · obtain ⟨H, B, hH, hB, e1, e2, e3, e4, e5, e6⟩ := pows (k := k) ⟨h1, h8⟩
    have : 256 ^ 1 ≤ 256 ^ k := Nat.pow_le_pow_right (by omega) h1
    refine main (2 * H - 1) (fun x => .int ((x : Int) - (H - 1 : Nat))) (by simp only [wireSizes, wireSize, Nat.add_zero, e5]; omega) (fun x hx => ?_) (fun x y hx hy h => ?_)
    · simp only [Val.FitsAll, Val.Fits, and_true]
      cases s <;> simp only [Representable, InRange, e3] <;> omega
    · injection h with h
      omega

example {enc : List Val → List Byte} (he : Unambiguous .onesComplement [.sint 4] enc) :
    ∃ v, Val.FitsAll (Representable .onesComplement) [.sint 4] [v] ∧ 4 ≤ (enc [v]).length :=
  C106_single (P := pc) (e := .little) (v := .int (-2)) (m := [0xfd#8, 0xff#8, 0xff#8, 0xff#8]) pc_valid (pc_supported _ _) (.inr (.inr ⟨4, by decide, by decide, rfl⟩))
    (by simp [Val.FitsAll, Val.Fits, Safe, MinSafe, Representable]) rfl he

end Upd
