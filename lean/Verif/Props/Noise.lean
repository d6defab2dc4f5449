import Verif.Spec.Noise
import Verif.Props.Target
import Verif.Props.BufferSafety

/-!
# Requests altered on the way

C95: as many bytes arrive as have been sent, but not all of them with the value they had.
-/

namespace Upd
open Spec

variable {σ : Type} {P : Platform} {K : Keyring} {f : Features} {defs : Nat → List Val → Eff σ (Option Val)} {shared : Bool}

theorem cuts_confined (h : Setting P K f defs) {xs : List Noisy} (hx : ∀ x ∈ xs, ∃ sent got, x.Confined P K sent got) :
    ∃ ps, Cuts (protoOf K defs) (receivedAll xs) ps [] ∧
      (∀ cb index args, Packet.call cb index args ∈ ps → undecodables P K.e K.s cb.sig.params args = none) ∧
      ∀ w, match callsMade K defs xs w with
        | .ret _ w' => Spec.serveAll (protoOf K defs) [] ps w = .ret (cleanAll K xs) w'
        | .threw w' => Spec.serveAll (protoOf K defs) [] ps w = .threw w'
        | .fault f => Spec.serveAll (protoOf K defs) [] ps w = .fault f := by
  induction xs with
  | nil => exact ⟨[], .rest (Or.inl (idxBytes_pos h.ring.1).1), by simp, fun w => rfl⟩
  | cons x xs ih =>
    obtain ⟨sent, got, hc⟩ := hx x (by simp)
    obtain ⟨ps, h1, h2, h3⟩ := ih fun y hy => hx y (by simp [hy])
    have hcb : (protoOf K defs).cbs[wireValue (protoOf K defs).e x.index]? = some ⟨got.sig, defs got.name⟩ := by
      obtain ⟨hj, he⟩ := List.getElem?_eq_some_iff.1 hc.gotIs
      have := protoOf_at (defs := defs) hj
      rw [he] at this
      exact this
    refine ⟨_, .call hc.index hcb hc.bytes h1, ?_, ?_⟩
    · intro cb index args hm
      rcases List.mem_cons.1 hm with hm | hm
      · cases hm; exact hc.readable
      · exact h2 cb index args hm
    · intro w
      rw [callsMade, Spec.serveAll, cleanAll, hc.gotIs, hc.sentIs]
      dsimp only
      have hlen : List.replicate (x.index.length + x.bytes.length - 1) Status.loading ++ .resolved :: cleanAll K xs =
          cleanStatuses K sent.sig.params ++ cleanAll K xs := by
        rw [hc.index, hc.bytes, hc.same, cleanStatuses, List.append_assoc]; rfl
      cases hd : defs got.name (unwires K.e K.s got.sig.params x.bytes) w with
      | fault e => exact (by rw [Eff.bind_fault hd]; exact Eff.bind_fault hd)
      | threw w' => exact (by rw [Eff.bind_threw hd]; exact Eff.bind_threw hd)
      | ret r w' =>
        have h4 := h3 w'
        rw [Eff.bind_ret hd]
        cases hm : callsMade K defs xs w' with
        | fault e => rw [hm] at h4; exact (Eff.bind_ret hd).trans (Eff.bind_fault h4)
        | threw w'' => rw [hm] at h4; exact (Eff.bind_ret hd).trans (Eff.bind_threw h4)
        | ret u w'' =>
          rw [hm] at h4
          refine (Eff.bind_ret hd).trans ((Eff.bind_ret h4).trans ?_)
          show Res.ret _ _ = _
          rw [hlen]

/-- C95: if what arrives instead of each request is a request of the same length which can be read, the damage is confined to the requests which have been altered. Every byte
has the status which it would have had, the functions are called in order, once by request, each one on the values which the bytes received instead of its request stand for, and
the dispatcher is then at the beginning of a request. -/
theorem C95_confined (h : Setting P K f defs) (ho : ResponsesFit K shared) {xs : List Noisy}
    (hx : ∀ x ∈ xs, ∃ sent got, x.Confined P K sent got) {b : Buf σ} {w : σ} (hr : Reachable P K f defs shared (b, w)) (hp : Pending b []) :
    match callsMade K defs xs w with
    | .ret _ w' => ∃ b', puts P (receivedAll xs) (b, w) = .ret (cleanAll K xs) (b', w') ∧ Reachable P K f defs shared (b', w') ∧ Pending b' []
    | .threw w' => ∃ b', puts P (receivedAll xs) (b, w) = .threw (b', w')
    | .fault f => puts P (receivedAll xs) (b, w) = .fault f := by
  obtain ⟨ps, h1, h2, h3⟩ := cuts_confined h hx
  have h4 := C41_decodable_partial h ho hr hp h1 h2
  have h3 := h3 w
  unfold FramesWell at h4
  cases hm : callsMade K defs xs w with
  | fault e => rw [hm] at h3; rw [h3] at h4; exact h4
  | threw w' => rw [hm] at h3; rw [h3] at h4; exact h4
  | ret u w' =>
    rw [hm] at h3; rw [h3] at h4
    obtain ⟨b', h5, h6⟩ := h4
    exact ⟨b', h5, reachable_puts hr h5, h6⟩

/-- C95: a request which has not been altered meets the conditions of `C95_confined`, and its function is called on its own arguments, whatever happens to the other ones. -/
theorem C95_intact (h : Setting P K f defs) {x : Noisy} (hi : x.Intact K)
    (hf : ∀ d, K.decls[x.i]? = some d → Val.FitsAll (Safe P K.s) d.sig.params x.args) :
    ∃ d, x.Confined P K d d ∧ unwires K.e K.s d.sig.params x.bytes = x.args := by
  obtain ⟨d, h1, h2, h3⟩ := hi
  obtain ⟨hlt, he⟩ := List.getElem?_eq_some_iff.1 h1
  have hfit := hf d h1
  obtain ⟨hw, hpk, _⟩ := h.ring.2 d (he ▸ List.getElem_mem hlt)
  have hl := wires_length (e := K.e) (s := K.s) hpk hfit
  refine ⟨d, ⟨h1, hfit, by rw [h2]; exact wireBytes_length _ _ _, ?_, by rw [h3]; exact hl, rfl, ?_⟩, by rw [h3]; exact unwires_wires h.valid h.sup hw hpk hfit⟩
  · have hv : wireValue K.e (wireBytes K.e K.idxBytes x.i) = x.i := wireValue_wireBytes (Nat.lt_trans hlt (idxBytes_pos h.ring.1).2)
    rw [h2, hv]; exact h1
  · have h4 := readAll_wires (e := K.e) h.valid h.sup hw hpk hfit
    rw [readAll_exact h.valid h.sup d.sig.params _ 0 hw hpk (by omega), slice_all hl] at h4
    rw [h3]
    cases hu : undecodables P K.e K.s d.sig.params (wires K.e K.s d.sig.params x.args) with
    | none => rfl
    | some e => rw [hu] at h4; cases h4

theorem serveAll_returns (ht : NeverThrow K defs) (hf : NeverFault K defs) {bs rest : List Byte} {ps : List (Packet σ)}
    (hc : Cuts (protoOf K defs) bs ps rest) : ∀ w, ∃ sts w', Spec.serveAll (protoOf K defs) rest ps w = .ret sts w' := by
  induction hc with
  | rest => exact fun w => ⟨_, _, rfl⟩
  | invalid _ _ _ ih =>
    intro w
    obtain ⟨sts, w', h⟩ := ih w
    exact ⟨_, _, Eff.bind_ret h⟩
  | @call cb index args _ _ _ _ hcb _ _ ih =>
    intro w
    obtain ⟨d, hd', he⟩ := protoOf_mem (mem_of_get hcb)
    subst he
    cases hd : defs d.name (unwires K.e K.s d.sig.params args) w with
    | fault e => exact absurd hd (hf d hd' _ _ _)
    | threw w' => exact absurd hd (ht d hd' _ _ _)
    | ret r w' =>
      obtain ⟨sts, w'', h⟩ := ih w'
      exact ⟨_, _, (Eff.bind_ret hd).trans (Eff.bind_ret h)⟩

/-- C95, exactly: the bytes received instead of a request have the statuses of this request if and only if the bytes received instead of its index designate a function whose
parameters take as many bytes. Otherwise the end of the request is missed: the caller and the dispatcher do not agree any more on where requests begin. -/
theorem C95_exact (h : Setting P K f defs) (ho : ResponsesFit K shared) (hs : AllDecodeSafe P K) (ht : NeverThrow K defs) (hf : NeverFault K defs)
    {d : Decl} (hd : d ∈ K.decls) {index bytes : List Byte} (hi : index.length = K.idxBytes) (hb : bytes.length = wireSizes d.sig.params)
    {b : Buf σ} {w : σ} (hr : Reachable P K f defs shared (b, w)) (hp : Pending b []) :
    ∃ sts b' w', puts P (index ++ bytes) (b, w) = .ret sts (b', w') ∧
      (sts = cleanStatuses K d.sig.params ↔ ∃ got, K.decls[wireValue K.e index]? = some got ∧ wireSizes got.sig.params = wireSizes d.sig.params) := by
  obtain ⟨ps, rest, hc, hw⟩ := C41_any_bytes_partial h ho hs hr hp (index ++ bytes)
  obtain ⟨sts, w', hsv⟩ := serveAll_returns ht hf hc w
  unfold FramesWell at hw
  rw [hsv] at hw
  obtain ⟨b', hput, _⟩ := hw
  have hpos := (idxBytes_pos h.ring.1).1
  have hpos : 1 ≤ K.idxBytes := hpos
  refine ⟨sts, b', w', hput, ?_⟩
  cases hg : K.decls[wireValue K.e index]? with
  | none =>
    obtain ⟨ps', rest', hc'⟩ := C41_cuts_exist (p := protoOf K defs) hpos bytes
    have hn : (protoOf K defs).cbs[wireValue (protoOf K defs).e index]? = none := by
      have : K.decls.length ≤ wireValue K.e index := List.getElem?_eq_none_iff.1 hg
      exact List.getElem?_eq_none_iff.2 (by simpa [protoOf] using this)
    obtain ⟨h1, h2⟩ := C41_cuts_unique hc (Cuts.invalid hi hn hc')
    subst h1 h2
    obtain ⟨sts', w'', hsv'⟩ := serveAll_returns ht hf hc' w
    have h3 := (Eff.bind_ret hsv').symm.trans hsv
    have h4 : sts = List.replicate (index.length - 1) .loading ++ .dropped :: sts' := by
      injection h3 with h3; exact h3.symm
    constructor
    · intro he
      exfalso
      have : Status.dropped ∈ cleanStatuses K d.sig.params := by rw [← he, h4]; simp
      simp [cleanStatuses] at this
    · rintro ⟨got, h5, _⟩; cases h5
  | some got =>
    have hcb : (protoOf K defs).cbs[wireValue (protoOf K defs).e index]? = some ⟨got.sig, defs got.name⟩ := by
      obtain ⟨hj, he⟩ := List.getElem?_eq_some_iff.1 hg
      have := protoOf_at (defs := defs) hj
      rw [he] at this
      exact this
    have hgot : got ∈ K.decls := List.mem_of_getElem? hg
    by_cases hle : wireSizes got.sig.params ≤ bytes.length
    · obtain ⟨ps', rest', hc'⟩ := C41_cuts_exist (p := protoOf K defs) hpos (bytes.drop (wireSizes got.sig.params))
      have hc2 := Cuts.call hi hcb (args := bytes.take (wireSizes got.sig.params)) (by rw [List.length_take]; exact Nat.min_eq_left hle) hc'
      rw [List.append_assoc, List.take_append_drop] at hc2
      obtain ⟨h1, h2⟩ := C41_cuts_unique hc hc2
      subst h1 h2
      cases hdf : defs got.name (unwires K.e K.s got.sig.params (bytes.take (wireSizes got.sig.params))) w with
      | fault e => exact absurd hdf (hf got hgot _ _ _)
      | threw w' => exact absurd hdf (ht got hgot _ _ _)
      | ret r w1 =>
        obtain ⟨sts', w'', hsv'⟩ := serveAll_returns ht hf hc' w1
        have h3 := ((Eff.bind_ret hdf).trans (Eff.bind_ret hsv')).symm.trans hsv
        have h4 : sts = List.replicate (K.idxBytes + wireSizes got.sig.params - 1) .loading ++ .resolved :: sts' := by
          injection h3 with h3
          rw [← h3, hi, List.length_take, Nat.min_eq_left hle]
        constructor
        · intro he
          refine ⟨got, rfl, ?_⟩
          rw [h4, cleanStatuses] at he
          have h5 : (List.replicate (K.idxBytes + wireSizes got.sig.params - 1) Status.loading ++ .resolved :: sts')[K.idxBytes + wireSizes got.sig.params - 1]? =
              some .resolved := by
            rw [List.getElem?_append_right (by simp)]; simp
          rw [he, List.getElem?_append] at h5
          split at h5
          · rw [List.getElem?_replicate] at h5
            split at h5 <;> cases h5
          · rename_i hnl
            rw [List.length_replicate] at hnl
            omega
        · rintro ⟨got', h5, h6⟩
          cases h5
          have h7 : bytes.drop (wireSizes got.sig.params) = [] := List.drop_eq_nil_of_le (by omega)
          rw [h7] at hc'
          obtain ⟨h8, h9⟩ := C41_cuts_unique hc' (.rest (Or.inl hpos))
          subst h8 h9
          have h10 : sts' = [] := by injection hsv' with h11; exact h11.symm
          rw [h4, h10, cleanStatuses, h6]
    · have hinc : Incomplete (protoOf K defs) (index ++ bytes) := by
        refine Or.inr ⟨⟨got.sig, defs got.name⟩, ?_, ?_⟩
        · have : (index ++ bytes).take (protoOf K defs).idxBytes = index := List.take_left' hi
          rw [this]; exact hcb
        · rw [List.length_append, hi]
          show _ < K.idxBytes + wireSizes got.sig.params
          omega
      obtain ⟨h1, h2⟩ := C41_cuts_unique hc (.rest hinc)
      subst h1 h2
      have h4 : sts = List.replicate (index ++ bytes).length .loading := by injection hsv with h3; exact h3.symm
      constructor
      · intro he
        exfalso
        have : Status.resolved ∈ sts := by rw [he, cleanStatuses]; simp
        rw [h4] at this
        have := List.eq_of_mem_replicate this
        cases this
      · rintro ⟨got', h5, h6⟩
        cases h5
        omega

/-! ## Examples -/

/-- `add(300, 7)` and `reset()` arrive as they have been sent; between them, `probe({4, 5})` arrives as `probe({4, 255})`. -/
def ledNoise : List Noisy := [⟨0, [.int 300, .int 7], [0#8], [0x2c#8, 0x01#8, 0x07#8]⟩, ⟨2, [.arr [.int 4, .int 5]], [2#8], [0x04#8, 0xff#8]⟩, ⟨1, [], [1#8], []⟩]

theorem ledNoise_confined : ∀ x ∈ ledNoise, ∃ sent got, x.Confined pc ledRing sent got := by
  simp only [ledNoise, List.mem_cons, List.not_mem_nil, or_false, forall_eq_or_imp, forall_eq]
  exact ⟨⟨_, _, rfl, by simp [Val.FitsAll, Val.Fits], rfl, rfl, rfl, rfl, rfl⟩, ⟨_, _, rfl, by simp [Val.FitsAll, Val.Fits], rfl, rfl, rfl, rfl, rfl⟩,
    ⟨_, _, rfl, by simp [Val.FitsAll], rfl, rfl, rfl, rfl, rfl⟩⟩

example : ∃ b', puts pc [0#8, 0x2c#8, 0x01#8, 0x07#8, 2#8, 0x04#8, 0xff#8, 1#8] (fresh pc ledRing .any ledDefs 255 true, ([], [], [])) =
      .ret [.loading, .loading, .loading, .resolved, .loading, .loading, .resolved, .resolved]
        (b', ([], [[.int 1, .int 300, .int 7], [.int 3, .int 4, .int 255], [.int 2]], [])) ∧
      Reachable pc ledRing .any ledDefs true (b', ([], [[.int 1, .int 300, .int 7], [.int 3, .int 4, .int 255], [.int 2]], [])) ∧ Pending b' [] :=
  C95_confined (w := ([], [], [])) (led_setting .any) (led_fit true) ledNoise_confined ⟨255, _, .start⟩ (fresh_pending _ _ _ _ _ _)

example : ∃ d, Noisy.Confined pc ledRing ⟨0, [.int 300, .int 7], [0#8], [0x2c#8, 0x01#8, 0x07#8]⟩ d d ∧
    unwires .little .twosComplement d.sig.params [0x2c#8, 0x01#8, 0x07#8] = [.int 300, .int 7] :=
  C95_intact (led_setting .any) ⟨_, rfl, rfl, rfl⟩ (by intro d h; cases h; simp [Val.FitsAll, Val.Fits])

/-- The index of `add(300, 7)` arrives as the one of `probe`, whose parameters take one byte less. -/
example : ∃ sts b' w', puts pc [2#8, 0x2c#8, 0x01#8, 0x07#8] (fresh pc ledRing .any ledDefs 255 true, ([], [], [])) = .ret sts (b', w') ∧
    sts ≠ [.loading, .loading, .loading, .resolved] := by
  obtain ⟨sts, b', w', h1, h2⟩ := C95_exact (w := ([], [], [])) (led_setting .any) (led_fit true) led_decode led_noThrow led_noFault (d := ⟨1, [.uint 2, .uint 1], some (.uint 2)⟩)
    (by simp [ledRing]) (index := [2#8]) (bytes := [0x2c#8, 0x01#8, 0x07#8]) rfl rfl ⟨255, _, .start⟩ (fresh_pending _ _ _ _ _ _)
  refine ⟨sts, b', w', h1, fun he => ?_⟩
  obtain ⟨got, h3, h4⟩ := h2.1 he
  have h3 : some (⟨3, [.arr (.uint 1) 2], some (.sint 2)⟩ : Decl) = some got := h3
  cases h3
  exact absurd h4 (by decide)

end Upd
