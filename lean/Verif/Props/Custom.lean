import Verif.Model.Custom
import Verif.Props.Replace

/-!
# Buffers provided by the user (C60)
-/

namespace Upd
open Spec TypeList

variable {σ : Type} {P : Platform} {K : Keyring} {f : Features} {defs : Nat → List Val → Eff σ (Option Val)} {shared : Bool}

theorem setup_serves (h : Setup P K f defs) : Serves P (protoOf K defs) (Dispatcher.make K f defs) where
  e := rfl
  s := rfl
  idx := rfl
  pos := (idxBytes_pos h.ring.1).1
  sup := h.sup
  size := by
    show K.size = _
    rw [K.size_eq h.ring.1]
    simp [protoOf]
  act := by
    intro i cb hcb
    obtain ⟨hi, rfl⟩ := protoOf_get hcb
    refine ⟨_, make_acts hi, makeAction_holds _ _ _ _, ?_⟩
    exact makeAction_inputSize (h.ring.2 _ (List.getElem_mem _)) fun hf t ht => h.sizes hf _ (List.getElem_mem hi) t ht
  sig := by
    intro cb hcb
    obtain ⟨d, hd, rfl⟩ := protoOf_mem hcb
    exact h.ring.2 d hd
  typed := by
    intro cb hcb
    obtain ⟨d, hd, rfl⟩ := protoOf_mem hcb
    exact h.typed d hd

theorem custom_relIn (h : Setup P K f defs) (sizeMax : Nat) (ibuf obuf : Mem) :
    RelIn (protoOf K defs) (Buf.custom K f defs sizeMax shared ibuf obuf) [] :=
  relIn_empty (idxBytes_pos h.ring.1).1 rfl rfl rfl

theorem custom_tracks (h : Setup P K f defs) {ibuf obuf : Mem} (hi : K.idxBytes ≤ ibuf.length) (hq : RequestsWithin K ibuf.length) (sizeMax : Nat) :
    Tracks P K f shared (if shared then ibuf.length else obuf.length) (Buf.custom K f defs sizeMax shared ibuf obuf) (protoOf K defs) ⟨[], []⟩ := by
  refine ⟨⟨setup_serves h, hi, ?_⟩, ⟨custom_relIn h sizeMax ibuf obuf, rfl, Nat.zero_le _, slice_zero _ _⟩, rfl, ?_, rfl, rfl, rfl, rfl, ?_, ?_⟩
  · intro cb hcb
    obtain ⟨d, hd, rfl⟩ := protoOf_mem hcb
    exact hq d hd
  · cases shared <;> rfl
  · simp [protoOf]
  · simp [Buf.custom, Buf.init, Dispatcher.make]

/-- C60: a dispatcher with buffers provided by the user, large enough for each request and each response, whatever they contain at the beginning,
follows the machine, for any sequence of calls (and of replacements of callbacks): there is no other condition on the sizes of the types. -/
theorem C60_custom (h : Setup P K f defs) (hs : AllDecodeSafe P K) {ibuf obuf : Mem} (hi : K.idxBytes ≤ ibuf.length)
    (hq : RequestsWithin K ibuf.length) (ho : ResponsesWithin K (if shared then ibuf.length else obuf.length)) (sizeMax : Nat) (w : σ)
    (calls : List (Call σ)) (hok : ∀ c ∈ calls, c.Ok P K f)
    (hd : shared = true → DrainedCalls P calls (Buf.custom K f defs sizeMax shared ibuf obuf, w)) :
    SameOutcome (runAll (Call.run P) calls (Buf.custom K f defs sizeMax shared ibuf obuf, w))
      (runAll Call.runM calls ((protoOf K defs, Machine.init), w)) := by
  rcases calls_follow h (custom_tracks h hi hq sizeMax) hok hd with h1 | ⟨flt, _, h2⟩
  · exact h1.sameOutcome
  · rcases h2 with ⟨_, h3⟩ | ⟨_, h3⟩
    · exact absurd ho h3
    · exact absurd hs h3

theorem put_full {b : Buf σ} (h : b.ibuf.length ≤ b.ibufNext) (x : Byte) (w : σ) : Buf.put P x (b, w) = .fault .ibufOverrun := by
  unfold Buf.put Buf.putWith
  show (Eff.lift (b.pushIn x) >>= _) (b, w) = _
  unfold Buf.pushIn
  rw [if_neg (by omega)]
  rfl

theorem puts_overrun (hP : P.Valid) {p : Proto σ} (w : σ) : ∀ {rest : List Byte} {b : Buf σ} {pending : List Byte}, RelIn p b pending →
    Serves P p b.disp → (∀ l l', l ++ l' = pending ++ rest → l' ≠ [] → Incomplete p l) → b.ibuf.length < pending.length + rest.length →
    puts P rest (b, w) = .fault .ibufOverrun
  | [], b, pending, h, _, _, hl => by have := h.le; simp at hl; omega
  | x :: rest, b, pending, h, hs, hi, hl => by
    show (Buf.put P x >>= fun st => puts P rest >>= fun sts => pure (st :: sts)) (b, w) = _
    by_cases hlt : pending.length < b.ibuf.length
    · have hne : rest ≠ [] := by
        intro h0
        subst h0
        simp at hl
        omega
      obtain ⟨b1, h1, h2, h3, _⟩ := put_more_room hP h hs hlt (x := x)
        (classify_more_iff.2 (hi (pending ++ [x]) rest (by simp) hne))
      rw [Eff.bind_ret (h1 w)]
      refine Eff.bind_fault (puts_overrun hP w h2 (by rw [h3.disp]; exact hs) (fun l l' he hn => hi l l' (by simpa using he) hn) ?_)
      rw [h3.ilen]
      simp only [List.length_cons, List.length_append, List.length_nil] at hl ⊢
      omega
    · exact Eff.bind_fault (put_full (by rw [h.next]; omega) x w)

/-- C60: the input buffer has to be as large as each request. If it is smaller than the requests for the `i`-th function, any such request overruns
it. -/
theorem C60_input_needed (h : Setup P K f defs) {i : Nat} (hi : i < K.decls.length) {ibuf obuf : Mem}
    (hl : ibuf.length < K.idxBytes + wireSizes K.decls[i].sig.params) {args : List Val}
    (hf : Val.FitsAll (Safe P K.s) K.decls[i].sig.params args) (sizeMax : Nat) (w : σ) :
    puts P (request K.e K.s K.idxBytes i K.decls[i].sig.params args) (Buf.custom K f defs sizeMax shared ibuf obuf, w) = .fault .ibufOverrun := by
  have hlen : (wires K.e K.s K.decls[i].sig.params args).length = wireSizes K.decls[i].sig.params :=
    wires_length (h.ring.2 _ (List.getElem_mem _)).2.1 hf
  have hv : wireValue K.e (wireBytes K.e K.idxBytes i) = i := wireValue_wireBytes (Nat.lt_trans hi (idxBytes_pos h.ring.1).2)
  have hat : (protoOf K defs).cbs[wireValue (protoOf K defs).e (wireBytes K.e K.idxBytes i)]? = some ⟨K.decls[i].sig, defs K.decls[i].name⟩ := by
    show (protoOf K defs).cbs[wireValue K.e (wireBytes K.e K.idxBytes i)]? = _
    rw [hv]; exact protoOf_at hi
  refine puts_overrun h.valid w (custom_relIn h sizeMax ibuf obuf) (setup_serves h) ?_ ?_
  · intro l l' he hne
    exact incomplete_call (wireBytes_length _ _ _) hat hlen (l := l) (l' := l') he.symm hne
  · show ibuf.length < _
    unfold request
    rw [List.length_append, wireBytes_length, hlen]
    simp only [List.length_nil]
    omega

/-- C60: the output buffer has to be as large as each response. If it is smaller than the responses of the `i`-th function, any request for it on
which the function returns overruns the output buffer. -/
theorem C60_output_needed (h : Setup P K f defs) {i : Nat} (hi : i < K.decls.length) {ibuf obuf : Mem} (hx : K.idxBytes ≤ ibuf.length)
    (hq : RequestsWithin K ibuf.length) (ho : (if shared then ibuf.length else obuf.length) < retSize K.decls[i].sig.ret) {args : List Val}
    (hf : Val.FitsAll (Safe P K.s) K.decls[i].sig.params args) {r : Option Val} {w w' : σ} (hd : defs K.decls[i].name args w = .ret r w')
    (sizeMax : Nat) :
    puts P (request K.e K.s K.idxBytes i K.decls[i].sig.params args) (Buf.custom K f defs sizeMax shared ibuf obuf, w) = .fault .obufOverrun := by
  have ht := custom_tracks (obuf := obuf) (shared := shared) h hx hq sizeMax
  have hb := ht.ok
  have hm := ht.rel
  have hg := h.ring.2 _ (List.getElem_mem hi)
  have hlen : (wires K.e K.s K.decls[i].sig.params args).length = wireSizes K.decls[i].sig.params := wires_length hg.2.1 hf
  have hv : wireValue K.e (wireBytes K.e K.idxBytes i) = i := wireValue_wireBytes (Nat.lt_trans hi (idxBytes_pos h.ring.1).2)
  have hat : (protoOf K defs).cbs[wireValue (protoOf K defs).e (wireBytes K.e K.idxBytes i)]? = some ⟨K.decls[i].sig, defs K.decls[i].name⟩ := by
    show (protoOf K defs).cbs[wireValue K.e (wireBytes K.e K.idxBytes i)]? = _
    rw [hv]; exact protoOf_at hi
  have hil : (wireBytes K.e K.idxBytes i).length = (protoOf K defs).idxBytes := wireBytes_length _ _ _
  have hdec : Decodes P (protoOf K defs) ⟨K.decls[i].sig, defs K.decls[i].name⟩ (wires K.e K.s K.decls[i].sig.params args) :=
    decodes_args h.valid hb.serves.sup hg hf
  have hun : unwires (protoOf K defs).e (protoOf K defs).s K.decls[i].sig.params
      (wires K.e K.s K.decls[i].sig.params args) = args := unwires_wires h.valid h.sup hg.1 hg.2.1 hf
  have hne : request K.e K.s K.idxBytes i K.decls[i].sig.params args ≠ [] := by
    intro h0
    have := congrArg List.length h0
    have hpos := hb.serves.pos
    unfold request at this
    rw [List.length_append, hil] at this
    simp at this
    omega
  obtain ⟨init, x, hl⟩ : ∃ init x, request K.e K.s K.idxBytes i K.decls[i].sig.params args = init ++ [x] :=
    ⟨_, _, (List.dropLast_concat_getLast hne).symm⟩
  rw [hl]
  have hinc : Incomplete (protoOf K defs) ([] ++ init) :=
    incomplete_call hil hat hlen (l' := [x]) (by rw [List.nil_append, ← hl]; rfl) (by simp)
  have hcl : (protoOf K defs).classify ([] ++ init ++ [x]) = .request ⟨K.decls[i].sig, defs K.decls[i].name⟩
      (wires K.e K.s K.decls[i].sig.params args) := by rw [List.nil_append, ← hl]; exact classify_call hil hat hlen
  obtain ⟨b1, h4, h5, _, h6⟩ := puts_last h.valid w (x := x) hm.inp hb hinc
  obtain ⟨b2, h7, h8⟩ := put_request_eq h.valid h4 (hb.same h5) hcl hdec w
  simp only [hun, hd] at h8
  have hret := h.typed _ (List.getElem_mem hi) _ _ _ _ hf hd
  have hfit : ¬ (response K.e K.s K.decls[i].sig.ret r).length ≤ b2.out.length := by
    rw [response_length hg hret, (h5.trans h7).outLen, ht.room]; exact Nat.not_le_of_lt ho
  rw [h6]
  exact Eff.bind_fault (h8.trans (if_neg hfit))

/-- Larger buffers than those of `double_buffered_dispatcher`, with which `get` (see C43) can be called. -/
example (ibuf obuf : Mem) (hi : ibuf.length = 8) (ho : obuf.length = 16) (calls : List (Call Unit)) (hok : ∀ c ∈ calls, c.Ok pc getRing .any) :
    SameOutcome (runAll (Call.run pc) calls (Buf.custom getRing .any getDefs 255 false ibuf obuf, ()))
      (runAll Call.runM calls ((protoOf getRing getDefs, Machine.init), ())) :=
  C60_custom (get_setting .any).setup (by simp [AllDecodeSafe, getRing, DecodeSafeAll]) (by rw [hi]; decide)
    (by simp [RequestsWithin, getRing, wireSizes, hi]; decide) (by simp [ResponsesWithin, getRing, retSize, wireSize, ho]) 255 () calls hok
    (fun h => by cases h)

example (obuf : Mem) (w : _) : puts pc [0#8, 0x2c#8, 0x01#8, 7#8] (Buf.custom ledRing .any ledDefs 255 false [1#8, 2#8, 3#8] obuf, w) =
    .fault .ibufOverrun :=
  C60_input_needed (led_setting .any).setup (i := 0) (by decide) (by decide) (args := [.int 300, .int 7])
    (by simp [ledRing, Val.FitsAll, Val.Fits]) 255 w

example : puts pc [0#8] (Buf.custom getRing .any getDefs 255 false [0#8, 0#8, 0#8] [0#8], ()) = .fault .obufOverrun :=
  C60_output_needed (get_setting .any).setup (i := 0) (by decide) (by decide) (by simp [RequestsWithin, getRing, wireSizes]; decide) (by decide)
    (args := []) (by simp [getRing, Val.FitsAll]) rfl 255

end Upd
