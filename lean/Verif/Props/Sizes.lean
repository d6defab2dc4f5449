import Verif.Spec.Sizes
import Verif.Props.Custom
import Verif.Props.BufferedMachine
import Verif.Props.Reentrant

/-!
# The buffers are as small as possible (C103)
-/

namespace Upd
open Spec TypeList

theorem le_greatest : ∀ {l : List Nat} {x : Nat}, x ∈ l → x ≤ greatest l
  | y :: l, x, h => by
    unfold greatest
    rcases List.mem_cons.1 h with rfl | h
    · exact Nat.le_max_left _ _
    · exact Nat.le_trans (le_greatest h) (Nat.le_max_right _ _)

theorem greatest_le : ∀ {l : List Nat} {n : Nat}, (∀ x ∈ l, x ≤ n) → greatest l ≤ n
  | [], _, _ => Nat.zero_le _
  | y :: l, n, h => Nat.max_le.2 ⟨h y List.mem_cons_self, greatest_le fun x hx => h x (List.mem_cons_of_mem _ hx)⟩

theorem greatest_max11 {l : List Nat} (h : l ≠ []) : (max11 l).getD 0 = greatest l := by
  obtain ⟨m, h1, h2, h3⟩ := max11_spec h
  rw [h1]
  exact Nat.le_antisymm (le_greatest h2) (greatest_le h3)

section
variable {P : Platform} {K : Keyring} {f : Features} {shared : Bool} {n m : Nat}

theorem requestsWithin_iff : RequestsWithin K n ↔ longestRequest K ≤ n := by
  constructor
  · intro h
    refine greatest_le fun x hx => ?_
    obtain ⟨d, hd, rfl⟩ := List.mem_map.1 hx
    exact h d hd
  · intro h d hd
    exact Nat.le_trans (le_greatest (List.mem_map.2 ⟨d, hd, rfl⟩)) h

theorem responsesWithin_iff : ResponsesWithin K n ↔ longestResponse K ≤ n := by
  constructor
  · intro h
    refine greatest_le fun x hx => ?_
    obtain ⟨d, hd, rfl⟩ := List.mem_map.1 hx
    exact h d hd
  · intro h d hd
    exact Nat.le_trans (le_greatest (List.mem_map.2 ⟨d, hd, rfl⟩)) h

theorem idx_le_longest (h : K.decls ≠ []) : K.idxBytes ≤ longestRequest K := by
  obtain ⟨d, hd⟩ := List.exists_mem_of_ne_nil _ h
  exact Nat.le_trans (Nat.le_add_right _ _) (le_greatest (List.mem_map.2 ⟨d, hd, rfl⟩))

theorem classified_mem {σ : Type} {p : Proto σ} {l : List Byte} {cb : Callback σ} {args : List Byte} (h : p.classify l = .request cb args) : cb ∈ p.cbs := by
  unfold Proto.classify at h
  split at h
  · cases h
  · split at h
    · cases h
    · rename_i cb' hc
      split at h
      · cases h
      · cases h
        exact List.mem_of_getElem? hc

/-- The machine has no undefined behaviour of its own. -/
theorem machine_no_fault {σ : Type} {p : Proto σ} (h : ∀ cb ∈ p.cbs, ∀ args w flt, cb.fn args w ≠ .fault flt) : ∀ (ops : List Io) (st : Machine × σ) (flt : Fault),
    runAll (Io.runM p) ops st ≠ .fault flt
  | [], _, _ => by intro h; cases h
  | op :: ops, st, flt => by
    intro he
    have h1 : ∀ flt, op.runM p st ≠ .fault flt := by
      intro flt h2
      cases op with
      | put x =>
        have h3 : Machine.put p x st = .fault flt := by
          revert h2
          show (Machine.put p x >>= fun st => pure (Obs.status st) : Eff _ _) st = _ → _
          cases hp : Machine.put p x st with
          | ret a t => rw [Eff.bind_ret hp]; intro h; cases h
          | threw t => rw [Eff.bind_threw hp]; intro h; cases h
          | fault g => rw [Eff.bind_fault hp]; intro h; cases h; rfl
        revert h3
        simp only [Machine.put]
        split
        · intro h; cases h
        · intro h; cases h
        · rename_i cb args hc
          have hm := classified_mem hc
          cases hf : cb.fn (unwires p.e p.s cb.sig.params args) st.2 with
          | ret r w => intro h; cases h
          | threw w => intro h; cases h
          | fault g => exact absurd hf (h cb hm _ _ _)
      | get =>
        revert h2
        obtain ⟨⟨l, out⟩, w⟩ := st
        cases out <;> intro h2 <;> cases h2
      | isLoaded => cases h2
    revert he
    show (op.runM p >>= fun o => runAll (Io.runM p) ops >>= fun os => pure (o :: os) : Eff _ _) st = _ → _
    cases ho : op.runM p st with
    | threw t => rw [Eff.bind_threw ho]; intro h; cases h
    | fault g => exact absurd ho (h1 g)
    | ret o t =>
      rw [Eff.bind_ret ho]
      cases hr : runAll (Io.runM p) ops t with
      | ret os u => rw [Eff.bind_ret hr]; intro h; cases h
      | threw u => rw [Eff.bind_threw hr]; intro h; cases h
      | fault g => exact absurd hr (machine_no_fault h ops t g)

/-- Large enough buffers. -/
theorem enough_of (hu : Usable P K f) (hq : longestRequest K ≤ n) (hr : longestResponse K ≤ if shared then n else m) : Enough P K f shared n m := by
  intro σ defs hs hn ibuf obuf hi ho sizeMax w ops hd
  have ht := custom_tracks (shared := shared) (obuf := obuf) hs (ibuf := ibuf) (by rw [hi]; exact Nat.le_trans (idx_le_longest hu.nonempty) hq)
    (by rw [hi]; exact requestsWithin_iff.2 hq) sizeMax
  have key : ∀ flt, flt = Fault.ibufOverrun ∨ flt = Fault.obufOverrun → runAll (Io.run P) ops (Buf.custom K f defs sizeMax shared ibuf obuf, w) ≠ .fault flt := by
    intro flt hflt he
    rcases runAll_follows hs.valid ht.rel ht.ok (ops := ops) (w := w) (fun h => hd h) with h1 | ⟨g, h1, h2⟩
    · rw [he] at h1
      cases hm : runAll (Io.runM (protoOf K defs)) ops (⟨[], []⟩, w) with
      | ret a t => rw [hm] at h1; exact h1.elim
      | threw t => rw [hm] at h1; exact h1.elim
      | fault g =>
        refine machine_no_fault ?_ _ _ _ hm
        intro cb hcb
        obtain ⟨d, hdd, rfl⟩ := protoOf_mem hcb
        exact hn d hdd
    · rw [he] at h1
      cases h1
      rcases ht.known h2 with ⟨_, h3⟩ | ⟨h3, _⟩
      · refine h3 ?_
        rw [hi, ho]
        exact responsesWithin_iff.2 hr
      · rcases h3 with rfl | rfl <;> rcases hflt with h | h <;> cases h
  exact ⟨key _ (.inl rfl), key _ (.inr rfl)⟩

/-- Functions which return zeros. -/
def zeroDefs (K : Keyring) : Nat → List Val → Eff Unit (Option Val) := fun name _ w =>
  match K.decls.find? (·.name == name) with
  | some d => .ret (d.sig.ret.map Val.zero) w
  | none => .ret none w

theorem zeroDefs_eq (hu : Usable P K f) {d : Decl} (hd : d ∈ K.decls) (args : List Val) (w : Unit) :
    zeroDefs K d.name args w = .ret (d.sig.ret.map Val.zero) w := by
  unfold zeroDefs
  cases hf : K.decls.find? (·.name == d.name) with
  | none => exact absurd (List.find?_eq_none.1 hf d hd) (by simp)
  | some d' =>
    have h1 := List.mem_of_find?_eq_some hf
    have h2 : d'.name = d.name := by simpa using List.find?_some hf
    simp only [hu.one d' h1 d hd h2]

theorem zero_setup (hu : Usable P K f) : Setup P K f (zeroDefs K) where
  valid := hu.valid
  ring := hu.ring
  sup := hu.sup
  sizes := hu.sizes
  typed := by
    intro d hd args w r w' _ h
    have h' : zeroDefs K d.name args w = .ret r w' := h
    rw [zeroDefs_eq hu hd] at h'
    cases h'
    have := (hu.ring.2 d hd).2.2
    show RetOk P K.s d.sig.ret (d.sig.ret.map Val.zero)
    cases hr : d.sig.ret with
    | none => trivial
    | some t => exact zero_fits t (this t hr).1 fun k h1 h8 => safe_zero P K.s k h1 h8

/-- A single request may be put into a dispatcher which has just been made. -/
theorem drained_puts {σ : Type} (hP : P.Valid) {p : Proto σ} (w : σ) : ∀ {rest : List Byte} {b : Buf σ} {pending : List Byte}, RelIn p b pending →
    Serves P p b.disp → (∀ l l', l ++ l' = pending ++ rest → l' ≠ [] → Incomplete p l) → b.isLoaded = false → Drained P (rest.map .put) (b, w)
  | [], _, _, _, _, _, _ => trivial
  | x :: rest, b, pending, h, hs, hi, hl => by
    refine ⟨fun _ => hl, ?_⟩
    intro o st' he
    by_cases hne : rest = []
    · subst hne; trivial
    by_cases hlt : pending.length < b.ibuf.length
    · obtain ⟨b1, h1, h2, h3, h4⟩ := put_more_room hP h hs hlt (x := x) (classify_more_iff.2 (hi (pending ++ [x]) rest (by simp) hne))
      have he' : (Buf.put P x >>= fun st => pure (Obs.status st) : Eff (BState σ) Obs) (b, w) = .ret o st' := he
      rw [Eff.bind_ret (h1 w)] at he'
      cases he'
      refine drained_puts hP w h2 (by rw [h3.disp]; exact hs) (fun l l' he hn => hi l l' (by simpa using he) hn) ?_
      show (b1.obufNext != b1.obufBottom) = false
      rw [h4.next, h4.bottom]
      exact hl
    · have he' : (Buf.put P x >>= fun st => pure (Obs.status st) : Eff (BState σ) Obs) (b, w) = .ret o st' := he
      rw [Eff.bind_fault (put_full (by rw [h.next]; omega) x w)] at he'
      cases he'

/-- Buffers which are not large enough. -/
theorem of_enough (hu : Usable P K f) (h : Enough P K f shared n m) : longestRequest K ≤ n ∧ longestResponse K ≤ if shared then n else m := by
  have hs := zero_setup hu
  have hn : ∀ d ∈ K.decls, ∀ args w flt, zeroDefs K d.name args w ≠ .fault flt := by
    intro d hd args w flt h
    rw [zeroDefs_eq hu hd] at h
    cases h
  have hfit : ∀ d ∈ K.decls, Val.FitsAll (Safe P K.s) d.sig.params (Val.zeros d.sig.params) := fun d hd =>
    zeros_fit _ (hu.ring.2 d hd).1 fun k h1 h8 => safe_zero P K.s k h1 h8
  have hfault : ∀ {i : Nat} (hi : i < K.decls.length) (flt : Fault), flt = .ibufOverrun ∨ flt = .obufOverrun →
      puts P (request K.e K.s K.idxBytes i K.decls[i].sig.params (Val.zeros K.decls[i].sig.params))
        (Buf.custom K f (zeroDefs K) 0 shared (List.replicate n 0#8) (List.replicate m 0#8), ()) ≠ .fault flt := by
    intro i hi flt hflt he
    have hf := hfit _ (List.getElem_mem hi)
    have hlen : (wires K.e K.s K.decls[i].sig.params (Val.zeros K.decls[i].sig.params)).length = wireSizes K.decls[i].sig.params :=
      wires_length (hu.ring.2 _ (List.getElem_mem _)).2.1 hf
    have hat : (protoOf K (zeroDefs K)).cbs[wireValue (protoOf K (zeroDefs K)).e (wireBytes K.e K.idxBytes i)]? =
        some ⟨K.decls[i].sig, zeroDefs K K.decls[i].name⟩ := by
      have hv : wireValue K.e (wireBytes K.e K.idxBytes i) = i := wireValue_wireBytes (Nat.lt_trans hi (idxBytes_pos hu.ring.1).2)
      show (protoOf K (zeroDefs K)).cbs[wireValue K.e (wireBytes K.e K.idxBytes i)]? = _
      rw [hv]; exact protoOf_at hi
    have hdr := drained_puts (rest := request K.e K.s K.idxBytes i K.decls[i].sig.params (Val.zeros K.decls[i].sig.params)) hu.valid ()
      (custom_relIn (shared := shared) hs 0 (List.replicate n 0#8) (List.replicate m 0#8)) (setup_serves hs)
      (fun l l' he hne => incomplete_call (wireBytes_length _ _ _) hat hlen (l := l) (l' := l') he.symm hne) rfl
    have := h Unit (zeroDefs K) hs hn (List.replicate n 0#8) (List.replicate m 0#8) (by simp) (by simp) 0 () _ fun _ => hdr
    have hrun : runAll (Io.run P) ((request K.e K.s K.idxBytes i K.decls[i].sig.params (Val.zeros K.decls[i].sig.params)).map .put)
        (Buf.custom K f (zeroDefs K) 0 shared (List.replicate n 0#8) (List.replicate m 0#8), ()) = .fault flt := by
      rw [runAll_puts]
      exact Eff.bind_fault he
    rw [hrun] at this
    rcases hflt with rfl | rfl
    · exact this.1 rfl
    · exact this.2 rfl
  have hq : RequestsWithin K n := by
    intro d hd
    obtain ⟨i, hi, rfl⟩ := List.getElem_of_mem hd
    refine Nat.le_of_not_lt fun hlt => ?_
    exact hfault hi .ibufOverrun (.inl rfl) (C60_input_needed hs hi (by simpa using hlt) (hfit _ hd) 0 ())
  have hr : ResponsesWithin K (if shared then n else m) := by
    intro d hd
    obtain ⟨i, hi, rfl⟩ := List.getElem_of_mem hd
    refine Nat.le_of_not_lt fun hlt => ?_
    refine hfault hi .obufOverrun (.inr rfl) (C60_output_needed hs hi ?_ (by simpa using hq) (by simpa using hlt) (hfit _ hd)
      (zeroDefs_eq hu hd _ _) 0)
    simpa using Nat.le_trans (idx_le_longest hu.nonempty) (requestsWithin_iff.1 hq)
  exact ⟨requestsWithin_iff.1 hq, responsesWithin_iff.1 hr⟩

/-- C103: one buffer of `n` bytes will do if and only if it holds the longest request and the longest response. -/
theorem C103_enough_one (hu : Usable P K f) (n m : Nat) : Enough P K f true n m ↔ longestRequest K ≤ n ∧ longestResponse K ≤ n :=
  ⟨fun h => of_enough hu h, fun h => enough_of hu h.1 h.2⟩

/-- C103: buffers of `n` and `m` bytes will do if and only if they hold the longest request and the longest response, respectively. -/
theorem C103_enough_two (hu : Usable P K f) (n m : Nat) : Enough P K f false n m ↔ longestRequest K ≤ n ∧ longestResponse K ≤ m :=
  ⟨fun h => of_enough hu h, fun h => enough_of hu h.1 h.2⟩

theorem neededOutput_eq (hu : Usable P K f) : neededOutput K = greatest (K.decls.map (·.sig.parametersSize)) :=
  greatest_max11 (by simpa using hu.nonempty)

theorem single_length {σ : Type} (P : Platform) (K : Keyring) (sizeMax : Nat) (D : Dispatcher σ) : (Buf.single P K sizeMax D).ibuf.length = neededInput K := by
  show (P.junkBytes _).length = _
  rw [junkBytes_length, greatest_max11 (by simp)]
  simp only [greatest, neededInput, neededOutput]
  omega

/-- C103, exactly: the buffer of a single buffered dispatcher is as small as possible if and only if the longest of the requests and the responses is as long as
the index and the largest parameter list (as `sizeof` gives it). -/
theorem C103_single_iff (hu : Usable P K f) {σ : Type} (sizeMax : Nat) (D : Dispatcher σ) :
    LeastOne P K f (Buf.single P K sizeMax D).ibuf.length ↔
      max (longestRequest K) (longestResponse K) = K.idxBytes + greatest (K.decls.map (·.sig.parametersSize)) := by
  rw [single_length, show neededInput K = greatest (K.decls.map (·.sig.parametersSize)) + K.idxBytes from congrArg (· + _) (neededOutput_eq hu)]
  simp only [LeastOne, C103_enough_one hu]
  constructor
  · rintro ⟨h1, h2⟩
    have := h2 (max (longestRequest K) (longestResponse K)) 0 (by omega)
    omega
  · intro h
    refine ⟨by omega, fun n' _ h' => by omega⟩

/-- C103, exactly: the buffers of a double buffered dispatcher are as small as possible if and only if the largest parameter list is as large in memory as when
serialized, and as large as the longest response. -/
theorem C103_double_iff (hu : Usable P K f) {σ : Type} (sizeMax : Nat) (D : Dispatcher σ) :
    LeastTwo P K f (Buf.double P K sizeMax D).ibuf.length (Buf.double P K sizeMax D).obuf.length ↔
      longestRequest K = K.idxBytes + greatest (K.decls.map (·.sig.parametersSize)) ∧
      longestResponse K = greatest (K.decls.map (·.sig.parametersSize)) := by
  have h1 : (Buf.double P K sizeMax D).ibuf.length = neededInput K := junkBytes_length P _
  have h2 : (Buf.double P K sizeMax D).obuf.length = neededOutput K := junkBytes_length P _
  rw [h1, h2, show neededInput K = neededOutput K + K.idxBytes from rfl, neededOutput_eq hu]
  simp only [LeastTwo, C103_enough_two hu]
  constructor
  · rintro ⟨h1, h2⟩
    have := h2 (longestRequest K) (longestResponse K) (by omega)
    omega
  · intro h
    exact ⟨by omega, fun n' m' h' => by omega⟩

theorem longestRequest_eq (hu : Usable P K f) (hz : ∀ d ∈ K.decls, ∀ t ∈ d.sig.params, t.sizeof = wireSize t) :
    longestRequest K = K.idxBytes + greatest (K.decls.map (·.sig.parametersSize)) := by
  refine Nat.le_antisymm (greatest_le fun x hx => ?_) ?_
  · obtain ⟨d, hd, rfl⟩ := List.mem_map.1 hx
    have := le_greatest (List.mem_map.2 ⟨d, hd, rfl⟩ : d.sig.parametersSize ∈ K.decls.map (·.sig.parametersSize))
    rw [parametersSize_eq (hz d hd)] at this
    omega
  · have h1 : greatest (K.decls.map (·.sig.parametersSize)) ≤ longestRequest K - K.idxBytes := by
      refine greatest_le fun x hx => ?_
      obtain ⟨d, hd, rfl⟩ := List.mem_map.1 hx
      have := le_greatest (List.mem_map.2 ⟨d, hd, rfl⟩ : K.idxBytes + wireSizes d.sig.params ∈ K.decls.map fun d => K.idxBytes + wireSizes d.sig.params)
      rw [← parametersSize_eq (hz d hd)] at this
      show d.sig.parametersSize ≤ longestRequest K - K.idxBytes
      unfold longestRequest
      omega
    have h2 := idx_le_longest hu.nonempty
    omega

/-- C103, partial: if no parameter is of a user-defined type whose serialized size is not its size in memory, the input buffer is as small as possible; the single
buffer is, if no response is longer than the longest request; the output buffer is, if the longest response is as long as the largest parameter list. Missing: the
other keyrings, for which it does not hold (`C103_single_iff`, `C103_double_iff`). -/
theorem C103_smallest_partial (hu : Usable P K f) (hz : ∀ d ∈ K.decls, ∀ t ∈ d.sig.params, t.sizeof = wireSize t) {σ : Type} (sizeMax : Nat) (D : Dispatcher σ) :
    (Buf.double P K sizeMax D).ibuf.length = longestRequest K ∧
    (longestResponse K ≤ longestRequest K → LeastOne P K f (Buf.single P K sizeMax D).ibuf.length) ∧
    (K.idxBytes + longestResponse K = longestRequest K →
      LeastTwo P K f (Buf.double P K sizeMax D).ibuf.length (Buf.double P K sizeMax D).obuf.length) := by
  have h1 := longestRequest_eq hu hz
  refine ⟨?_, fun h => (C103_single_iff hu sizeMax D).2 (by omega), fun h => (C103_double_iff hu sizeMax D).2 ⟨h1, by omega⟩⟩
  show (P.junkBytes _).length = _
  rw [junkBytes_length, show neededInput K = neededOutput K + K.idxBytes from rfl, neededOutput_eq hu]
  omega

end

/-! ## The full statement -/

/-- C103 as the documentation states it: "Its size is as small as possible for holding any action request and any action response", and the same for the two
buffers. -/
def C103_Statement : Prop :=
  ∀ (P : Platform) (K : Keyring) (f : Features), Usable P K f → ∀ (sizeMax : Nat) (D : Dispatcher Unit),
    LeastOne P K f (Buf.single P K sizeMax D).ibuf.length ∧ LeastTwo P K f (Buf.double P K sizeMax D).ibuf.length (Buf.double P K sizeMax D).obuf.length

/-- A keyring with one function, `void store(uint64_t)`. -/
def storeRing : Keyring := ⟨.little, .twosComplement, [⟨1, [.uint 8], none⟩]⟩

theorem store_usable (f : Features) : Usable pc storeRing f where
  valid := pc_valid
  ring := ⟨by decide, by simp [storeRing, SigOk, Ty.WFs, Ty.WF, PackedAll, Packed]⟩
  sup := pc_supported _ _
  nonempty := by simp [storeRing]
  one := by simp [storeRing]
  sizes := by simp [storeRing, Ty.sizeof, wireSize]

theorem get_usable (f : Features) : Usable pc getRing f where
  valid := pc_valid
  ring := (get_setting f).ring
  sup := pc_supported _ _
  nonempty := by simp [getRing]
  one := by simp [getRing]
  sizes := by simp [getRing]

theorem led_usable (f : Features) : Usable pc ledRing f where
  valid := pc_valid
  ring := (led_setting f).ring
  sup := pc_supported _ _
  nonempty := by simp [ledRing]
  one := by simp [ledRing]
  sizes := by simp [ledRing, Ty.sizeof, wireSize]

/-- C103 does not hold: the output buffer of a dispatcher for `void store(uint64_t)` has 8 bytes, none of which is of any use. -/
theorem C103_full_statement_is_false : ¬ C103_Statement := by
  intro h
  have h1 := (h pc storeRing .any (store_usable .any) 0 (Dispatcher.make storeRing .any (zeroDefs storeRing))).2
  have h2 := (C103_double_iff (store_usable .any) 0 _).1 h1
  exact absurd h2.2 (by decide)

/-- The output buffer of a dispatcher for `uint16_t get()` has no byte, and the single buffer has one; they need two. -/
example (sizeMax : Nat) (D : Dispatcher Unit) : ¬ LeastOne pc getRing .any (Buf.single pc getRing sizeMax D).ibuf.length ∧
    ¬ Enough pc getRing .any true (Buf.single pc getRing sizeMax D).ibuf.length 0 ∧ Enough pc getRing .any false 1 2 := by
  refine ⟨fun h => absurd ((C103_single_iff (get_usable .any) sizeMax D).1 h) (by decide), ?_, ?_⟩
  · rw [C103_enough_one (get_usable .any), single_length]
    decide
  · rw [C103_enough_two (get_usable .any)]
    decide

example (sizeMax : Nat) (D : Dispatcher Unit) : LeastOne pc ledRing .any (Buf.single pc ledRing sizeMax D).ibuf.length :=
  (C103_single_iff (led_usable .any) sizeMax D).2 (by decide)

/-- A keyring for which both kinds of dispatchers have buffers which are as small as possible: `uint16_t twice(uint16_t)`. -/
def twiceRing103 : Keyring := ⟨.big, .twosComplement, [⟨1, [.uint 2], some (.uint 2)⟩, ⟨2, [.bool], none⟩]⟩

theorem twice103_usable (f : Features) : Usable pc twiceRing103 f where
  valid := pc_valid
  ring := ⟨by decide, by simp [twiceRing103, SigOk, Ty.WFs, Ty.WF, PackedAll, Packed]⟩
  sup := pc_supported _ _
  nonempty := by simp [twiceRing103]
  one := by simp [twiceRing103]
  sizes := by simp [twiceRing103, Ty.sizeof, wireSize]

example (sizeMax : Nat) (D : Dispatcher Unit) :
    LeastOne pc twiceRing103 .any (Buf.single pc twiceRing103 sizeMax D).ibuf.length ∧
    LeastTwo pc twiceRing103 .any (Buf.double pc twiceRing103 sizeMax D).ibuf.length (Buf.double pc twiceRing103 sizeMax D).obuf.length :=
  have h := C103_smallest_partial (twice103_usable .any) (by simp [twiceRing103, Ty.sizeof, wireSize]) sizeMax D
  ⟨h.2.1 (by decide), h.2.2 (by decide)⟩

end Upd
