import Verif.Lemmas.Version
import Verif.Props.Session

/-!
# Versions of a keyring

C76: a device whose program was built with an earlier version of the keyring works with one built with a later version. `P` is the platform of the
caller and `Q` the one of the callee; `K` is the earlier version and `K'` the later one.
-/

namespace Upd
open Spec TypeList

variable {σ : Type} {P Q : Platform} {K K' : Keyring} {f : Features} {defs : Nat → List Val → Eff σ (Option Val)} {shared : Bool}

/-- C76. The functions of the earlier version have the same keys in both versions: same index, same width of the index, same signature, same
format. -/
theorem C76_keys (h : Extends K K') (hl : K'.decls.length < 2 ^ 64) {i : Nat} (hi : i < K.decls.length) :
    K'.get11 K.decls[i].name = K.get11 K.decls[i].name ∧
    ((K'.decls.map (·.name)).Nodup → K'.get17 K.decls[i].name = K.get17 K.decls[i].name ∧ (K.get17 K.decls[i].name).isSome) := by
  refine ⟨h.get11 hl ⟨_, List.getElem_mem hi, rfl⟩, fun hn => ?_⟩
  have hi' : i < K'.decls.length := Nat.lt_of_lt_of_le hi h.length_le
  have hnK : (K.decls.map (·.name)).Nodup := by
    obtain ⟨more, hm⟩ := h.decls
    rw [← hm, List.map_append] at hn
    exact (List.nodup_append.1 hn).1
  have h1 := (C27_key_index K' hl hn i hi').2.1
  have h2 := (C27_key_index K (Nat.lt_of_le_of_lt h.length_le hl) hnK i hi).2.1
  rw [h.getElem hi, h.e, h.s, h.idxBytes hl] at h1
  rw [h1, h2]
  exact ⟨rfl, rfl⟩

/-- C76, earlier caller and later callee, buffered dispatcher: remote calls have the outcome of local calls. -/
theorem C76_older_caller (he : Extends K K') (hP : P.Valid) (hs : Supported P K.e K.s) (hQ : Setting Q K' f defs)
    (ht : ∀ d ∈ K.decls, WellTyped P K.s ⟨d.sig, defs d.name⟩) (ho : ResponsesFit K' shared) {calls : List (Nat × List Val)}
    (hc : CallsOk P Q K calls) {b : Buf (Link σ)} {w : σ} (hr : Reachable Q K' f (hosted defs) shared (b, ⟨[], [], w⟩)) (hp : Pending b []) :
    match localCalls defs calls w with
    | .ret rs w' => (∃ b', blockingCalls P K Link.beside (serveBuffered Q) calls (b, ⟨[], [], w⟩) = .ret rs (b', ⟨[], [], w'⟩) ∧
          Reachable Q K' f (hosted defs) shared (b', ⟨[], [], w'⟩) ∧ Pending b' []) ∧
        ∃ b', pipelinedCalls P K Link.beside (serveBuffered Q) calls (b, ⟨[], [], w⟩) = .ret rs (b', ⟨[], [], w'⟩) ∧
          Reachable Q K' f (hosted defs) shared (b', ⟨[], [], w'⟩) ∧ Pending b' []
    | .threw w' => (∃ b', blockingCalls P K Link.beside (serveBuffered Q) calls (b, ⟨[], [], w⟩) = .threw (b', ⟨[], [], w'⟩)) ∧
        ∃ b' l, pipelinedCalls P K Link.beside (serveBuffered Q) calls (b, ⟨[], [], w⟩) = .threw (b', l) ∧ l.world = w'
    | .fault f => blockingCalls P K Link.beside (serveBuffered Q) calls (b, ⟨[], [], w⟩) = .fault f ∧
        pipelinedCalls P K Link.beside (serveBuffered Q) calls (b, ⟨[], [], w⟩) = .fault f := by
  have hK : KeyringOk K := ⟨Nat.lt_of_le_of_lt he.length_le hQ.ring.1, fun d hd => hQ.ring.2 d (he.decls.subset hd)⟩
  have hS := Server.older he hQ.ring.1 (buffered_server hQ ho)
  have h := blocking_server hP hK hs ht hS calls w (b, ⟨[], [], w⟩) hc ⟨hr, hp⟩ rfl
  have h' := pipelined_server (t := (b, ⟨[], [], w⟩)) hP hK hs ht hS hc ⟨hr, hp⟩ rfl
  cases hl : localCalls defs calls w with
  | fault e => rw [hl] at h h'; exact ⟨h, h'⟩
  | threw w' =>
    rw [hl] at h h'
    obtain ⟨⟨b', l⟩, h1, h2⟩ := h
    have h2 : l = _ := h2
    subst h2
    obtain ⟨⟨b'', l⟩, h3, h4⟩ := h'
    exact ⟨⟨b', h1⟩, b'', l, h3, h4⟩
  | ret rs w' =>
    rw [hl] at h h'
    obtain ⟨⟨b', l⟩, h1, h2, h3⟩ := h
    have h3 : l = _ := h3
    subst h3
    obtain ⟨⟨b'', l⟩, h4, h5, h6⟩ := h'
    have h6 : l = _ := h6
    subst h6
    exact ⟨⟨b', h1, h2⟩, b'', h4, h5⟩

/-- C76, earlier caller and later callee, unbuffered dispatcher. -/
theorem C76_older_caller_unbuffered (he : Extends K K') (hP : P.Valid) (hQ : Q.Valid) (hK : KeyringOk K') (hsP : Supported P K.e K.s)
    (hsQ : Supported Q K'.e K'.s) (htP : ∀ d ∈ K.decls, WellTyped P K.s ⟨d.sig, defs d.name⟩)
    (htQ : ∀ d ∈ K'.decls, WellTyped Q K'.s ⟨d.sig, defs d.name⟩) {calls : List (Nat × List Val)} (hc : CallsOk P Q K calls) (f : Features) (w : σ) :
    blockingCalls P K (Lens.whole _) (serveUnbuffered Q (Dispatcher.make K' f (hosted defs))) calls ⟨[], [], w⟩ =
      match localCalls defs calls w with
      | .ret rs w' => .ret rs ⟨[], [], w'⟩
      | .threw w' => .threw ⟨[], [], w'⟩
      | .fault f => .fault f := by
  have hK' : KeyringOk K := ⟨Nat.lt_of_le_of_lt he.length_le hK.1, fun d hd => hK.2 d (he.decls.subset hd)⟩
  have h := blocking_server hP hK' hsP htP (Server.older he hK.1 (unbuffered_server (f := f) hQ hK hsQ htQ)) calls w ⟨[], [], w⟩ hc trivial rfl
  cases hl : localCalls defs calls w with
  | fault e => rw [hl] at h; exact h
  | threw w' =>
    rw [hl] at h
    obtain ⟨l, h1, h2⟩ := h
    have h2 : l = _ := h2
    subst h2
    exact h1
  | ret rs w' =>
    rw [hl] at h
    obtain ⟨l, h1, _, h3⟩ := h
    have h3 : l = _ := h3
    subst h3
    exact h1

/-- C76, later caller and earlier callee, as long as the caller calls the functions of the earlier version only. -/
theorem C76_newer_caller (he : Extends K K') (hl' : K'.decls.length < 2 ^ 64) (hP : P.Valid) (hs : Supported P K.e K.s) (hQ : Setting Q K f defs)
    (ht : ∀ d ∈ K.decls, WellTyped P K.s ⟨d.sig, defs d.name⟩) (ho : ResponsesFit K shared) {calls : List (Nat × List Val)}
    (hc : CallsOk P Q K calls) {b : Buf (Link σ)} {w : σ} (hr : Reachable Q K f (hosted defs) shared (b, ⟨[], [], w⟩)) (hp : Pending b []) :
    match localCalls defs calls w with
    | .ret rs w' => ∃ b', blockingCalls P K' Link.beside (serveBuffered Q) calls (b, ⟨[], [], w⟩) = .ret rs (b', ⟨[], [], w'⟩) ∧
        Reachable Q K f (hosted defs) shared (b', ⟨[], [], w'⟩) ∧ Pending b' []
    | .threw w' => ∃ b', blockingCalls P K' Link.beside (serveBuffered Q) calls (b, ⟨[], [], w⟩) = .threw (b', ⟨[], [], w'⟩)
    | .fault f => blockingCalls P K' Link.beside (serveBuffered Q) calls (b, ⟨[], [], w⟩) = .fault f := by
  rw [blockingCalls_newer he hl' hc]
  exact C61_blocking hP hs hQ ht ho hc hr hp

/-- C76, what the condition on the number of functions is for: if it passes 255, 65535 or 4294967295, the packets of all the functions change (they get
longer). -/
theorem C76_boundary (he : K'.e = K.e) (hs : K'.s = K.s) (hd : K.decls <+: K'.decls) (hK : KeyringOk K') {m : Nat} (hm : m ∈ [1, 2, 4])
    (h1 : K.decls.length < 256 ^ m) (h2 : 256 ^ m ≤ K'.decls.length) (hP : P.Valid) (hsup : Supported P K.e K.s) {n : Nat} {k k' : Key}
    (hk : K.get11 n = some k) (hk' : K'.get11 n = some k') {args : List Val} (hf : Val.FitsAll (Safe P K.s) k.sig.params args) :
    ∃ p p', k.message P args = .ok p ∧ k'.message P args = .ok p' ∧ p.length < p'.length := by
  have hle := hd.length_le
  have hlK : K.decls.length < 2 ^ 64 := Nat.lt_of_le_of_lt hle hK.1
  have hlt : K.idxBytes < K'.idxBytes := by
    unfold Keyring.idxBytes
    simp only [List.mem_cons, List.not_mem_nil, or_false] at hm
    rcases smallestUnsigned_cases _ hK.1 with h' | h' | h' | h' <;>
    rcases smallestUnsigned_cases K.decls.length hlK with h'' | h'' | h'' | h'' <;>
    rcases hm with rfl | rfl | rfl <;> (rw [h'.1, h''.1]; omega)
  obtain ⟨i, hi, hn, rfl⟩ := K.get11_cases hlK hk
  have hsg : k'.sig = K.decls[i].sig ∧ k'.e = K.e ∧ k'.s = K.s ∧ k'.idxBytes = K'.idxBytes ∧ k'.index < 256 ^ K'.idxBytes := by
    obtain ⟨more, hm'⟩ := hd
    obtain ⟨j, hj, hnj, rfl⟩ := K'.get11_cases hK.1 hk'
    have hf1 : find11 n 0 (K.decls.map (·.name)) = some i := by
      unfold Keyring.get11 at hk
      cases hf1 : find11 n 0 (K.decls.map (·.name)) with
      | none => rw [hf1] at hk; simp [Keyring.keyAt] at hk
      | some l =>
        rw [hf1] at hk
        obtain ⟨l', hl', h3, _⟩ := (find11_spec _ _ _ _).mp hf1
        have hll : l < K.decls.length := by
          have : l = l' := by omega
          subst this
          rw [List.getElem?_eq_some_iff] at h3
          obtain ⟨h4, _⟩ := h3
          simpa using h4
        rw [K.keyAt_eq hlK hll] at hk
        injection hk with hk
        exact congrArg some (congrArg Key.index hk : l = i)
    have hf2 : find11 n 0 (K'.decls.map (·.name)) = some i := by
      rw [find11_spec] at hf1 ⊢
      obtain ⟨l, hl, h3, h4⟩ := hf1
      have hil : i = l := by omega
      subst hil
      refine ⟨i, by omega, ?_, fun q hq h5 => h4 q hq ?_⟩
      · rw [← hm', List.map_append, List.getElem?_append_left (by simpa using hi)]; exact h3
      · rw [← hm', List.map_append, List.getElem?_append_left (by simp; omega)] at h5; exact h5
    have hij : i = j := by
      unfold Keyring.get11 at hk'
      rw [hf2, K'.keyAt_eq hK.1 (Nat.lt_of_lt_of_le hi hle)] at hk'
      injection hk' with hk'
      exact congrArg Key.index hk'
    subst hij
    refine ⟨?_, he, hs, rfl, Nat.lt_trans hj (idxBytes_pos hK.1).2⟩
    show K'.decls[i].sig = K.decls[i].sig
    congr 1
    simp only [← hm', List.getElem_append_left hi]
  obtain ⟨g1, g2, g3, g4, g5⟩ := hsg
  obtain ⟨e', s', ib', ix', sg'⟩ := k'
  simp only at g1 g2 g3 g4 g5
  subst g1 g2 g3 g4
  have hg : SigOk K.decls[i].sig := hK.2 _ (hd.subset (List.getElem_mem hi))
  refine ⟨_, _, message_eq hP (k := ⟨K.e, K.s, K.idxBytes, i, K.decls[i].sig⟩) hsup (idxBytes_pos hlK).1 (Nat.lt_trans hi (idxBytes_pos hlK).2) hg hf,
    message_eq hP (k := ⟨K.e, K.s, K'.idxBytes, ix', K.decls[i].sig⟩) hsup (idxBytes_pos hK.1).1 g5 hg hf, ?_⟩
  simp only [request, List.length_append, wireBytes_length]
  omega

/-! ## Examples -/

/-- `ledRing`, to which `void dim(uint32_t)` has been added. -/
def ledRing2 : Keyring := ⟨.little, .twosComplement, ledRing.decls ++ [⟨4, [.uint 4], none⟩]⟩

theorem ledRing2_extends : Extends ledRing ledRing2 :=
  ⟨rfl, rfl, List.prefix_append .., by simp [ledRing2, ledRing]⟩

theorem led2_setting (f : Features) : Setting pc ledRing2 f ledDefs where
  valid := pc_valid
  ring := ⟨by decide, by simp [ledRing2, ledRing, SigOk, Ty.WFs, Ty.WF, PackedAll, Packed, Ty.sizeof, wireSize]⟩
  sup := pc_supported _ _
  sizes := by simp [ledRing2, ledRing, Ty.sizeof, wireSize]
  typed := by
    intro d hd
    rcases List.mem_append.1 hd with hd | hd
    · exact (led_setting f).typed d hd
    · rw [List.mem_singleton.1 hd]
      intro args w r w' hf h
      match args, hf with
      | [.int x], _ => simp only [ledDefs] at h; injection h with h1 _; subst h1; simp [RetOk]

theorem led2_fit (shared : Bool) : ResponsesFit ledRing2 shared := by
  have h1 : neededOutput ledRing2 = 4 := rfl
  have h2 : neededInput ledRing2 = 5 := rfl
  unfold ResponsesFit
  rw [h1, h2]
  cases shared <;> simp [ledRing2, ledRing, retSize, wireSize]

example : ledRing2.get11 3 = ledRing.get11 3 := (C76_keys ledRing2_extends (by decide) (i := 2) (by decide)).1

/-- A microcontroller which knows `ledRing` and a computer which knows `ledRing2`. -/
example : ∃ b', blockingCalls avr ledRing Link.beside (serveBuffered pc) ledCalls
      (fresh pc ledRing2 .any (hosted ledDefs) 255 true, ⟨[], [], ([], [], [])⟩) =
    .ret [some (.int 307), some (.int (-1)), none]
      (b', ⟨[], [], ([], [[.int 1, .int 300, .int 7], [.int 3, .int 4, .int 5], [.int 2]], [])⟩) := by
  have h := C76_older_caller ledRing2_extends avr_valid (avr_supported _ _) (led2_setting .any) led_typed_avr (led2_fit true) ledCalls_ok
    (w := ([], [], [])) ⟨255, _, .start⟩ (fresh_pending _ _ _ _ _ _)
  rw [ledCalls_local] at h
  exact h.1.imp fun _ h => h.1

example : blockingCalls avr ledRing (Lens.whole _) (serveUnbuffered pc (Dispatcher.make ledRing2 .any (hosted ledDefs))) ledCalls
      ⟨[], [], ([], [], [])⟩ =
    .ret [some (.int 307), some (.int (-1)), none] ⟨[], [], ([], [[.int 1, .int 300, .int 7], [.int 3, .int 4, .int 5], [.int 2]], [])⟩ := by
  rw [C76_older_caller_unbuffered ledRing2_extends avr_valid pc_valid (led2_setting .any).ring (avr_supported _ _) (pc_supported _ _) led_typed_avr
    (led2_setting .any).typed ledCalls_ok .any, ledCalls_local]

/-- A microcontroller which knows `ledRing2` and a computer which knows `ledRing`. -/
example : ∃ b', blockingCalls avr ledRing2 Link.beside (serveBuffered pc) ledCalls
      (fresh pc ledRing .any (hosted ledDefs) 255 true, ⟨[], [], ([], [], [])⟩) =
    .ret [some (.int 307), some (.int (-1)), none]
      (b', ⟨[], [], ([], [[.int 1, .int 300, .int 7], [.int 3, .int 4, .int 5], [.int 2]], [])⟩) := by
  have h := C76_newer_caller ledRing2_extends (by decide) avr_valid (avr_supported _ _) (led_setting .any) led_typed_avr (led_fit true) ledCalls_ok
    (w := ([], [], [])) ⟨255, _, .start⟩ (fresh_pending _ _ _ _ _ _)
  rw [ledCalls_local] at h
  exact h.imp fun _ h => h.1

/-- `n` functions which take a `uint8_t`. -/
def manyRing (n : Nat) : Keyring := ⟨.little, .twosComplement, (List.range n).map fun i => ⟨i, [.uint 1], none⟩⟩

theorem manyRing_length (n : Nat) : (manyRing n).decls.length = n := by simp [manyRing]

theorem manyRing_get {n : Nat} (hn : n < 2 ^ 64) {i : Nat} (hi : i < n) :
    (manyRing n).get11 i = some ⟨.little, .twosComplement, smallestUnsigned n, i, [.uint 1], none⟩ := by
  have hn' : ((manyRing n).decls.map (·.name)).Nodup := by
    simp only [manyRing, List.map_map, Function.comp_def, List.map_id_fun', id]
    exact List.nodup_range
  have h := (C27_key_index (manyRing n) (by rw [manyRing_length]; exact hn) hn' i (by rw [manyRing_length]; exact hi)).1
  simpa [manyRing, Keyring.idxBytes] using h

theorem manyRing_e (n m : Nat) : (manyRing n).e = (manyRing m).e := rfl

theorem manyRing_s (n m : Nat) : (manyRing n).s = (manyRing m).s := rfl

theorem manyRing_prefix (n : Nat) : (manyRing n).decls <+: (manyRing (n + 1)).decls := by
  simp only [manyRing, List.range_succ, List.map_append, List.map_cons, List.map_nil]
  exact List.prefix_append ..

theorem manyRing_ok {n : Nat} (hn : n < 2 ^ 64) : KeyringOk (manyRing n) := by
  refine ⟨by rw [manyRing_length]; exact hn, fun d hd => ?_⟩
  simp only [manyRing, List.mem_map] at hd
  obtain ⟨_, _, rfl⟩ := hd
  simp [SigOk, Ty.WFs, Ty.WF, PackedAll, Packed]

/-- From 255 to 256 functions. -/
example : ∃ p p', (⟨.little, .twosComplement, 1, 7, [.uint 1], none⟩ : Key).message pc [.int 5] = .ok p ∧
    (⟨.little, .twosComplement, 2, 7, [.uint 1], none⟩ : Key).message pc [.int 5] = .ok p' ∧ p.length < p'.length :=
  have h1 : smallestUnsigned 255 = 1 := rfl
  have h2 : smallestUnsigned 256 = 2 := rfl
  C76_boundary (K := manyRing 255) (K' := manyRing (255 + 1)) (manyRing_e _ _) (manyRing_s _ _)
    (manyRing_prefix 255) (manyRing_ok (by decide)) (m := 1) (by simp) (by rw [manyRing_length]; omega)
    (by rw [manyRing_length]; omega) pc_valid (pc_supported _ _) (n := 7) (h1 ▸ manyRing_get (by decide) (by decide))
    (h2 ▸ manyRing_get (by decide) (by decide)) (by simp [Val.FitsAll, Val.Fits])

end Upd
