import Verif.Spec.Interchange
import Verif.Props.Replace
import Verif.Props.BufferedIO
import Verif.Lemmas.Faults

/-!
# `operator()` of both kinds of dispatchers, on any stream
-/

namespace Upd
open Spec TypeList

variable {σ : Type} {P : Platform} {K : Keyring} {f f' : Features} {defs : Nat → List Val → Eff σ (Option Val)} {shared : Bool} {n : Nat}

/-- A getter which stops before `n` bytes. -/
theorem getN_threw {src : Eff σ Byte} : ∀ {n : Nat} {w w' : σ}, getN src n w = .threw w' →
    ∃ bs w1, bs.length < n ∧ Yields src w bs w1 ∧ src w1 = .threw w'
  | 0, _, _, h => by cases h
  | n + 1, w, w', h => by
    cases hs : src w with
    | fault f => rw [show getN src (n + 1) w = .fault f from Eff.bind_fault hs] at h; cases h
    | threw w1 =>
      rw [show getN src (n + 1) w = .threw w1 from Eff.bind_threw hs] at h
      cases h
      exact ⟨[], w, by simp, .nil w, hs⟩
    | ret x w1 =>
      rw [show getN src (n + 1) w = (getN src n >>= fun xs => pure (x :: xs)) w1 from Eff.bind_ret hs] at h
      cases hg : getN src n w1 with
      | fault f => rw [Eff.bind_fault hg] at h; cases h
      | ret xs w2 => rw [Eff.bind_ret hg] at h; cases h
      | threw w2 =>
        rw [Eff.bind_threw hg] at h
        cases h
        obtain ⟨bs, w3, h1, h2, h3⟩ := getN_threw hg
        exact ⟨x :: bs, w3, by simpa using h1, .cons hs h2, h3⟩

/-- The same for a fault. -/
theorem getN_fault {src : Eff σ Byte} : ∀ {n : Nat} {w : σ} {g : Fault}, getN src n w = .fault g →
    ∃ bs w1, bs.length < n ∧ Yields src w bs w1 ∧ src w1 = .fault g
  | 0, _, _, h => by cases h
  | n + 1, w, g, h => by
    cases hs : src w with
    | threw w1 => rw [show getN src (n + 1) w = .threw w1 from Eff.bind_threw hs] at h; cases h
    | fault f =>
      rw [show getN src (n + 1) w = .fault f from Eff.bind_fault hs] at h
      cases h
      exact ⟨[], w, by simp, .nil w, hs⟩
    | ret x w1 =>
      rw [show getN src (n + 1) w = (getN src n >>= fun xs => pure (x :: xs)) w1 from Eff.bind_ret hs] at h
      cases hg : getN src n w1 with
      | threw w2 => rw [Eff.bind_threw hg] at h; cases h
      | ret xs w2 => rw [Eff.bind_ret hg] at h; cases h
      | fault f =>
        rw [Eff.bind_fault hg] at h
        cases h
        obtain ⟨bs, w3, h1, h2, h3⟩ := getN_fault hg
        exact ⟨x :: bs, w3, by simpa using h1, .cons hs h2, h3⟩

/-- The dispatcher has the callbacks of the protocol. -/
structure Answers (P : Platform) (p : Proto σ) (D : Dispatcher σ) : Prop where
  e : D.e = p.e
  s : D.s = p.s
  idx : D.idxBytes = p.idxBytes
  size : D.size = p.cbs.length
  len : D.acts.length = p.cbs.length
  act : ∀ (i : Nat) (cb : Callback σ), p.cbs[i]? = some cb → ∃ a : Action σ, D.acts[i]? = some a ∧ a.Holds p.e p.s cb

theorem answers_make (hK : KeyringOk K) : Answers P (protoOf K defs) (Dispatcher.make K f defs) := by
  refine ⟨rfl, rfl, rfl, ?_, ?_, ?_⟩
  · show K.size = (K.decls.map _).length
    rw [K.size_eq hK.1, List.length_map]
  · simp [Dispatcher.make, protoOf]
  · intro i cb h
    have h : (K.decls.map fun d => (⟨d.sig, defs d.name⟩ : Callback σ))[i]? = some cb := h
    rw [List.getElem?_map] at h
    cases hd : K.decls[i]? with
    | none => rw [hd] at h; cases h
    | some d =>
      rw [hd] at h
      cases h
      obtain ⟨hi, rfl⟩ := List.getElem?_eq_some_iff.1 hd
      exact ⟨_, make_acts hi, makeAction_holds f K.e K.s _⟩

theorem Answers.set {p : Proto σ} {D : Dispatcher σ} (h : Answers P p D) {i : Nat} {cb : Callback σ} {a : Action σ} (ha : a.Holds p.e p.s cb) :
    Answers P (p.replace i cb) { D with acts := D.acts.set i a } := by
  refine ⟨h.e, h.s, h.idx, ?_, ?_, ?_⟩
  · show D.size = (p.cbs.set i cb).length
    rw [List.length_set]; exact h.size
  · show (D.acts.set i a).length = (p.cbs.set i cb).length
    rw [List.length_set, List.length_set]; exact h.len
  · intro j c hj
    have hj : (p.cbs.set i cb)[j]? = some c := hj
    show ∃ a', (D.acts.set i a)[j]? = some a' ∧ _
    by_cases hij : i = j
    · subst hij
      have hi : i < p.cbs.length := by
        have := (List.getElem?_eq_some_iff.1 hj).1
        rwa [List.length_set] at this
      rw [List.getElem?_set_self hi] at hj
      cases hj
      exact ⟨a, by rw [List.getElem?_set_self (by rw [h.len]; exact hi)], ha⟩
    · rw [List.getElem?_set_ne hij] at hj ⊢
      exact h.act j c hj

/-- `read_from` on a getter which stops in the middle of a packet. -/
theorem readFrom_threw (hP : P.Valid) {p : Proto σ} {b : Buf σ} (h : RelIn p b []) (hb : BufOk P p b) {src : Eff σ Byte} {bs : List Byte} {w w1 w2 : σ}
    (hi : Incomplete p bs) (hy : Yields src w bs w1) (ht : src w1 = .threw w2) : ∃ b', Buf.readFrom P src (b, w) = .threw (b', w2) := by
  obtain ⟨b1, _, h2, h3, _, h5⟩ := puts_loading_all hP h hb (bs := bs) (by simpa using hi)
  exact ⟨b1, by rw [h5 src w w1 hy, readFrom_unfold hP h2 (hb.same h3), Eff.bind_threw (onWorld_threw ht)]⟩

theorem readFrom_fault (hP : P.Valid) {p : Proto σ} {b : Buf σ} (h : RelIn p b []) (hb : BufOk P p b) {src : Eff σ Byte} {bs : List Byte} {w w1 : σ} {g : Fault}
    (hi : Incomplete p bs) (hy : Yields src w bs w1) (ht : src w1 = .fault g) : Buf.readFrom P src (b, w) = .fault g := by
  obtain ⟨b1, _, h2, h3, _, h5⟩ := puts_loading_all hP h hb (bs := bs) (by simpa using hi)
  rw [h5 src w w1 hy, readFrom_unfold hP h2 (hb.same h3), Eff.bind_fault (onWorld_fault ht)]

/-- `read_from` on a getter which gives a whole packet. -/
theorem readFrom_packet (hP : P.Valid) {p : Proto σ} {b : Buf σ} (h : RelIn p b []) (hb : BufOk P p b) {src : Eff σ Byte} {bs : List Byte} {w w1 : σ}
    (hne : bs ≠ []) (hi : ∀ l l', bs = l ++ l' → l' ≠ [] → Incomplete p l) (hc : ¬ Incomplete p bs) (hy : Yields src w bs w1) :
    Buf.readFrom P src (b, w) = (puts P bs >>= fun sts => pure (sts.getLastD .loading)) (b, w1) := by
  obtain ⟨init, x, rfl⟩ : ∃ init x, bs = init ++ [x] := ⟨_, _, (List.dropLast_concat_getLast hne).symm⟩
  exact readFrom_last hP h hb (by simpa using hi init [x] rfl (by simp)) (by simpa using hc) hy

/-- Either kind of dispatcher processes one packet. -/
theorem process_run (hP : P.Valid) {p : Proto σ} {b : Buf σ} {out : List Byte} (ht : Tracks P K f shared n b p ⟨[], out⟩) {D : Dispatcher σ} (ha : Answers P p D)
    (ho : ∀ d ∈ K.decls, retSize d.sig.ret ≤ n) (src : Eff σ Byte) (dest : Byte → Eff σ Unit) (w : σ) :
    match D.run P (Lens.whole σ) src dest w with
    | .ret i w' => ∃ b' out', Buf.process P src dest (b, w) = .ret (if i < D.size then .resolved else .dropped) (b', w') ∧ Tracks P K f shared n b' p ⟨[], out'⟩
    | .threw w' => ∃ b', Buf.process P src dest (b, w) = .threw (b', w')
    | .fault g => Buf.process P src dest (b, w) = .fault g := by
  have hb := ht.ok
  have hin : RelIn p b [] := ht.rel.inp
  have hpos := hb.serves.pos
  have hrun := congrFun (run_eq hP (D := D) (by rw [ha.e, ha.s]; exact hb.serves.sup) (by rw [ha.idx]; exact hpos) (Lens.whole σ) src dest) w
  rw [ha.idx, ha.e] at hrun
  rw [hrun]
  have hproc : Buf.process P src dest (b, w) = (Buf.readFrom P src >>= fun status =>
      if status = .resolved then Buf.writeTo dest >>= fun _ => pure status else pure status) (b, w) := rfl
  cases hg : getN src p.idxBytes w with
  | threw w1 =>
    obtain ⟨bs, w2, h1, h2, h3⟩ := getN_threw hg
    rw [Eff.bind_threw hg]
    obtain ⟨b', h4⟩ := readFrom_threw hP hin hb (Or.inl h1) h2 h3
    exact ⟨b', hproc.trans (Eff.bind_threw h4)⟩
  | fault g =>
    obtain ⟨bs, w2, h1, h2, h3⟩ := getN_fault hg
    rw [Eff.bind_fault hg]
    exact hproc.trans (Eff.bind_fault (readFrom_fault hP hin hb (Or.inl h1) h2 h3))
  | ret index w1 =>
    obtain ⟨hl, hy⟩ := getN_length hg
    rw [Eff.bind_ret hg]
    have hne : index ≠ [] := by rintro rfl; simp at hl; omega
    cases hc : p.cbs[wireValue p.e index]? with
    | none =>
      have hbad : ¬ wireValue p.e index < D.size := by
        rw [ha.size]
        have := List.getElem?_eq_none_iff.1 hc
        omega
      rw [if_neg hbad]
      obtain ⟨b', h1, h2, h3, _⟩ := puts_invalid hP w1 hin hb hl hc
      have hr := readFrom_packet hP hin hb hne (fun l l' he hn => Or.inl (by
          have := congrArg List.length he
          have := List.length_pos_iff.2 hn
          simp at *; omega)) (by
        rintro (h4 | ⟨cb, h4, _⟩)
        · omega
        · rw [List.take_of_length_le (by omega), hc] at h4; cases h4) hy
      rw [Eff.bind_ret h1] at hr
      have hr : Buf.readFrom P src (b, w) = .ret .dropped (b', w1) := hr.trans (by simp [List.getLastD_eq_getLast?])
      have h4 := readFrom_outcome hP src ht.rel hb w
      rw [hr] at h4
      obtain ⟨_, _, _, out', hu⟩ := h4
      refine ⟨b', out', ?_, ht.same h3 ⟨h2, hu⟩⟩
      rw [hproc, Eff.bind_ret hr, if_neg hbad]
      rfl
    | some cb =>
      have hok : wireValue p.e index < D.size := by rw [ha.size]; exact (List.getElem?_eq_some_iff.1 hc).1
      obtain ⟨a, ha1, ha2⟩ := ha.act _ _ hc
      have hmem := mem_of_get hc
      have hsig := hb.serves.sig cb hmem
      rw [if_pos hok, at_eq ha1, Eff.lift_ok, pure_bind, ha2.invoke P (Lens.whole σ) src dest, call_eq hP hb.serves.sup cb hsig.1 hsig.2.1]
      simp only [bind_assoc]
      have hinc : ∀ bs : List Byte, bs.length < wireSizes cb.sig.params → Incomplete p (index ++ bs) := fun bs hbs =>
        Or.inr ⟨cb, by rw [← hl, List.take_left]; exact hc, by simp; omega⟩
      cases hg2 : getN src (wireSizes cb.sig.params) w1 with
      | threw w2 =>
        obtain ⟨bs, w3, h1, h2, h3⟩ := getN_threw hg2
        rw [Eff.bind_threw hg2]
        obtain ⟨b', h4⟩ := readFrom_threw hP hin hb (hinc bs h1) (Yields.append hy h2) h3
        exact ⟨b', hproc.trans (Eff.bind_threw h4)⟩
      | fault g =>
        obtain ⟨bs, w3, h1, h2, h3⟩ := getN_fault hg2
        rw [Eff.bind_fault hg2]
        exact hproc.trans (Eff.bind_fault (readFrom_fault hP hin hb (hinc bs h1) (Yields.append hy h2) h3))
      | ret args w2 =>
        obtain ⟨hl2, hy2⟩ := getN_length hg2
        rw [Eff.bind_ret hg2]
        have hread := readFrom_packet hP hin hb (bs := index ++ args) (by simp [hne]) (fun l l' he hn => incomplete_call hl hc hl2 he hn) (by
          rw [← classify_more_iff, classify_call hl hc hl2]; simp) (Yields.append hy hy2)
        have hroom : retSize cb.sig.ret ≤ b.out.length := by
          have : cb.sig ∈ K.decls.map (·.sig) := by rw [← ht.sigs]; exact List.mem_map_of_mem hmem
          obtain ⟨d, hd, hs⟩ := List.mem_map.1 this
          rw [ht.room, ← hs]; exact ho d hd
        rcases decodes_cases hP hb.serves.sup hsig hl2 with hdec | ⟨g, hdf, _⟩
        · rw [hdec.1, Eff.lift_ok, pure_bind, zoom_whole]
          have hcall := puts_call hP w2 hin hb hl hc hl2 hdec hroom
          cases hd : cb.fn (unwires p.e p.s cb.sig.params args) w2 with
          | fault g =>
            rw [hd] at hcall
            rw [Eff.bind_fault hd]
            exact hproc.trans (Eff.bind_fault (hread.trans (Eff.bind_fault hcall)))
          | threw w3 =>
            rw [hd] at hcall
            obtain ⟨b1, h4⟩ := hcall
            rw [Eff.bind_threw hd]
            exact ⟨b1, hproc.trans (Eff.bind_threw (hread.trans (Eff.bind_threw h4)))⟩
          | ret r w3 =>
            rw [hd] at hcall
            obtain ⟨b1, h4, h5, h6, h7⟩ := hcall
            have hrd : Buf.readFrom P src (b, w) = .ret .resolved (b1, w3) := by
              rw [hread]
              refine (Eff.bind_ret h4).trans ?_
              simp [List.getLastD_eq_getLast?]
            rw [Eff.bind_ret hd, hproc, Eff.bind_ret hrd, if_pos rfl,
              respond_eq hP hb.serves.sup hsig.2.2 (hb.serves.typed cb hmem _ _ _ _ hdec.2 hd)]
            have hw := writeTo_putAll (dest := dest) h6 w3
            cases hpa : putAll dest (response p.e p.s cb.sig.ret r) w3 with
            | fault g =>
              rw [hpa] at hw
              rw [Eff.bind_fault hpa]
              exact Eff.bind_fault hw
            | threw w4 =>
              rw [hpa] at hw
              rw [Eff.bind_threw hpa]
              obtain ⟨n, hw⟩ := hw
              exact ⟨_, Eff.bind_threw hw⟩
            | ret u w4 =>
              rw [hpa] at hw
              rw [Eff.bind_ret hpa]
              refine ⟨_, [], (Eff.bind_ret (f := fun _ => pure Status.resolved) hw).trans ?_,
                ht.same (h7.trans (same_next _ _)) ⟨relIn_next h5 _, unread_drained h6⟩⟩
              rw [if_pos hok]
              rfl
        · rw [hdf]
          have hcall := puts_call_exact hP w2 hin hb hl hc hl2
          have hx := readAll_exact hP hb.serves.sup cb.sig.params args 0 hsig.1 hsig.2.1 (by omega)
          rw [slice_all hl2, hdf] at hx
          cases hu : undecodables P p.e p.s cb.sig.params args with
          | none => rw [hu] at hx; cases hx
          | some g' =>
            rw [hu] at hx hcall
            injection hx with hx
            subst hx
            exact hproc.trans (Eff.bind_fault (hread.trans (Eff.bind_fault hcall)))

end Upd
