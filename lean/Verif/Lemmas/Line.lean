import Verif.Spec.Line
import Verif.Lemmas.Session
import Verif.Lemmas.Deferred
import Verif.Props.Interchange

/-! Helper lemmas: calls through a line which alters bytes. -/

namespace Upd
open Spec TypeList

variable {σ τ α : Type} {P Q : Platform} {K : Keyring} {f : Features} {defs : Nat → List Val → Eff σ (Option Val)} {shared : Bool}

/-- Reading more bytes than there are. -/
theorem getN_short : ∀ {n : Nat} {m down : List Byte} {w : σ}, m.length < n → getN (Link.readFromMaster (σ := σ)) n ⟨m, down, w⟩ = .fault .starved
  | 0, _, _, _, h => absurd h (Nat.not_lt_zero _)
  | _ + 1, [], _, _, _ => Eff.bind_fault rfl
  | n + 1, x :: m, down, w, h => by
    have ih : getN (Link.readFromMaster (σ := σ)) n ⟨m, down, w⟩ = .fault .starved := getN_short (by simpa using h)
    exact (Eff.bind_ret (show Link.readFromMaster (σ := σ) ⟨x :: m, down, w⟩ = .ret x ⟨m, down, w⟩ from rfl)).trans (Eff.bind_fault ih)

theorem getN_short_down : ∀ {n : Nat} {m up : List Byte} {w : σ}, m.length < n → getN (Link.readFromSlave (σ := σ)) n ⟨up, m, w⟩ = .fault .starved
  | 0, _, _, _, h => absurd h (Nat.not_lt_zero _)
  | _ + 1, [], _, _, _ => Eff.bind_fault rfl
  | n + 1, x :: m, up, w, h => by
    have ih : getN (Link.readFromSlave (σ := σ)) n ⟨up, m, w⟩ = .fault .starved := getN_short_down (by simpa using h)
    exact (Eff.bind_ret (show Link.readFromSlave (σ := σ) ⟨up, x :: m, w⟩ = .ret x ⟨up, m, w⟩ from rfl)).trans (Eff.bind_fault ih)

/-- A run of the unbuffered dispatcher on bytes of an existing function. -/
theorem run_any (hQ : Q.Valid) (hK : KeyringOk K) (hs : Supported Q K.e K.s) (ht : ∀ d ∈ K.decls, WellTyped Q K.s ⟨d.sig, defs d.name⟩)
    (hd : AllDecodeSafe Q K) {index bytes rest down : List Byte} {w : σ} (hl : index.length = K.idxBytes) {d : Decl}
    (hg : K.decls[wireValue K.e index]? = some d) (hb : bytes.length = wireSizes d.sig.params) :
    (Dispatcher.make K f (hosted defs)).run Q (Lens.whole _) Link.readFromMaster Link.writeToMaster ⟨index ++ bytes ++ rest, down, w⟩ =
      match defs d.name (unwires K.e K.s d.sig.params bytes) w with
      | .ret r w' => .ret (wireValue K.e index) ⟨rest, down ++ response K.e K.s d.sig.ret r, w'⟩
      | .threw w' => .threw ⟨rest, down, w'⟩
      | .fault f => .fault f := by
  obtain ⟨hi, rfl⟩ := List.getElem?_eq_some_iff.mp hg
  have hmem := List.getElem_mem hi
  have h0 := getN_yields (yields_up (σ := σ) index (bytes ++ rest) down w)
  rw [hl, ← List.append_assoc] at h0
  rw [run_eq hQ (D := Dispatcher.make K f (hosted defs)) hs (idxBytes_pos hK.1).1]
  refine (Eff.bind_ret h0).trans ?_
  have hsize : wireValue K.e index < (Dispatcher.make K f (hosted defs)).size := by
    show _ < K.size
    rw [K.size_eq hK.1]
    exact hi
  have he : (Dispatcher.make K f (hosted defs)).e = K.e := rfl
  rw [he, if_pos hsize, at_eq (make_acts (f := f) (defs := hosted defs) hi), Eff.lift_ok, pure_bind,
    (makeAction_holds f K.e K.s _).invoke Q (Lens.whole _), call_serve hQ hs _ (hK.2 _ hmem) (hd _ hmem) (hosted_typed (ht _ hmem))]
  unfold serve
  have h1 := getN_yields (yields_up (σ := σ) bytes rest down w)
  rw [hb] at h1
  rw [bind_assoc]
  refine (Eff.bind_ret h1).trans ?_
  rw [zoom_whole, bind_assoc]
  show (hosted defs K.decls[wireValue K.e index].name _ >>= _) ⟨rest, down, w⟩ = _
  cases hdf : defs K.decls[wireValue K.e index].name (unwires K.e K.s K.decls[wireValue K.e index].sig.params bytes) w with
  | fault e => exact Eff.bind_fault (hosted_fault hdf)
  | threw w' => exact Eff.bind_threw (hosted_threw hdf)
  | ret r w' =>
    refine (Eff.bind_ret (hosted_ret (l := ⟨rest, down, w⟩) hdf)).trans ?_
    exact (Eff.bind_ret (putAll_accepts (accepts_down _ _ _ _))).trans rfl

/-- A run of the unbuffered dispatcher on the beginning of a request. -/
theorem run_short (hQ : Q.Valid) (hK : KeyringOk K) (hs : Supported Q K.e K.s) (ht : ∀ d ∈ K.decls, WellTyped Q K.s ⟨d.sig, defs d.name⟩)
    (hd : AllDecodeSafe Q K) {i : Nat} {d : Decl} (hi : K.decls[i]? = some d) {bytes m down : List Byte} {w : σ} (hb : bytes.length = wireSizes d.sig.params)
    (hm : m <+: wireBytes K.e K.idxBytes i ++ bytes) (hne : m.length < K.idxBytes + wireSizes d.sig.params) :
    (Dispatcher.make K f (hosted defs)).run Q (Lens.whole _) Link.readFromMaster Link.writeToMaster ⟨m, down, w⟩ = .fault .starved := by
  rw [run_eq hQ (D := Dispatcher.make K f (hosted defs)) hs (idxBytes_pos hK.1).1]
  by_cases hlt : m.length < K.idxBytes
  · exact Eff.bind_fault (getN_short hlt)
  · obtain ⟨hii, rfl⟩ := List.getElem?_eq_some_iff.mp hi
    have hmem := List.getElem_mem hii
    have hib : i < 256 ^ K.idxBytes := Nat.lt_trans hii (idxBytes_pos hK.1).2
    have hpre : wireBytes K.e K.idxBytes i <+: m :=
      List.prefix_of_prefix_length_le (List.prefix_append _ _) hm (by rw [wireBytes_length]; omega)
    obtain ⟨r, rfl⟩ := hpre
    have h0 := getN_yields (yields_up (σ := σ) (wireBytes K.e K.idxBytes i) r down w)
    rw [wireBytes_length] at h0
    refine (Eff.bind_ret h0).trans ?_
    have hsize : i < (Dispatcher.make K f (hosted defs)).size := by
      show _ < K.size
      rw [K.size_eq hK.1]
      exact hii
    have hwv : wireValue (Dispatcher.make K f (hosted defs)).e (wireBytes K.e K.idxBytes i) = i := wireValue_wireBytes hib
    rw [hwv, if_pos hsize, at_eq (make_acts (f := f) (defs := hosted defs) hii), Eff.lift_ok, pure_bind,
      (makeAction_holds f K.e K.s _).invoke Q (Lens.whole _), call_serve hQ hs _ (hK.2 _ hmem) (hd _ hmem) (hosted_typed (ht _ hmem))]
    unfold serve
    rw [bind_assoc]
    exact Eff.bind_fault (getN_short (by rw [List.length_append, wireBytes_length] at hne; show r.length < wireSizes K.decls[i].sig.params; omega))

/-- The values of bytes among which only the ones of one value are unknown. -/
theorem unwires_around {e : Endian} {s : Mode} {leaf : Nat → Int → Prop} (hleaf : ∀ k z, leaf k z → Representable s k z) : ∀ {before after : List Ty} {t : Ty},
    Ty.WFs (before ++ t :: after) → PackedAll (before ++ t :: after) → ∀ {xs ys : List Val}, Val.FitsAll leaf before xs → ∀ {got : List Byte}, got.length = wireSize t →
    Val.FitsAll leaf after ys → unwires e s (before ++ t :: after) (wires e s before xs ++ (got ++ wires e s after ys)) = xs ++ unwire e s t got :: ys
  | [], after, t, hw, hp, xs, ys, hx, got, hg, hy => by
    cases xs with
    | cons _ _ => simp [Val.FitsAll] at hx
    | nil =>
      simp only [List.nil_append, Ty.WFs] at hw
      simp only [List.nil_append, PackedAll] at hp
      simp only [wires, List.nil_append, unwires]
      rw [List.take_append_of_le_length (by omega), List.take_of_length_le (by omega), List.drop_append, List.drop_of_length_le (by omega), hg, Nat.sub_self, List.nil_append,
        List.drop_zero, unwires_wires' hw.2 hp.2 (fitsAll_mono hleaf _ _ hy)]
  | u :: before, after, t, hw, hp, xs, ys, hx, got, hg, hy => by
    cases xs with
    | nil => simp [Val.FitsAll] at hx
    | cons x xs =>
      simp only [List.cons_append, Ty.WFs] at hw
      simp only [List.cons_append, PackedAll] at hp
      simp only [Val.FitsAll] at hx
      have hl : (wire e s u x).length = wireSize u := wire_length hp.1 hx.1
      have h1 := unwires_wires' (e := e) (s := s) (ts := [u]) (vs := [x]) (by simpa [Ty.WFs] using hw.1) (by simpa [PackedAll] using hp.1)
        (by simpa [Val.FitsAll] using fits_mono hleaf _ _ hx.1)
      simp only [wires, List.append_nil, unwires, List.take_of_length_le (Nat.le_of_eq hl), List.cons.injEq, and_true] at h1
      simp only [wires, List.cons_append, unwires, List.append_assoc]
      rw [List.take_append_of_le_length (by omega), List.take_of_length_le (by omega), List.drop_append, List.drop_of_length_le (by omega), hl, Nat.sub_self, List.nil_append,
        List.drop_zero, h1, unwires_around hleaf hw.2 hp.2 hx.2 hg hy]

/-- What is needed of a callee which may receive any bytes. -/
structure AnyServer (Q : Platform) (K : Keyring) (defs : Nat → List Val → Eff σ (Option Val)) (L : Lens τ (Link σ)) (serve : Eff τ Unit)
    (Inv : τ → Prop) : Prop where
  get_put : ∀ l t, L.get (L.put l t) = l
  inv_put : ∀ l t, Inv t → Inv (L.put l t)
  step : ∀ (index bytes rest down : List Byte) (w : σ) (t : τ) (d : Decl), index.length = K.idxBytes → K.decls[wireValue K.e index]? = some d →
    bytes.length = wireSizes d.sig.params → Inv t → L.get t = ⟨index ++ bytes ++ rest, down, w⟩ →
    match defs d.name (unwires K.e K.s d.sig.params bytes) w with
    | .ret r w' => ∃ t', serve t = .ret () t' ∧ Inv t' ∧ L.get t' = ⟨rest, down ++ response K.e K.s d.sig.ret r, w'⟩
    | .threw w' => ∃ t', serve t = .threw t' ∧ (L.get t').world = w'
    | .fault f => serve t = .fault f
  short : ∀ (i : Nat) (bytes m down : List Byte) (w : σ) (t : τ) (d : Decl), K.decls[i]? = some d → bytes.length = wireSizes d.sig.params →
    m <+: wireBytes K.e K.idxBytes i ++ bytes → m.length < K.idxBytes + wireSizes d.sig.params → Inv t → L.get t = ⟨m, down, w⟩ → serve t = .fault .starved

theorem unbuffered_any (hQ : Q.Valid) (hK : KeyringOk K) (hs : Supported Q K.e K.s) (ht : ∀ d ∈ K.decls, WellTyped Q K.s ⟨d.sig, defs d.name⟩)
    (hd : AllDecodeSafe Q K) : AnyServer Q K defs (Lens.whole (Link σ)) (serveUnbuffered Q (Dispatcher.make K f (hosted defs))) fun _ => True where
  get_put := fun _ _ => rfl
  inv_put := fun _ _ _ => trivial
  step := by
    intro index bytes rest down w t d h1 h2 h3 _ hl
    have hl : t = _ := hl
    subst hl
    have h := run_any (f := f) hQ hK hs ht hd (rest := rest) (down := down) (w := w) h1 h2 h3
    cases hdf : defs d.name (unwires K.e K.s d.sig.params bytes) w with
    | fault e => rw [hdf] at h; exact Eff.bind_fault h
    | threw w' => rw [hdf] at h; exact ⟨_, Eff.bind_threw h, rfl⟩
    | ret r w' => rw [hdf] at h; exact ⟨_, Eff.bind_ret h, trivial, rfl⟩
  short := by
    intro i bytes m down w t d h1 h2 h3 h4 _ hl
    have hl : t = _ := hl
    subst hl
    exact Eff.bind_fault (run_short hQ hK hs ht hd h1 h2 h3 h4)

theorem buffered_any (h : Setting Q K f defs) (ho : ResponsesFit K shared) (hd : AllDecodeSafe Q K) :
    AnyServer Q K defs (Link.beside (σ := σ)) (serveBuffered Q) fun st => Reachable Q K f (hosted defs) shared st ∧ Pending st.1 [] where
  get_put := fun _ _ => rfl
  inv_put := fun l t ht => ⟨reachable_world ht.1 l, ht.2⟩
  step := by
    rintro index bytes rest down w ⟨b, l⟩ d h1 h2 h3 ⟨hr, hp⟩ hl
    have hl : l = _ := hl
    subst hl
    have hrun := run_any (f := f) h.valid h.ring h.sup h.typed hd (rest := rest) (down := down) (w := w) h1 h2 h3
    have hbuf := C101_packet (hosted_setting h) ho hr hp f Link.readFromMaster Link.writeToMaster
    rw [hrun] at hbuf
    cases hdf : defs d.name (unwires K.e K.s d.sig.params bytes) w with
    | fault e => rw [hdf] at hbuf; exact Eff.bind_fault hbuf
    | threw w' =>
      rw [hdf] at hbuf
      obtain ⟨b', h1⟩ := hbuf
      exact ⟨_, Eff.bind_threw h1, rfl⟩
    | ret r w' =>
      rw [hdf] at hbuf
      obtain ⟨b', h1, h2⟩ := hbuf
      exact ⟨_, Eff.bind_ret h1, ⟨reachable_op hr (.process Link.readFromMaster Link.writeToMaster) trivial (Eff.bind_ret h1), h2⟩, rfl⟩
  short := by
    rintro i bytes m down w ⟨b, l⟩ d h1 h2 h3 h4 ⟨hr, hp⟩ hl
    have hl : l = _ := hl
    subst hl
    have hbuf := C101_packet (hosted_setting h) ho hr hp f Link.readFromMaster Link.writeToMaster
    rw [run_short h.valid h.ring h.sup h.typed hd h1 h2 h3 h4] at hbuf
    exact Eff.bind_fault hbuf

/-- Reading a response which has arrived. -/
theorem read_any (hP : P.Valid) {k : Key} (hs : Supported P k.e k.s) (hg : SigOk k.sig) (hd : ∀ t, k.sig.ret = some t → DecodeSafe P k.e k.s t)
    {bs up : List Byte} {w : σ} (hl : bs.length = retSize k.sig.ret) :
    k.readFrom P Link.readFromSlave ⟨up, bs, w⟩ = .ret (k.sig.ret.map fun t => unwire k.e k.s t bs) ⟨up, [], w⟩ := by
  rw [C31_read_from hP hs hg hd]
  cases hr : k.sig.ret with
  | none =>
    rw [hr] at hl
    have : bs = [] := List.eq_nil_of_length_eq_zero (by simpa [retSize] using hl)
    subst this
    rfl
  | some t =>
    rw [hr] at hl
    have h := getN_yields (yields_down (σ := σ) bs [] up w)
    rw [List.append_nil, hl] at h
    exact (Eff.bind_ret (show getN Link.readFromSlave (wireSize t) _ = _ from h)).trans rfl

/-- A program whose calls go through a line. -/
theorem distorted_server (hP : P.Valid) (hQ : Q.Valid) (hK : KeyringOk K) (hs : Supported P K.e K.s) (hsQ : Supported Q K.e K.s)
    (ht : ∀ d ∈ K.decls, WellTyped Q K.s ⟨d.sig, defs d.name⟩) (hdQ : AllDecodeSafe Q K) (hdP : ResultsDecodeSafe P K) {line : Line σ}
    (hF : Spec.Line.Frames P K line) {L : Lens τ (Link σ)} {serve : Eff τ Unit} {Inv : τ → Prop} (hS : AnyServer Q K defs L serve Inv) :
    ∀ (prog : Talk σ α) (w : σ) (t : τ), TalkOk P K prog → Inv t → L.get t = ⟨[], [], w⟩ →
    match distorted line K defs prog w with
    | .ret a w' => ∃ t', prog.remote P K L serve line t = .ret a t' ∧ Inv t' ∧ L.get t' = ⟨[], [], w'⟩
    | .threw w' => ∃ t', prog.remote P K L serve line t = .threw t' ∧ (L.get t').world = w'
    | .fault f => prog.remote P K L serve line t = .fault f
  | .done a, w, t, _, hi, hl => ⟨t, rfl, hi, hl⟩
  | .look k, w, t, hok, hi, hl => by
    have ih := distorted_server hP hQ hK hs hsQ ht hdQ hdP hF hS (k w) w t (hok w) hi hl
    have h1 : (Talk.look k).remote P K L serve line t = (k w).remote P K L serve line t := by
      show (k (L.get t).world).remote P K L serve line t = _
      rw [hl]
    rw [h1]
    exact ih
  | .act x k, w, t, hok, hi, hl => by
    show match (x >>= fun _ => distorted line K defs k) w with
      | .ret a w' => _ | .threw w' => _ | .fault f => _
    have h1 : (Talk.act x k).remote P K L serve line = (Eff.zoom L (Eff.zoom Link.rest x) >>= fun _ => k.remote P K L serve line) := rfl
    rw [h1]
    cases hx : x w with
    | fault e =>
      rw [Eff.bind_fault hx]
      exact Eff.bind_fault (zoom_fault (zoom_fault (by rw [hl]; exact hx)))
    | threw w' =>
      rw [Eff.bind_threw hx]
      refine ⟨_, Eff.bind_threw (zoom_threw (zoom_threw (L := Link.rest) (by rw [hl]; exact hx))), ?_⟩
      rw [hS.get_put]
      rfl
    | ret u w' =>
      have h2 : Eff.zoom L (Eff.zoom Link.rest x) t = .ret u (L.put ⟨[], [], w'⟩ t) := by
        refine zoom_ret ?_
        rw [hl]
        exact zoom_ret (L := Link.rest) hx
      rw [Eff.bind_ret hx, Eff.bind_ret h2]
      exact distorted_server hP hQ hK hs hsQ ht hdQ hdP hF hS k w' _ hok (hS.inv_put _ _ hi) (hS.get_put _ _)
  | .call i args k, w, t, hok, hinv, hl => by
    obtain ⟨⟨sent, hg, hfit⟩, hk⟩ := hok
    obtain ⟨hi, rfl⟩ := List.getElem?_eq_some_iff.mp hg
    have hrem : (Talk.call i args k).remote P K L serve line =
        (noisyCall P L serve line ⟨K.e, K.s, K.idxBytes, i, K.decls[i].sig⟩ args >>= fun r => (k r).remote P K L serve line) := by
      rw [Talk.remote, K.keyAt_eq hK.1 hi]
    have hdist : distorted line K defs (.call i args k) = (distortedCall line K defs i args >>= fun r => distorted line K defs (k r)) := rfl
    have hcall : match distortedCall line K defs i args w with
        | .ret r w' => ∃ t', noisyCall P L serve line ⟨K.e, K.s, K.idxBytes, i, K.decls[i].sig⟩ args t = .ret r t' ∧ Inv t' ∧ L.get t' = ⟨[], [], w'⟩
        | .threw w' => ∃ t', noisyCall P L serve line ⟨K.e, K.s, K.idxBytes, i, K.decls[i].sig⟩ args t = .threw t' ∧ (L.get t').world = w'
        | .fault f => noisyCall P L serve line ⟨K.e, K.s, K.idxBytes, i, K.decls[i].sig⟩ args t = .fault f := by
      have hsend := send_request hP hK hs hi hfit hl
      rw [List.nil_append] at hsend
      unfold noisyCall
      rw [Eff.bind_ret hsend]
      unfold distortedCall
      rw [hg]
      simp only
      cases hup : line.up (request K.e K.s K.idxBytes i K.decls[i].sig.params args) w with
      | fault e =>
        rw [Eff.bind_fault hup]
        refine Eff.bind_fault (zoom_fault ?_)
        rw [hS.get_put]
        simp only [Line.carryUp, hup]
      | threw w' =>
        rw [Eff.bind_threw hup]
        have h : line.carryUp (L.get (L.put ⟨request K.e K.s K.idxBytes i K.decls[i].sig.params args, [], w⟩ t)) =
            .threw ⟨request K.e K.s K.idxBytes i K.decls[i].sig.params args, [], w'⟩ := by
          rw [hS.get_put]
          simp only [Line.carryUp, hup]
        refine ⟨_, Eff.bind_threw (zoom_threw h), ?_⟩
        rw [hS.get_put]
      | ret got w1 =>
        rw [Eff.bind_ret hup]
        obtain ⟨hlen, d, hd, hps, hrs⟩ := hF.up i _ args w got w1 hg hfit hup
        have hcu : Eff.zoom L line.carryUp (L.put ⟨request K.e K.s K.idxBytes i K.decls[i].sig.params args, [], w⟩ t) =
            .ret () (L.put ⟨got, [], w1⟩ (L.put ⟨request K.e K.s K.idxBytes i K.decls[i].sig.params args, [], w⟩ t)) := by
          refine zoom_ret ?_
          rw [hS.get_put]
          simp only [Line.carryUp, hup]
        rw [Eff.bind_ret hcu, hd]
        simp only
        have hstep := hS.step (got.take K.idxBytes) (got.drop K.idxBytes) [] [] w1
          (L.put ⟨got, [], w1⟩ (L.put ⟨request K.e K.s K.idxBytes i K.decls[i].sig.params args, [], w⟩ t)) d
          (by rw [List.length_take]; omega) hd (by rw [List.length_drop]; omega) (hS.inv_put _ _ (hS.inv_put _ _ hinv))
          (by rw [hS.get_put, List.take_append_drop, List.append_nil])
        cases hdf : defs d.name (unwires K.e K.s d.sig.params (got.drop K.idxBytes)) w1 with
        | fault e => rw [hdf] at hstep; rw [Eff.bind_fault hdf]; exact Eff.bind_fault hstep
        | threw w2 =>
          rw [hdf] at hstep
          rw [Eff.bind_threw hdf]
          obtain ⟨t', h1, h2⟩ := hstep
          exact ⟨t', Eff.bind_threw h1, h2⟩
        | ret r w2 =>
          rw [hdf] at hstep
          rw [Eff.bind_ret hdf]
          obtain ⟨t2, h1, h2, h3⟩ := hstep
          rw [List.nil_append] at h3
          rw [Eff.bind_ret h1]
          have hmem := List.mem_of_getElem? hd
          have hfits := (readAll_decodeSafe hQ hsQ (hK.2 _ hmem).1 (hK.2 _ hmem).2.1 (hdQ _ hmem) (show (got.drop K.idxBytes).length = wireSizes d.sig.params by
            rw [List.length_drop]; omega)).2
          have hret := ht _ hmem _ _ _ _ hfits hdf
          cases hdn : line.down (response K.e K.s d.sig.ret r) w2 with
          | fault e =>
            rw [Eff.bind_fault hdn]
            refine Eff.bind_fault (zoom_fault ?_)
            rw [h3]
            simp only [Line.carryDown, hdn]
          | threw w3 =>
            rw [Eff.bind_threw hdn]
            have h : line.carryDown (L.get t2) = .threw ⟨[], response K.e K.s d.sig.ret r, w3⟩ := by
              rw [h3]
              simp only [Line.carryDown, hdn]
            refine ⟨_, Eff.bind_threw (zoom_threw h), ?_⟩
            rw [hS.get_put]
          | ret bs w3 =>
            rw [Eff.bind_ret hdn]
            have hcd : Eff.zoom L line.carryDown t2 = .ret () (L.put ⟨[], bs, w3⟩ t2) := by
              refine zoom_ret ?_
              rw [h3]
              simp only [Line.carryDown, hdn]
            rw [Eff.bind_ret hcd]
            have hbl : bs.length = retSize K.decls[i].sig.ret := by
              rw [hF.down _ _ _ _ hdn, response_length (hK.2 _ hmem) hret, hrs]
            have hrd := read_any (σ := σ) hP (k := ⟨K.e, K.s, K.idxBytes, i, K.decls[i].sig⟩) hs (hK.2 _ (List.getElem_mem hi))
              (hdP _ (List.getElem_mem hi)) (up := []) (w := w3) hbl
            refine ⟨_, zoom_ret (by rw [hS.get_put]; exact hrd), hS.inv_put _ _ (hS.inv_put _ _ h2), hS.get_put _ _⟩
    rw [hrem, hdist]
    cases hc : distortedCall line K defs i args w with
    | fault e => rw [hc] at hcall; rw [Eff.bind_fault hc]; exact Eff.bind_fault hcall
    | threw w' =>
      rw [hc] at hcall
      rw [Eff.bind_threw hc]
      obtain ⟨t', h1, h2⟩ := hcall
      exact ⟨t', Eff.bind_threw h1, h2⟩
    | ret r w' =>
      rw [hc] at hcall
      rw [Eff.bind_ret hc]
      obtain ⟨t', h1, h2, h3⟩ := hcall
      rw [Eff.bind_ret h1]
      exact distorted_server hP hQ hK hs hsQ ht hdQ hdP hF hS (k r) w' t' (hk r) h2 h3

/-- A call whose request does not arrive entirely. -/
theorem lost_server (hP : P.Valid) (hK : KeyringOk K) (hs : Supported P K.e K.s) {line : Line σ} {L : Lens τ (Link σ)} {serve : Eff τ Unit} {Inv : τ → Prop}
    (hS : AnyServer Q K defs L serve Inv) {i : Nat} (hi : i < K.decls.length) {args : List Val} (hf : Val.FitsAll (Safe P K.s) K.decls[i].sig.params args)
    {w w1 : σ} {t : τ} (hinv : Inv t) (hl : L.get t = ⟨[], [], w⟩) {got : List Byte}
    (hup : line.up (request K.e K.s K.idxBytes i K.decls[i].sig.params args) w = .ret got w1)
    (hp : got <+: request K.e K.s K.idxBytes i K.decls[i].sig.params args) (hne : got ≠ request K.e K.s K.idxBytes i K.decls[i].sig.params args) :
    noisyCall P L serve line ⟨K.e, K.s, K.idxBytes, i, K.decls[i].sig⟩ args t = .fault .starved := by
  have hsend := send_request hP hK hs hi hf hl
  rw [List.nil_append] at hsend
  unfold noisyCall
  rw [Eff.bind_ret hsend]
  have hcu : Eff.zoom L line.carryUp (L.put ⟨request K.e K.s K.idxBytes i K.decls[i].sig.params args, [], w⟩ t) =
      .ret () (L.put ⟨got, [], w1⟩ (L.put ⟨request K.e K.s K.idxBytes i K.decls[i].sig.params args, [], w⟩ t)) := by
    refine zoom_ret ?_
    rw [hS.get_put]
    simp only [Line.carryUp, hup]
  rw [Eff.bind_ret hcu]
  have hw := wires_length (e := K.e) (s := K.s) (hK.2 _ (List.getElem_mem hi)).2.1 hf
  have hlt : got.length < K.idxBytes + wireSizes K.decls[i].sig.params := by
    have h1 := hp.length_le
    have h2 : got.length ≠ (request K.e K.s K.idxBytes i K.decls[i].sig.params args).length := fun h => hne (hp.eq_of_length h)
    simp only [request, List.length_append, wireBytes_length, hw] at h1 h2
    omega
  exact Eff.bind_fault (hS.short i _ got [] w1 _ _ (List.getElem?_eq_getElem hi) hw hp hlt (hS.inv_put _ _ (hS.inv_put _ _ hinv)) (hS.get_put _ _))

end Upd
