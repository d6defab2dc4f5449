import Verif.Lemmas.Effect
import Verif.Spec.Several

namespace Upd
open Spec

variable {σ τ α β : Type}

/-- From related states, related outcomes. -/
def Par (I : τ → τ → Prop) (x : Eff τ α) : Prop := ∀ t t', I t t' → Alike I (x t) (x t')

theorem Par.pure {I : τ → τ → Prop} (a : α) : Par I (pure a : Eff τ α) := fun _ _ h => ⟨rfl, h⟩

theorem Par.lift {I : τ → τ → Prop} (x : M α) : Par I (Eff.lift x : Eff τ α) := by
  intro t t' h
  cases x with
  | ok a => exact ⟨rfl, h⟩
  | error f => exact rfl

theorem Par.bind {I : τ → τ → Prop} {x : Eff τ α} {f : α → Eff τ β} (hx : Par I x) (hf : ∀ a, Par I (f a)) : Par I (x >>= f) := by
  intro t t' h
  have h1 := hx t t' h
  cases e : x t with
  | ret a t1 =>
    cases e' : x t' with
    | ret a' t1' =>
      rw [e, e'] at h1
      obtain ⟨rfl, h1⟩ := h1
      rw [Eff.bind_ret e, Eff.bind_ret e']
      exact hf a t1 t1' h1
    | threw t1' => rw [e, e'] at h1; cases h1
    | fault f' => rw [e, e'] at h1; cases h1
  | threw t1 =>
    cases e' : x t' with
    | ret a' t1' => rw [e, e'] at h1; cases h1
    | threw t1' =>
      rw [e, e'] at h1
      rw [Eff.bind_threw e, Eff.bind_threw e']
      exact h1
    | fault f' => rw [e, e'] at h1; cases h1
  | fault f =>
    cases e' : x t' with
    | ret a' t1' => rw [e, e'] at h1; cases h1
    | threw t1' => rw [e, e'] at h1; cases h1
    | fault f' =>
      rw [e, e'] at h1
      rw [Eff.bind_fault e, Eff.bind_fault e']
      exact h1

theorem par_fill {I : τ → τ → Prop} {src : Eff τ Byte} (hs : Par I src) : ∀ (n i : Nat) (mem : Mem), Par I (fillFrom src n i mem)
  | 0, _, _ => Par.pure _
  | n + 1, i, mem => hs.bind fun _ => (Par.lift _).bind fun _ => par_fill hs n (i + 1) _

theorem par_read {I : τ → τ → Prop} {P : Platform} {e : Endian} {s : Mode} {ts : List Ty} {src : Eff τ Byte} (hs : Par I src) : Par I (Tuple.readFrom P e s ts src) :=
  (Par.lift _).bind fun _ => par_fill hs _ _ _

theorem par_out {I : τ → τ → Prop} {dest : Byte → Eff τ Unit} (hd : ∀ x, Par I (dest x)) : ∀ xs, Par I (outAll dest xs)
  | [] => Par.pure _
  | x :: xs => (hd x).bind fun _ => par_out hd xs

theorem par_index {I : τ → τ → Prop} {P : Platform} {D : Dispatcher σ} {src : Eff τ Byte} (hs : Par I src) : Par I (D.getIndex P src) := by
  refine (par_read hs).bind fun _ => (Par.lift _).bind fun v => ?_
  cases v
  case int z => exact Par.pure _
  all_goals exact Par.lift _

/-- All the functions of the actions are of a kind. -/
def ActsAre (Q : (List Val → Eff σ (Option Val)) → Prop) (D : Dispatcher σ) : Prop :=
  ∀ a ∈ D.acts, match a with
    | .null => True
    | .stored _ _ cb => Q cb.fn
    | .weak _ _ cb => Q cb.fn

theorem par_callback {I : τ → τ → Prop} {L : Lens τ σ} {P : Platform} {V : View} {fn : List Val → Eff σ (Option Val)} (hf : ∀ args, Par I (Eff.zoom L (fn args))) (mem : Mem)
    {k : Option Val → Eff τ β} (hk : ∀ r, Par I (k r)) : Par I (Eff.lift (V.invoke P fn mem) >>= fun x => Eff.zoom L x >>= k) := by
  unfold View.invoke
  cases V.gets P V.indices mem with
  | error f => intro t t' _; exact rfl
  | ok vs => exact (hf vs).bind hk

theorem par_invoke {I : τ → τ → Prop} {L : Lens τ σ} {P : Platform} {D : Dispatcher σ} {src : Eff τ Byte} {dest : Byte → Eff τ Unit} (hs : Par I src) (hd : ∀ x, Par I (dest x))
    (hq : ActsAre (fun fn => ∀ args, Par I (Eff.zoom L (fn args))) D) {a : Action σ} (ha : a ∈ D.acts) : Par I (a.invoke P L src dest) := by
  have h := hq a ha
  cases a with
  | null => exact Par.pure _
  | stored e s cb =>
    refine (par_read hs).bind fun mem => par_callback h mem fun r => ?_
    cases cb.sig.ret <;> cases r
    · exact Par.pure _
    · exact Par.lift _
    · exact Par.lift _
    · exact (Par.lift _).bind fun _ => par_out hd _
  | weak e s cb =>
    refine (par_read hs).bind fun mem => par_callback h mem fun r => ?_
    cases cb.sig.ret <;> cases r
    · exact Par.pure _
    · exact Par.lift _
    · exact Par.lift _
    · exact (Par.lift _).bind fun _ => par_out hd _

/-- Same dispatcher, with the actions of `D`, in worlds which `R` relates. -/
def SameBuf (D : Dispatcher σ) (R : σ → σ → Prop) (st st' : BState σ) : Prop := st.1 = st'.1 ∧ st.1.disp = D ∧ R st.2 st'.2

/-- The same with a pointer to the input buffer. -/
def SamePtr (D : Dispatcher σ) (R : σ → σ → Prop) (st st' : Nat × BState σ) : Prop := st.1 = st'.1 ∧ SameBuf D R st.2 st'.2

section
variable {D : Dispatcher σ} {R : σ → σ → Prop}

theorem par_withPtr {x : Eff (Nat × BState σ) α} (h : Par (SamePtr D R) x) : Par (SameBuf D R) (withPtr x) := by
  intro t t' ht
  have h1 := h (0, t) (0, t') ⟨rfl, ht⟩
  unfold withPtr
  cases e : x (0, t) with
  | ret a u =>
    cases e' : x (0, t') with
    | ret a' u' => rw [e, e'] at h1; exact ⟨h1.1, h1.2.2⟩
    | threw u' => rw [e, e'] at h1; cases h1
    | fault f' => rw [e, e'] at h1; cases h1
  | threw u =>
    cases e' : x (0, t') with
    | ret a' u' => rw [e, e'] at h1; cases h1
    | threw u' => rw [e, e'] at h1; exact h1.2
    | fault f' => rw [e, e'] at h1; cases h1
  | fault f =>
    cases e' : x (0, t') with
    | ret a' u' => rw [e, e'] at h1; cases h1
    | threw u' => rw [e, e'] at h1; cases h1
    | fault f' => rw [e, e'] at h1; exact h1

theorem par_ibufSrc : Par (SamePtr D R) (ibufSrc : Eff (Nat × BState σ) Byte) := by
  rintro ⟨p, b, w⟩ ⟨p', b', w'⟩ ⟨rfl, rfl, hD, hR⟩
  unfold ibufSrc
  simp only
  cases b.ibuf[p]? with
  | none => exact rfl
  | some x => exact ⟨rfl, rfl, rfl, hD, hR⟩

theorem pushOut_disp {b b' : Buf σ} {x : Byte} (h : b.pushOut x = .ok b') : b'.disp = b.disp := by
  unfold Buf.pushOut at h
  split at h
  · split at h <;> · injection h with h; subst h; rfl
  · cases h

theorem par_obufDest (x : Byte) : Par (SamePtr D R) (obufDest x : Eff (Nat × BState σ) Unit) := by
  rintro ⟨p, b, w⟩ ⟨p', b', w'⟩ ⟨rfl, rfl, hD, hR⟩
  unfold obufDest
  simp only
  cases h : b.pushOut x with
  | error f => exact rfl
  | ok b1 => exact ⟨rfl, rfl, rfl, (pushOut_disp h).trans hD, hR⟩

theorem par_zoom {x : Eff σ α} (h : Par R x) : Par (SamePtr D R) (Eff.zoom worldLens x) := by
  rintro ⟨p, b, w⟩ ⟨p', b', w'⟩ ⟨rfl, rfl, hD, hR⟩
  have h1 := h w w' hR
  unfold Eff.zoom
  show Alike _ (match x w with | .ret a w => _ | .threw w => _ | .fault e => _) (match x w' with | .ret a w => _ | .threw w => _ | .fault e => _)
  cases e : x w with
  | ret a u =>
    cases e' : x w' with
    | ret a' u' => rw [e, e'] at h1; exact ⟨h1.1, rfl, rfl, hD, h1.2⟩
    | threw u' => rw [e, e'] at h1; cases h1
    | fault f' => rw [e, e'] at h1; cases h1
  | threw u =>
    cases e' : x w' with
    | ret a' u' => rw [e, e'] at h1; cases h1
    | threw u' => rw [e, e'] at h1; exact ⟨rfl, rfl, hD, h1⟩
    | fault f' => rw [e, e'] at h1; cases h1
  | fault f =>
    cases e' : x w' with
    | ret a' u' => rw [e, e'] at h1; cases h1
    | threw u' => rw [e, e'] at h1; cases h1
    | fault f' => rw [e, e'] at h1; exact h1

theorem par_modify {f : Buf σ → Buf σ} (hf : ∀ b, b.disp = D → (f b).disp = D) : Par (SameBuf D R) (modifyBuf f) := by
  rintro ⟨b, w⟩ ⟨b', w'⟩ ⟨rfl, hD, hR⟩
  exact ⟨rfl, rfl, hf b hD, hR⟩

/-- A block which begins by reading the dispatcher. -/
theorem par_get {f : BState σ → Eff (BState σ) α} (hf : ∀ b w w', f (b, w) = f (b, w')) (hg : ∀ b w, b.disp = D → Par (SameBuf D R) (f (b, w))) :
    Par (SameBuf D R) (Eff.get >>= f) := by
  rintro ⟨b, w⟩ ⟨b', w'⟩ ⟨rfl, hD, hR⟩
  show Alike _ (f (b, w) (b, w)) (f (b, w') (b, w'))
  rw [hf b w' w]
  exact hg b w hD _ _ ⟨rfl, hD, hR⟩

theorem par_at {P : Platform} (hq : ActsAre (Blind R) D) (index : Nat) :
    Par (SamePtr D R) (Eff.lift (D.at index) >>= fun a => a.invoke P worldLens ibufSrc obufDest) := by
  unfold Dispatcher.at
  cases h : D.acts[index]? with
  | none => intro t t' _; exact rfl
  | some a =>
    refine par_invoke (D := D) par_ibufSrc par_obufDest ?_ (List.mem_of_getElem? h)
    intro a ha
    have h1 := hq a ha
    cases a with
    | null => trivial
    | stored e s cb => exact fun args => par_zoom (h1 args)
    | weak e s cb => exact fun args => par_zoom (h1 args)

theorem par_call {P : Platform} (hq : ActsAre (Blind R) D) : Par (SameBuf D R) (Buf.call P : Eff (BState σ) Unit) := by
  unfold Buf.call
  refine Par.bind (par_modify ?_) fun _ => ?_
  · intro b h; exact h
  · refine par_get (fun b w w' => rfl) fun b w hb => ?_
    subst hb
    refine Par.bind (par_withPtr ((par_index par_ibufSrc).bind fun index => par_at hq index)) fun _ => par_modify ?_
    intro b' h; exact h

theorem pushIn_disp {b b' : Buf σ} {x : Byte} (h : b.pushIn x = .ok b') : b'.disp = b.disp := by
  unfold Buf.pushIn at h
  split at h
  · injection h with h; subst h; rfl
  · cases h

theorem par_put {P : Platform} (hq : ActsAre (Blind R) D) (x : Byte) : Par (SameBuf D R) (Buf.put P x : Eff (BState σ) Status) := by
  unfold Buf.put Buf.putWith
  refine par_get (fun b w w' => rfl) fun b w hb => ?_
  simp only
  cases h : b.pushIn x with
  | error f => intro t t' _; exact rfl
  | ok b1 =>
    have h1 := (pushIn_disp h).trans hb
    rw [Eff.lift_ok, pure_bind]
    refine Par.bind (par_modify ?_) fun _ => ?_
    · intro b' _; exact h1
    · split
      · exact Par.pure _
      · split
        · exact (par_call hq).bind fun _ => Par.pure _
        · refine Par.bind (par_withPtr (par_index par_ibufSrc)) fun index => ?_
          split
          · refine (Par.lift _).bind fun a => (Par.lift _).bind fun n => Par.bind (par_modify ?_) fun _ => ?_
            · intro b' h; exact h
            · split
              · exact (par_call hq).bind fun _ => Par.pure _
              · exact Par.pure _
          · refine Par.bind (par_modify ?_) fun _ => Par.pure _
            intro b' h; exact h

theorem popOut_disp {b b' : Buf σ} {x : Byte} (h : b.popOut = .ok (x, b')) : b'.disp = b.disp := by
  unfold Buf.popOut at h
  split at h
  · injection h with h; injection h with _ h; subst h; rfl
  · cases h

theorem par_get' : Par (SameBuf D R) (Buf.get : Eff (BState σ) Byte) := by
  rintro ⟨b, w⟩ ⟨b', w'⟩ ⟨rfl, hD, hR⟩
  unfold Buf.get
  simp only
  split
  · cases h : b.popOut with
    | error f => exact rfl
    | ok p => exact ⟨rfl, rfl, (popOut_disp h).trans hD, hR⟩
  · exact ⟨rfl, rfl, hD, hR⟩

theorem par_io {P : Platform} (hq : ActsAre (Blind R) D) : ∀ op : Io, Par (SameBuf D R) (op.run P : Eff (BState σ) Obs)
  | .put x => (par_put hq x).bind fun _ => Par.pure _
  | .get => par_get'.bind fun _ => Par.pure _
  | .isLoaded => by
    rintro ⟨b, w⟩ ⟨b', w'⟩ ⟨rfl, hD, hR⟩
    exact ⟨rfl, rfl, hD, hR⟩

end

/-- From the same dispatcher and related worlds, the same dispatcher and related worlds, and the functions of the dispatcher stay of the same kind. -/
def SameKind (Q : (List Val → Eff σ (Option Val)) → Prop) (R : σ → σ → Prop) (st st' : BState σ) : Prop := st.1 = st'.1 ∧ ActsAre Q st.1.disp ∧ R st.2 st'.2

theorem alike_mono {I J : τ → τ → Prop} (h : ∀ t t', I t t' → J t t') : ∀ {r r' : Res τ α}, Alike I r r' → Alike J r r'
  | .ret _ _, .ret _ _, h' => ⟨h'.1, h _ _ h'.2⟩
  | .threw _, .threw _, h' => h _ _ h'
  | .fault _, .fault _, h' => h'
  | .ret _ _, .threw _, h' => h'.elim
  | .ret _ _, .fault _, h' => h'.elim
  | .threw _, .ret _ _, h' => h'.elim
  | .threw _, .fault _, h' => h'.elim
  | .fault _, .ret _ _, h' => h'.elim
  | .fault _, .threw _, h' => h'.elim

theorem ActsAre.mono {Q Q' : (List Val → Eff σ (Option Val)) → Prop} (h : ∀ fn, Q fn → Q' fn) {D : Dispatcher σ} (hq : ActsAre Q D) : ActsAre Q' D := by
  intro a ha
  have h1 := hq a ha
  cases a with
  | null => trivial
  | stored e s cb => exact h _ h1
  | weak e s cb => exact h _ h1

/-- The functions which the dispatcher number `n` may serve. -/
def MayServe (defs : Nat → List Val → Eff σ (Option Val)) (serves : Nat → Nat → Prop) (n : Nat) (fn : List Val → Eff σ (Option Val)) : Prop := ∃ name, serves n name ∧ fn = defs name

theorem par_own {P : Platform} {defs : Nat → List Val → Eff σ (Option Val)} {serves : Nat → Nat → Prop} {n : Nat} {R : σ → σ → Prop}
    (hb : ∀ name, serves n name → Blind R (defs name)) {op : OwnOp} (ho : op.Serves serves n) : Par (SameKind (MayServe defs serves n) R) (op.run P defs) := by
  rintro ⟨b, w⟩ ⟨b', w'⟩ ⟨rfl, hq, hR⟩
  cases op with
  | io op =>
    have h : ActsAre (Blind R) b.disp := hq.mono fun fn ⟨name, h1, h2⟩ => h2 ▸ hb name h1
    refine alike_mono ?_ (par_io (P := P) h op (b, w) (b, w') ⟨rfl, rfl, hR⟩)
    rintro t t' ⟨h1, h2, h3⟩
    exact ⟨h1, by rw [h2]; exact hq, h3⟩
  | replace index sig name =>
    refine ⟨rfl, rfl, ?_, hR⟩
    intro a ha
    rcases List.mem_or_eq_of_mem_set ha with h | rfl
    · exact hq a h
    · cases h : b.disp.features <;> exact ⟨name, ho, rfl⟩

/-- An operation of another dispatcher does not change what a dispatcher sees. -/
theorem own_keeps {P : Platform} {defs : Nat → List Val → Eff σ (Option Val)} {serves : Nat → Nat → Prop} {n : Nat} {R : σ → σ → Prop} (hr : ∀ w, R w w)
    (ht : ∀ {w w' w''}, R w w' → R w' w'' → R w w'') (hk : ∀ name, serves n name → Keeps R (defs name)) {op : OwnOp} (ho : op.Serves serves n) {b : Buf σ}
    (hq : ActsAre (MayServe defs serves n) b.disp) (w : σ) :
    match op.run P defs (b, w) with
    | .ret _ st => R w st.2
    | .threw st => R w st.2
    | .fault _ => True := by
  have h := par_own (P := P) (defs := defs) (serves := serves) (n := n) (R := fun u u' => u = u' ∧ R w u) ?_ ho (b, w) (b, w) ⟨rfl, hq, rfl, hr w⟩
  · cases e : op.run P defs (b, w) with
    | ret o st => rw [e] at h; exact h.2.2.2.2
    | threw st => rw [e] at h; exact h.2.2.2
    | fault f => trivial
  · rintro name hs args u u' ⟨rfl, h1⟩
    have h2 := hk name hs args u
    cases e : defs name args u with
    | ret o u' => rw [e] at h2; exact ⟨rfl, rfl, ht h1 h2⟩
    | threw u' => rw [e] at h2; exact ⟨rfl, ht h1 h2⟩
    | fault f => exact rfl

theorem runCaught_snoc {ι : Type} {step : ι → Eff τ Obs} {op : ι} : ∀ {ops : List ι} {os : List (Option Obs)} {t t1 : τ}, runCaught step ops t = .ret os t1 →
    runCaught step (ops ++ [op]) t = match step op t1 with
      | .ret o t2 => .ret (os ++ [some o]) t2
      | .threw t2 => .ret (os ++ [none]) t2
      | .fault f => .fault f
  | [], os, t, t1, h => by
    injection h with h1 h2
    subst h1 h2
    show (match step op t with | .ret o st' => _ | .threw st' => _ | .fault f => _) = _
    cases step op t <;> rfl
  | q :: ops, os, t, t1, h => by
    have h : (match step q t with
      | .ret o st' => (runCaught step ops >>= fun os => pure (some o :: os)) st'
      | .threw st' => (runCaught step ops >>= fun os => pure (none :: os)) st'
      | .fault f => .fault f) = .ret os t1 := h
    show (match step q t with
      | .ret o st' => (runCaught step (ops ++ [op]) >>= fun os => pure (some o :: os)) st'
      | .threw st' => (runCaught step (ops ++ [op]) >>= fun os => pure (none :: os)) st'
      | .fault f => .fault f) = _
    cases e : step q t with
    | fault f => rw [e] at h; cases h
    | ret o t2 =>
      rw [e] at h
      obtain ⟨os', t3, h1, h2⟩ := Eff.bind_eq_ret h
      injection h2 with h2 h3
      subst h2 h3
      have h4 := runCaught_snoc (op := op) h1
      simp only
      cases e' : step op t3 <;> rw [e'] at h4
      · rw [Eff.bind_ret h4]; rfl
      · rw [Eff.bind_ret h4]; rfl
      · rw [Eff.bind_fault h4]
    | threw t2 =>
      rw [e] at h
      obtain ⟨os', t3, h1, h2⟩ := Eff.bind_eq_ret h
      injection h2 with h2 h3
      subst h2 h3
      have h4 := runCaught_snoc (op := op) h1
      simp only
      cases e' : step op t3 <;> rw [e'] at h4
      · rw [Eff.bind_ret h4]; rfl
      · rw [Eff.bind_ret h4]; rfl
      · rw [Eff.bind_fault h4]

theorem copyActions_eq : ∀ {as bs : List (Action σ)}, copyActions as = .ok bs → bs = as
  | [], bs, h => by injection h with h; exact h.symm
  | a :: as, bs, h => by
    unfold copyActions at h
    cases a with
    | null => cases h
    | stored e s cb => cases h
    | weak e s cb =>
      cases h1 : copyActions as with
      | error f => rw [h1] at h; cases h
      | ok cs =>
        rw [h1] at h
        injection h with h
        subst h
        rw [copyActions_eq h1]

theorem copy_eq {b b' : Buf σ} (h : b.copy = .ok b') : b' = b := by
  unfold Buf.copy Dispatcher.copy at h
  cases hf : b.disp.features with
  | any => simp only [hf] at h; cases h
  | weakReference =>
    simp only [hf] at h
    cases h1 : copyActions b.disp.acts with
    | error f => rw [h1] at h; cases h
    | ok as =>
      rw [h1] at h
      injection h with h
      subst h
      cases b with
      | mk D _ _ _ _ _ _ _ _ _ =>
        cases D with
        | mk e s i z f acts =>
          simp only at h1 hf
          rw [copyActions_eq h1, hf]

/-- What links the states of the dispatchers of a program which began in the world `w0` to those of the same dispatchers, alone. -/
structure Apart (P : Platform) (defs : Nat → List Val → Eff σ (Option Val)) (sizeMax : Nat) (serves : Nat → Nat → Prop) (sees : Nat → σ → σ → Prop) (w0 : σ) (ls : List Life)
    (bufs : List (Buf σ)) (w : σ) : Prop where
  len : ls.length = bufs.length
  each : ∀ (n : Nat) (l : Life), ls[n]? = some l → ∃ b w1, bufs[n]? = some b ∧ l.alone P defs sizeMax w0 = .ret (l.items.map (·.2)) (b, w1) ∧ sees n w w1 ∧
    ActsAre (MayServe defs serves n) b.disp ∧ ∀ m, ls.length ≤ m → sees m w0 w1
  fut : ∀ m, ls.length ≤ m → sees m w0 w

section
variable {P : Platform} {defs : Nat → List Val → Eff σ (Option Val)} {sizeMax : Nat} {serves : Nat → Nat → Prop} {sees : Nat → σ → σ → Prop} {w0 : σ}

theorem fresh_acts {K : Keyring} {f : Features} {shared : Bool} {n : Nat} (h : ∀ d ∈ K.decls, serves n d.name) :
    ActsAre (MayServe defs serves n) (fresh P K f defs sizeMax shared).disp := by
  have h1 : (fresh P K f defs sizeMax shared).disp = Dispatcher.make K f defs := by cases shared <;> rfl
  rw [h1]
  intro a ha
  obtain ⟨d, hd, rfl⟩ := List.mem_map.1 ha
  cases f <;> exact ⟨d.name, h d hd, rfl⟩

theorem apart_on (hs : Separate defs serves sees) {ls : List Life} {bufs : List (Buf σ)} {w : σ} (ha : Apart P defs sizeMax serves sees w0 ls bufs w) {n : Nat} {op : OwnOp}
    (ho : op.Serves serves n) {b : Buf σ} (hb : bufs[n]? = some b) {o : Option Obs} {st : BState σ}
    (h : (∃ a, op.run P defs (b, w) = .ret a st ∧ o = some a) ∨ op.run P defs (b, w) = .threw st ∧ o = none) :
    Apart P defs sizeMax serves sees w0 (addLife ls (.on n op, o)) (bufs.set n st.1) st.2 := by
  obtain ⟨hn, hb'⟩ := List.getElem?_eq_some_iff.1 hb
  have hl : n < ls.length := by rw [ha.len]; exact hn
  obtain ⟨b2, w1, h1, h2, h3, h4, h5⟩ := ha.each n ls[n] (List.getElem?_eq_getElem hl)
  rw [hb] at h1
  injection h1 with h1
  subst h1
  have hp := par_own (P := P) (fun name => hs.own (n := n) (name := name)) ho (b, w) (b, w1) ⟨rfl, h4, h3⟩
  have hk : ∀ m u, m ≠ n → match op.run P defs (b, u) with
      | .ret _ st => sees m u st.2
      | .threw st => sees m u st.2
      | .fault _ => True := fun m u hm => own_keeps (hs.refl m) hs.trans (fun name => hs.others hm) ho h4 u
  -- alone
  have hal : ∃ w2, (⟨ls[n].K, ls[n].f, ls[n].shared, ls[n].items ++ [(op, o)]⟩ : Life).alone P defs sizeMax w0 = .ret ((ls[n].items ++ [(op, o)]).map (·.2)) (st.1, w2) ∧
      sees n st.2 w2 ∧ ActsAre (MayServe defs serves n) st.1.disp ∧ (∀ m, m ≠ n → sees m w1 w2) ∧ ∀ m, m ≠ n → sees m w st.2 := by
    unfold Life.alone at h2 ⊢
    simp only [List.map_append, List.map_cons, List.map_nil]
    rw [runCaught_snoc h2]
    rcases h with ⟨a, h, rfl⟩ | ⟨h, rfl⟩
    · rw [h] at hp
      cases e : op.run P defs (b, w1) with
      | ret a' st' =>
        rw [e] at hp
        obtain ⟨rfl, h6, h7, h8⟩ := hp
        refine ⟨st'.2, ?_, h8, h7, fun m hm => ?_, fun m hm => ?_⟩
        · rw [h6]
        · have := hk m w1 hm; rw [e] at this; exact this
        · have := hk m w hm; rw [h] at this; exact this
      | threw st' => rw [e] at hp; cases hp
      | fault f => rw [e] at hp; cases hp
    · rw [h] at hp
      cases e : op.run P defs (b, w1) with
      | threw st' =>
        rw [e] at hp
        obtain ⟨h6, h7, h8⟩ := hp
        refine ⟨st'.2, ?_, h8, h7, fun m hm => ?_, fun m hm => ?_⟩
        · rw [h6]
        · have := hk m w1 hm; rw [e] at this; exact this
        · have := hk m w hm; rw [h] at this; exact this
      | ret a' st' => rw [e] at hp; cases hp
      | fault f => rw [e] at hp; cases hp
  obtain ⟨w2, k1, k2, k3, k4, k5⟩ := hal
  refine ⟨by simp [addLife, ha.len], fun m l hm => ?_, fun m hm => ?_⟩
  · simp only [addLife, List.getElem?_modify] at hm
    simp only [addLife, List.length_modify, List.getElem?_set]
    by_cases e : n = m
    · subst e
      rw [List.getElem?_eq_getElem hl] at hm
      simp at hm
      subst hm
      exact ⟨st.1, w2, by simp [hn], k1, k2, k3, fun m hm => hs.trans (h5 m hm) (k4 m (by omega))⟩
    · rw [if_neg e]
      simp only [if_neg e] at hm
      obtain ⟨b3, w3, q1, q2, q3, q4, q5⟩ := ha.each m l (by simpa using hm)
      exact ⟨b3, w3, q1, q2, hs.trans (hs.symm (k5 m (Ne.symm e))) q3, q4, q5⟩
  · simp only [addLife, List.length_modify] at hm
    exact hs.trans (ha.fut m hm) (k5 m (by omega))

/-- A new dispatcher. -/
theorem apart_add (hs : Separate defs serves sees) {ls : List Life} {bufs : List (Buf σ)} {w : σ} (ha : Apart P defs sizeMax serves sees w0 ls bufs w) {l : Life} {b : Buf σ} {w1 : σ}
    (h1 : l.alone P defs sizeMax w0 = .ret (l.items.map (·.2)) (b, w1)) (h2 : ActsAre (MayServe defs serves ls.length) b.disp) (h3 : ∀ m, ls.length ≤ m → sees m w0 w1) :
    Apart P defs sizeMax serves sees w0 (ls ++ [l]) (bufs ++ [b]) w := by
  refine ⟨by simp [ha.len], fun m l' hm => ?_, fun m hm => ha.fut m (by simp at hm; omega)⟩
  rcases Nat.lt_trichotomy m ls.length with h | h | h
  · rw [List.getElem?_append_left h] at hm
    rw [List.getElem?_append_left (by rw [← ha.len]; exact h)]
    obtain ⟨b3, w3, q1, q2, q3, q4, q5⟩ := ha.each m l' hm
    exact ⟨b3, w3, q1, q2, q3, q4, fun m hm => q5 m (by simp at hm; omega)⟩
  · subst h
    simp at hm
    subst hm
    exact ⟨b, w1, by simp [ha.len], h1, hs.trans (hs.symm (ha.fut _ (Nat.le_refl _))) (h3 _ (Nat.le_refl _)), h2, fun m hm => h3 m (by simp at hm; omega)⟩
  · rw [List.getElem?_append_right (by omega)] at hm
    rw [show m - ls.length = (m - ls.length - 1) + 1 by omega] at hm
    simp at hm

theorem apart_run (hs : Separate defs serves sees) : ∀ {prog : List SevOp} {ls : List Life} {bufs bufs' : List (Buf σ)} {w w' : σ} {os : List (Option Obs)},
    Apart P defs sizeMax serves sees w0 ls bufs w → Respects serves ls.length prog → runCaught (SevOp.run P defs sizeMax) prog (bufs, w) = .ret os (bufs', w') →
    Apart P defs sizeMax serves sees w0 ((prog.zip os).foldl addLife ls) bufs' w'
  | [], ls, bufs, bufs', w, w', os, ha, _, h => by
    injection h with h1 h2
    injection h2 with h2 h3
    subst h1 h2 h3
    exact ha
  | op :: prog, ls, bufs, bufs', w, w', os, ha, hr, h => by
    unfold runCaught at h
    have key : ∃ (o : Option Obs) (st : List (Buf σ) × σ) (os' : List (Option Obs)), runCaught (SevOp.run P defs sizeMax) prog st = .ret os' (bufs', w') ∧ os = o :: os' ∧
        ((∃ a, SevOp.run P defs sizeMax op (bufs, w) = .ret a st ∧ o = some a) ∨ SevOp.run P defs sizeMax op (bufs, w) = .threw st ∧ o = none) := by
      cases e : SevOp.run P defs sizeMax op (bufs, w) with
      | fault f => rw [e] at h; cases h
      | ret a st =>
        rw [e] at h
        obtain ⟨os', t, h1, h2⟩ := Eff.bind_eq_ret h
        injection h2 with h2 h3
        subst h2 h3
        exact ⟨some a, st, os', h1, rfl, .inl ⟨a, rfl, rfl⟩⟩
      | threw st =>
        rw [e] at h
        obtain ⟨os', t, h1, h2⟩ := Eff.bind_eq_ret h
        injection h2 with h2 h3
        subst h2 h3
        exact ⟨none, st, os', h1, rfl, .inr ⟨rfl, rfl⟩⟩
    obtain ⟨o, st, os', h1, rfl, h2⟩ := key
    obtain ⟨bs, u⟩ := st
    rw [List.zip_cons_cons, List.foldl_cons]
    cases op with
    | new K f shared =>
      obtain ⟨hr1, hr2⟩ := hr
      rcases h2 with ⟨a, h2, rfl⟩ | ⟨h2, _⟩
      · injection h2 with h2 h3
        injection h3 with h3 h4
        subst h3 h4
        refine apart_run hs (apart_add hs ha (w1 := w0) ?_ (fresh_acts hr1) (fun m _ => hs.refl m w0)) (by show Respects serves (ls ++ [_]).length prog; rw [List.length_append]; exact hr2) h1
        rfl
      · cases h2
    | copy n =>
      obtain ⟨hr1, hr2⟩ := hr
      have hc : ∃ b, bufs[n]? = some b ∧ bs = bufs ++ [b] ∧ u = w := by
        cases hb : bufs[n]? with
        | none =>
          rcases h2 with ⟨a, h2, _⟩ | ⟨h2, _⟩ <;> · simp only [SevOp.run, hb] at h2; cases h2
        | some b =>
          cases hc : b.copy with
          | error f => rcases h2 with ⟨a, h2, _⟩ | ⟨h2, _⟩ <;> · simp only [SevOp.run, hb, hc] at h2; cases h2
          | ok b' =>
            rcases h2 with ⟨a, h2, _⟩ | ⟨h2, _⟩
            · simp only [SevOp.run, hb, hc] at h2
              injection h2 with _ h3
              injection h3 with h3 h4
              refine ⟨b, rfl, ?_, h4.symm⟩
              rw [← h3, copy_eq hc]
            · simp only [SevOp.run, hb, hc] at h2; cases h2
      obtain ⟨b, hb, rfl, rfl⟩ := hc
      obtain ⟨hn, _⟩ := List.getElem?_eq_some_iff.1 hb
      have hl : n < ls.length := by rw [ha.len]; exact hn
      obtain ⟨b2, w1, q1, q2, q3, q4, q5⟩ := ha.each n ls[n] (List.getElem?_eq_getElem hl)
      rw [hb] at q1
      injection q1 with q1
      subst q1
      have e : addLife ls (.copy n, o) = ls ++ [ls[n]] := by simp only [addLife, List.getElem?_eq_getElem hl]
      rw [e]
      refine apart_run hs (apart_add hs ha q2 (q4.mono ?_) q5) (by rw [List.length_append]; exact hr2) h1
      rintro fn ⟨name, h3, h4⟩
      exact ⟨name, hr1 name h3, h4⟩
    | on n op =>
      obtain ⟨hr1, hr2⟩ := hr
      have hl : (addLife ls (.on n op, o)).length = ls.length := by simp [addLife]
      cases hb : bufs[n]? with
      | none => rcases h2 with ⟨a, h2, _⟩ | ⟨h2, _⟩ <;> · simp only [SevOp.run, hb] at h2; cases h2
      | some b =>
        cases e : op.run P defs (b, w) with
        | fault f => rcases h2 with ⟨a, h2, _⟩ | ⟨h2, _⟩ <;> · simp only [SevOp.run, hb, e] at h2; cases h2
        | ret a st =>
          rcases h2 with ⟨a', h2, rfl⟩ | ⟨h2, _⟩
          · simp only [SevOp.run, hb, e] at h2
            injection h2 with h2 h3
            injection h3 with h3 h4
            subst h2 h3 h4
            exact apart_run hs (apart_on hs ha hr1 hb (.inl ⟨a, e, rfl⟩)) (by rw [hl]; exact hr2) h1
          · simp only [SevOp.run, hb, e] at h2; cases h2
        | threw st =>
          rcases h2 with ⟨a', h2, rfl⟩ | ⟨h2, rfl⟩
          · simp only [SevOp.run, hb, e] at h2; cases h2
          · simp only [SevOp.run, hb, e] at h2
            injection h2 with h3
            injection h3 with h3 h4
            subst h3 h4
            exact apart_run hs (apart_on hs ha hr1 hb (.inr ⟨e, rfl⟩)) (by rw [hl]; exact hr2) h1

end

theorem alike_refl {I : τ → τ → Prop} (h : ∀ t, I t t) : ∀ r : Res τ α, Alike I r r
  | .ret _ t => ⟨rfl, h t⟩
  | .threw t => h t
  | .fault _ => rfl

/-- Elementary calls leave the actions as they are. -/
theorem io_disp {P : Platform} (op : Io) (b : Buf σ) (w : σ) :
    match op.run P (b, w) with
    | .ret _ st => st.1.disp = b.disp
    | .threw st => st.1.disp = b.disp
    | .fault _ => True := by
  have hq : ActsAre (Blind Eq) b.disp := by
    intro a _
    cases a with
    | null => trivial
    | stored e s cb => rintro args u u' rfl; exact alike_refl (fun _ => rfl) _
    | weak e s cb => rintro args u u' rfl; exact alike_refl (fun _ => rfl) _
  have h := par_io (P := P) hq op (b, w) (b, w) ⟨rfl, rfl, rfl⟩
  cases e : op.run P (b, w) with
  | ret a st => rw [e] at h; exact h.2.2.1
  | threw st => rw [e] at h; exact h.2.1
  | fault f => trivial

/-- The actions which a policy allows. -/
def OfPolicy (f : Features) (D : Dispatcher σ) : Prop := D.features = f ∧ (f = .weakReference → ∀ a ∈ D.acts, ∃ e s cb, a = .weak e s cb)

theorem own_policy {P : Platform} {defs : Nat → List Val → Eff σ (Option Val)} {f : Features} (op : OwnOp) {b : Buf σ} (h : OfPolicy f b.disp) (w : σ) :
    match op.run P defs (b, w) with
    | .ret _ st => OfPolicy f st.1.disp
    | .threw st => OfPolicy f st.1.disp
    | .fault _ => True := by
  cases op with
  | io op =>
    have h1 := io_disp (P := P) op b w
    show match op.run P (b, w) with | .ret _ st => _ | .threw st => _ | .fault _ => True
    cases e : op.run P (b, w) with
    | ret a st => rw [e] at h1; simp only at h1 ⊢; rw [h1]; exact h
    | threw st => rw [e] at h1; simp only at h1 ⊢; rw [h1]; exact h
    | fault f => trivial
  | replace index sig name =>
    refine ⟨h.1, fun hf a ha => ?_⟩
    rcases List.mem_or_eq_of_mem_set ha with h' | rfl
    · exact h.2 hf a h'
    · have h1 : b.disp.features = .weakReference := h.1.trans hf
      exact ⟨_, _, _, by show makeAction b.disp.features _ _ _ = _; rw [h1]; rfl⟩

theorem caught_policy {P : Platform} {defs : Nat → List Val → Eff σ (Option Val)} {f : Features} : ∀ {items : List OwnOp} {b b' : Buf σ} {w w' : σ} {os : List (Option Obs)},
    OfPolicy f b.disp → runCaught (OwnOp.run P defs) items (b, w) = .ret os (b', w') → OfPolicy f b'.disp
  | [], b, b', w, w', os, h, hr => by
    injection hr with _ h2
    injection h2 with h2 h3
    subst h2
    exact h
  | op :: ops, b, b', w, w', os, h, hr => by
    unfold runCaught at hr
    have h1 := own_policy (P := P) (defs := defs) op h w
    cases e : op.run P defs (b, w) with
    | fault f => rw [e] at hr; cases hr
    | ret a st =>
      rw [e] at hr h1
      obtain ⟨os', t, h2, h3⟩ := Eff.bind_eq_ret hr
      injection h3 with _ h3
      subst h3
      exact caught_policy h1 h2
    | threw st =>
      rw [e] at hr h1
      obtain ⟨os', t, h2, h3⟩ := Eff.bind_eq_ret hr
      injection h3 with _ h3
      subst h3
      exact caught_policy h1 h2

theorem copyActions_weak : ∀ {as : List (Action σ)}, (∀ a ∈ as, ∃ e s cb, a = .weak e s cb) → copyActions as = .ok as
  | [], _ => rfl
  | a :: as, h => by
    obtain ⟨e, s, cb, rfl⟩ := h a (List.mem_cons_self ..)
    unfold copyActions
    rw [copyActions_weak fun a ha => h a (List.mem_cons_of_mem _ ha)]
    rfl

theorem copy_policy {f : Features} {b : Buf σ} (h : OfPolicy f b.disp) : b.copy = (if f = .weakReference then .ok b else .error .illTyped) := by
  unfold Buf.copy Dispatcher.copy
  cases f with
  | any => simp only [h.1]; rfl
  | weakReference =>
    rw [h.1, copyActions_weak (h.2 rfl), if_pos rfl]
    have h1 := h.1
    cases b with
    | mk D _ _ _ _ _ _ _ _ _ =>
      cases D with
      | mk e s i z f acts =>
        simp only at h1
        subst h1
        rfl

end Upd
