import Verif.Spec.Observe
import Verif.Lemmas.Cases
import Verif.Lemmas.Dispatcher

/-! Helper lemmas: related runs. -/

namespace Upd
open Spec

variable {σ σ' τ τ' α β γ δ : Type}

/-- From related states, outcomes related as well as the values. -/
def SimV (R : τ → τ' → Prop) (V : α → β → Prop) (x : Eff τ α) (y : Eff τ' β) : Prop := ∀ t t', R t t' → Related R V (x t) (y t')

theorem Related.mono {R : τ → τ' → Prop} {V W : α → β → Prop} (h : ∀ a b, V a b → W a b) {x : Res τ α} {y : Res τ' β} (hx : Related R V x y) : Related R W x y := by
  cases x <;> cases y <;> first | exact ⟨h _ _ hx.1, hx.2⟩ | exact hx

theorem SimV.pure {R : τ → τ' → Prop} {V : α → β → Prop} {a : α} {b : β} (h : V a b) : SimV R V (Pure.pure a : Eff τ α) (Pure.pure b : Eff τ' β) :=
  fun _ _ hr => ⟨h, hr⟩

theorem SimV.bind {R : τ → τ' → Prop} {V : α → β → Prop} {W : γ → δ → Prop} {x : Eff τ α} {y : Eff τ' β} {f : α → Eff τ γ} {g : β → Eff τ' δ} (h : SimV R V x y)
    (h' : ∀ a b, V a b → SimV R W (f a) (g b)) : SimV R W (x >>= f) (y >>= g) := by
  intro t t' ht
  have h := h t t' ht
  cases hx : x t with
  | ret a w =>
    cases hy : y t' with
    | ret a' w' =>
      rw [hx, hy] at h
      rw [Eff.bind_ret hx, Eff.bind_ret hy]
      exact h' a a' h.1 w w' h.2
    | threw w' => rw [hx, hy] at h; exact h.elim
    | fault f => rw [hx, hy] at h; exact h.elim
  | threw w =>
    cases hy : y t' with
    | ret a' w' => rw [hx, hy] at h; exact h.elim
    | threw w' => rw [hx, hy] at h; rw [Eff.bind_threw hx, Eff.bind_threw hy]; exact h
    | fault f => rw [hx, hy] at h; exact h.elim
  | fault f =>
    cases hy : y t' with
    | ret a' w' => rw [hx, hy] at h; exact h.elim
    | threw w' => rw [hx, hy] at h; exact h.elim
    | fault f => rw [hx, hy] at h; rw [Eff.bind_fault hx, Eff.bind_fault hy]; exact h

/-- Binding results which are equal. -/
theorem SimV.seq {R : τ → τ' → Prop} {W : γ → δ → Prop} {x : Eff τ α} {y : Eff τ' α} {f : α → Eff τ γ} {g : α → Eff τ' δ} (h : SimV R (· = ·) x y)
    (h' : ∀ a, SimV R W (f a) (g a)) : SimV R W (x >>= f) (y >>= g) :=
  SimV.bind h fun a b hab => by
    cases hab
    exact h' a

theorem SimV.liftEq {R : τ → τ' → Prop} (x : M α) : SimV R (· = ·) (Eff.lift x) (Eff.lift x) := by
  intro t t' h
  cases x with
  | ok a => exact ⟨rfl, h⟩
  | error f => rfl

/-- Outcomes of computations without state. -/
def MRel (V : α → β → Prop) : M α → M β → Prop
  | .ok a, .ok b => V a b
  | .error f, .error f' => f = f'
  | _, _ => False

theorem SimV.lift {R : τ → τ' → Prop} {V : α → β → Prop} {x : M α} {y : M β} (hx : MRel V x y) : SimV R V (Eff.lift x) (Eff.lift y) := by
  intro t t' h
  cases x <;> cases y
  · exact hx
  · exact hx.elim
  · exact hx.elim
  · exact ⟨hx, h⟩

theorem SimV.get {R : τ → τ' → Prop} : SimV R R Eff.get Eff.get := fun _ _ h => ⟨h, h⟩

theorem SimV.getN {R : τ → τ' → Prop} {src : Eff τ Byte} {src' : Eff τ' Byte} (h : SimV R (· = ·) src src') : ∀ n, SimV R (· = ·) (getN src n) (getN src' n)
  | 0 => SimV.pure rfl
  | n + 1 => SimV.seq h fun _ => SimV.seq (SimV.getN h n) fun _ => SimV.pure rfl

theorem getN_len {src : Eff τ Byte} : ∀ {n : Nat} {w w' : τ} {bs : List Byte}, getN src n w = .ret bs w' → bs.length = n
  | 0, w, w', bs, h => by cases h; rfl
  | n + 1, w, w', bs, h => by
    have h' : (src >>= fun b => getN src n >>= fun bs => pure (b :: bs)) w = .ret bs w' := h
    cases hs : src w with
    | threw t => rw [Eff.bind_threw hs] at h'; cases h'
    | fault t => rw [Eff.bind_fault hs] at h'; cases h'
    | ret b t =>
      rw [Eff.bind_ret hs] at h'
      cases hg : getN src n t with
      | threw t => rw [Eff.bind_threw hg] at h'; cases h'
      | fault t => rw [Eff.bind_fault hg] at h'; cases h'
      | ret cs t' =>
        rw [Eff.bind_ret hg] at h'
        cases h'
        simp [getN_len hg]

/-- Sources which give the same bytes: `n` of them. -/
theorem SimV.getLen {R : τ → τ' → Prop} {src : Eff τ Byte} {src' : Eff τ' Byte} (h : SimV R (· = ·) src src') (n : Nat) :
    SimV R (fun a b => a = b ∧ a.length = n) (Upd.Spec.getN src n) (Upd.Spec.getN src' n) := by
  intro t t' ht
  have h1 := SimV.getN h n t t' ht
  cases hx : Upd.Spec.getN src n t with
  | ret a w =>
    cases hy : Upd.Spec.getN src' n t' with
    | ret a' w' =>
      rw [hx, hy] at h1
      exact ⟨⟨h1.1, getN_len hx⟩, h1.2⟩
    | threw w' => rw [hx, hy] at h1; exact h1.elim
    | fault f => rw [hx, hy] at h1; exact h1.elim
  | threw w =>
    cases hy : Upd.Spec.getN src' n t' with
    | ret a' w' => rw [hx, hy] at h1; exact h1.elim
    | threw w' => rw [hx, hy] at h1; exact h1
    | fault f => rw [hx, hy] at h1; exact h1.elim
  | fault f =>
    cases hy : Upd.Spec.getN src' n t' with
    | ret a' w' => rw [hx, hy] at h1; exact h1.elim
    | threw w' => rw [hx, hy] at h1; exact h1.elim
    | fault f => rw [hx, hy] at h1; exact h1

theorem SimV.putAll {R : τ → τ' → Prop} {dest : Byte → Eff τ Unit} {dest' : Byte → Eff τ' Unit} (h : ∀ b, SimV R (· = ·) (dest b) (dest' b)) :
    ∀ bs, SimV R (· = ·) (outAll dest bs) (outAll dest' bs)
  | [] => SimV.pure rfl
  | b :: bs => SimV.seq (h b) fun _ => SimV.putAll h bs

theorem SimV.zoom {R : σ → σ' → Prop} {T : τ → τ' → Prop} {L : Lens τ σ} {L' : Lens τ' σ'} (hg : ∀ t t', T t t' → R (L.get t) (L'.get t'))
    (hp : ∀ t t' w w', T t t' → R w w' → T (L.put w t) (L'.put w' t')) {x : Eff σ α} {y : Eff σ' α} (h : SimV R (· = ·) x y) :
    SimV T (· = ·) (Eff.zoom L x) (Eff.zoom L' y) := by
  intro t t' ht
  have h1 := h _ _ (hg t t' ht)
  unfold Eff.zoom
  revert h1
  cases x (L.get t) <;> cases y (L'.get t') <;> intro h1
  · exact ⟨h1.1, hp _ _ _ _ ht h1.2⟩
  · exact h1.elim
  · exact h1.elim
  · exact h1.elim
  · exact hp _ _ _ _ ht h1
  · exact h1.elim
  · exact h1.elim
  · exact h1.elim
  · exact h1

theorem SimV.fill {R : τ → τ' → Prop} {src : Eff τ Byte} {src' : Eff τ' Byte} (h : SimV R (· = ·) src src') : ∀ (n i : Nat) (mem : Mem),
    SimV R (· = ·) (fillFrom src n i mem) (fillFrom src' n i mem)
  | 0, _, _ => SimV.pure rfl
  | n + 1, i, _ => SimV.seq h fun _ => SimV.seq (SimV.liftEq _) fun mem => SimV.fill h n (i + 1) mem

theorem SimV.readFrom {R : τ → τ' → Prop} {P : Platform} {src : Eff τ Byte} {src' : Eff τ' Byte} (h : SimV R (· = ·) src src') (e : Endian) (s : Mode) (ts : List Ty) :
    SimV R (· = ·) (Tuple.readFrom P e s ts src) (Tuple.readFrom P e s ts src') := SimV.seq (SimV.liftEq _) fun mem => SimV.fill h _ _ mem

theorem SimV.respond {R : τ → τ' → Prop} (P : Platform) (e : Endian) (s : Mode) (ret : Option Ty) (r : Option Val) {dest : Byte → Eff τ Unit}
    {dest' : Byte → Eff τ' Unit} (h : ∀ b, SimV R (· = ·) (dest b) (dest' b)) : SimV R (· = ·) (Upd.respond P e s ret r dest) (Upd.respond P e s ret r dest') := by
  unfold Upd.respond
  split
  · exact SimV.pure rfl
  · exact SimV.seq (SimV.liftEq _) fun bs => SimV.putAll h bs
  · exact SimV.liftEq _

/-- Callbacks which cannot be told apart. -/
structure CbSim (P : Platform) (s : Mode) (R : σ → σ' → Prop) (cb : Callback σ) (cb' : Callback σ') : Prop where
  sig : cb.sig = cb'.sig
  ok : SigOk cb.sig
  fn : ∀ args, Val.FitsAll (Safe P s) cb.sig.params args → SimV R (· = ·) (cb.fn args) (cb'.fn args)

theorem SimV.call {R : σ → σ' → Prop} {T : τ → τ' → Prop} {P : Platform} (hP : P.Valid) {e : Endian} {s : Mode} (hs : Supported P e s) {cb : Callback σ} {cb' : Callback σ'}
    (hcb : CbSim P s R cb cb') {L : Lens τ σ} {L' : Lens τ' σ'} (hg : ∀ t t', T t t' → R (L.get t) (L'.get t'))
    (hp : ∀ t t' w w', T t t' → R w w' → T (L.put w t) (L'.put w' t')) {src : Eff τ Byte} {src' : Eff τ' Byte} (hsrc : SimV T (· = ·) src src')
    {dest : Byte → Eff τ Unit} {dest' : Byte → Eff τ' Unit} (hd : ∀ b, SimV T (· = ·) (dest b) (dest' b)) :
    SimV T (· = ·) (Upd.call P e s cb L src dest) (Upd.call P e s cb' L' src' dest') := by
  obtain ⟨h1, h2, h3⟩ := hcb
  obtain ⟨g, f⟩ := cb
  obtain ⟨g', f'⟩ := cb'
  obtain rfl : g = g' := h1
  rw [call_eq hP hs ⟨g, f⟩ h2.1 h2.2.1, call_eq hP hs ⟨g, f'⟩ h2.1 h2.2.1]
  refine SimV.bind (SimV.getLen hsrc _) ?_
  rintro bs _ ⟨rfl, hl⟩
  dsimp only at hl h2 h3 ⊢
  rcases readAll_cases hP hs g.params bs 0 h2.1 (packedAll_loose _ h2.2.1) (by rw [packedAll_serSizes _ h2.2.1]; omega) with ⟨vs, h4, h5⟩ | ⟨flt, h4, _⟩
  · rw [h4, Eff.lift_ok, Eff.lift_ok, pure_bind, pure_bind]
    exact SimV.seq (SimV.zoom hg hp (h3 vs h5)) fun r => SimV.respond P e s g.ret r hd
  · rw [h4]
    intro t t' _
    rfl

/-- Actions which cannot be told apart. -/
inductive ActSim (P : Platform) (e : Endian) (s : Mode) (R : σ → σ' → Prop) : Action σ → Action σ' → Prop
  | null : ActSim P e s R .null .null
  | stored {cb : Callback σ} {cb' : Callback σ'} : CbSim P s R cb cb' → ActSim P e s R (.stored e s cb) (.stored e s cb')
  | weak {cb : Callback σ} {cb' : Callback σ'} : CbSim P s R cb cb' → ActSim P e s R (.weak e s cb) (.weak e s cb')

theorem ActSim.inputSize {P : Platform} {e : Endian} {s : Mode} {R : σ → σ' → Prop} {a : Action σ} {a' : Action σ'} (h : ActSim P e s R a a') :
    a.inputSize = a'.inputSize := by
  cases h with
  | null => rfl
  | stored h => simp only [Action.inputSize, h.sig]
  | weak h => simp only [Action.inputSize, h.sig]

theorem SimV.invoke {R : σ → σ' → Prop} {T : τ → τ' → Prop} {P : Platform} (hP : P.Valid) {e : Endian} {s : Mode} (hs : Supported P e s) {a : Action σ} {a' : Action σ'}
    (ha : ActSim P e s R a a') {L : Lens τ σ} {L' : Lens τ' σ'} (hg : ∀ t t', T t t' → R (L.get t) (L'.get t'))
    (hp : ∀ t t' w w', T t t' → R w w' → T (L.put w t) (L'.put w' t')) {src : Eff τ Byte} {src' : Eff τ' Byte} (hsrc : SimV T (· = ·) src src')
    {dest : Byte → Eff τ Unit} {dest' : Byte → Eff τ' Unit} (hd : ∀ b, SimV T (· = ·) (dest b) (dest' b)) :
    SimV T (· = ·) (a.invoke P L src dest) (a'.invoke P L' src' dest') := by
  cases ha with
  | null => exact SimV.pure rfl
  | stored h => exact SimV.call hP hs h hg hp hsrc hd
  | weak h => exact SimV.call hP hs h hg hp hsrc hd

/-- The same for each action of a list. -/
inductive ActsSim (P : Platform) (e : Endian) (s : Mode) (R : σ → σ' → Prop) : List (Action σ) → List (Action σ') → Prop
  | nil : ActsSim P e s R [] []
  | cons {a : Action σ} {a' : Action σ'} {as : List (Action σ)} {as' : List (Action σ')} : ActSim P e s R a a' → ActsSim P e s R as as' →
    ActsSim P e s R (a :: as) (a' :: as')

/-- Dispatchers which cannot be told apart. -/
structure DispSim (P : Platform) (R : σ → σ' → Prop) (D : Dispatcher σ) (D' : Dispatcher σ') : Prop where
  e : D.e = D'.e
  s : D.s = D'.s
  idx : D.idxBytes = D'.idxBytes
  size : D.size = D'.size
  feat : D.features = D'.features
  acts : ActsSim P D.e D.s R D.acts D'.acts

theorem DispSim.at {P : Platform} {R : σ → σ' → Prop} {D : Dispatcher σ} {D' : Dispatcher σ'} (h : DispSim P R D D') (i : Nat) :
    MRel (ActSim P D.e D.s R) (D.at i) (D'.at i) := by
  unfold Dispatcher.at
  have key : ∀ (as : List (Action σ)) (bs : List (Action σ')) (i : Nat), ActsSim P D.e D.s R as bs →
      MRel (ActSim P D.e D.s R) (match as[i]? with | some a => (.ok a : M (Action σ)) | none => .error .oobRead)
        (match bs[i]? with | some a => (.ok a : M (Action σ')) | none => .error .oobRead) := by
    intro as bs i hf
    induction hf generalizing i with
    | nil => rfl
    | cons h _ ih =>
      cases i with
      | zero => exact h
      | succ i => exact ih i
  exact key _ _ i h.acts

theorem SimV.getIndex {T : τ → τ' → Prop} {R : σ → σ' → Prop} {P : Platform} {D : Dispatcher σ} {D' : Dispatcher σ'} (h : DispSim P R D D') {src : Eff τ Byte} {src' : Eff τ' Byte}
    (hsrc : SimV T (· = ·) src src') : SimV T (· = ·) (D.getIndex P src) (D'.getIndex P src') := by
  unfold Dispatcher.getIndex
  rw [← h.e, ← h.s, ← h.idx]
  refine SimV.seq (SimV.readFrom hsrc _ _ _) fun mem => SimV.seq (SimV.liftEq _) fun v => ?_
  cases v with
  | int z => exact SimV.pure rfl
  | _ => exact SimV.liftEq _

theorem SimV.run {R : σ → σ' → Prop} {T : τ → τ' → Prop} {P : Platform} (hP : P.Valid) {D : Dispatcher σ} {D' : Dispatcher σ'} (hs : Supported P D.e D.s)
    (h : DispSim P R D D') {L : Lens τ σ} {L' : Lens τ' σ'} (hg : ∀ t t', T t t' → R (L.get t) (L'.get t'))
    (hp : ∀ t t' w w', T t t' → R w w' → T (L.put w t) (L'.put w' t')) {src : Eff τ Byte} {src' : Eff τ' Byte} (hsrc : SimV T (· = ·) src src')
    {dest : Byte → Eff τ Unit} {dest' : Byte → Eff τ' Unit} (hd : ∀ b, SimV T (· = ·) (dest b) (dest' b)) :
    SimV T (· = ·) (D.run P L src dest) (D'.run P L' src' dest') := by
  unfold Dispatcher.run
  refine SimV.seq (SimV.getIndex h hsrc) fun i => ?_
  rw [← h.size]
  split
  · exact SimV.bind (SimV.lift (h.at i)) fun a a' ha => SimV.seq (SimV.invoke hP hs ha hg hp hsrc hd) fun _ => SimV.pure rfl
  · exact SimV.pure rfl

/-! ### Buffered dispatchers -/

/-- Buffered dispatchers which cannot be told apart, and related worlds. -/
structure BufSim (P : Platform) (R : σ → σ' → Prop) (b : Buf σ) (b' : Buf σ') : Prop where
  disp : DispSim P R b.disp b'.disp
  sup : Supported P b.disp.e b.disp.s
  shared : b.shared = b'.shared
  sizeMax : b.sizeMax = b'.sizeMax
  ibuf : b.ibuf = b'.ibuf
  obuf : b.obuf = b'.obuf
  indexLoaded : b.indexLoaded = b'.indexLoaded
  loadCount : b.loadCount = b'.loadCount
  ibufNext : b.ibufNext = b'.ibufNext
  obufNext : b.obufNext = b'.obufNext
  obufBottom : b.obufBottom = b'.obufBottom

/-- The states of two callees. -/
def BRel (P : Platform) (R : τ → τ' → Prop) (Q : σ → σ' → Prop) (st : Buf σ × τ) (st' : Buf σ' × τ') : Prop := BufSim P Q st.1 st'.1 ∧ R st.2 st'.2

/-- With a local variable. -/
def PtrRel (T : τ → τ' → Prop) (st : Nat × τ) (st' : Nat × τ') : Prop := st.1 = st'.1 ∧ T st.2 st'.2

theorem SimV.withPtr {T : τ → τ' → Prop} {V : α → β → Prop} {x : Eff (Nat × τ) α} {y : Eff (Nat × τ') β} (h : SimV (PtrRel T) V x y) :
    SimV T V (Upd.withPtr x) (Upd.withPtr y) := by
  intro t t' ht
  have h1 := h (0, t) (0, t') ⟨rfl, ht⟩
  unfold Upd.withPtr
  revert h1
  cases x (0, t) <;> cases y (0, t') <;> intro h1
  · exact ⟨h1.1, h1.2.2⟩
  · exact h1.elim
  · exact h1.elim
  · exact h1.elim
  · exact h1.2
  · exact h1.elim
  · exact h1.elim
  · exact h1.elim
  · exact h1

variable {P : Platform} {R : σ → σ' → Prop}

theorem SimV.modify {f : Buf σ → Buf σ} {g : Buf σ' → Buf σ'} (h : ∀ b b', BufSim P R b b' → BufSim P R (f b) (g b')) :
    SimV (BRel P R R) (· = ·) (modifyBuf f) (modifyBuf g) := fun _ _ ht => ⟨rfl, h _ _ ht.1, ht.2⟩

theorem SimV.ibufSrc : SimV (PtrRel (BRel P R R)) (· = ·) (ibufSrc : Eff (Nat × BState σ) Byte) (ibufSrc : Eff (Nat × BState σ') Byte) := by
  rintro ⟨n, b, w⟩ ⟨n', b', w'⟩ ⟨hn, hb, hw⟩
  dsimp only at hn hb hw
  subst hn
  simp only [Upd.ibufSrc, ← hb.ibuf]
  cases b.ibuf[n]? with
  | none => rfl
  | some x => exact ⟨rfl, rfl, hb, hw⟩

theorem BufSim.out {b : Buf σ} {b' : Buf σ'} (h : BufSim P R b b') : b.out = b'.out := by simp only [Buf.out, h.shared, h.ibuf, h.obuf]

theorem BufSim.isLoaded {b : Buf σ} {b' : Buf σ'} (h : BufSim P R b b') : b.isLoaded = b'.isLoaded := by simp only [Buf.isLoaded, h.obufNext, h.obufBottom]

theorem BufSim.pushOut {b : Buf σ} {b' : Buf σ'} (h : BufSim P R b b') (x : Byte) : MRel (BufSim P R) (b.pushOut x) (b'.pushOut x) := by
  unfold Buf.pushOut
  rw [← h.out, ← h.shared, ← h.obufBottom, ← h.ibuf, ← h.obuf]
  split
  · split
    · exact ⟨h.disp, h.sup, rfl, h.sizeMax, rfl, rfl, h.indexLoaded, h.loadCount, h.ibufNext, h.obufNext, rfl⟩
    · exact ⟨h.disp, h.sup, rfl, h.sizeMax, rfl, rfl, h.indexLoaded, h.loadCount, h.ibufNext, h.obufNext, rfl⟩
  · rfl

theorem BufSim.pushIn {b : Buf σ} {b' : Buf σ'} (h : BufSim P R b b') (x : Byte) : MRel (BufSim P R) (b.pushIn x) (b'.pushIn x) := by
  unfold Buf.pushIn
  rw [← h.ibufNext, ← h.ibuf]
  split
  · exact ⟨h.disp, h.sup, h.shared, h.sizeMax, rfl, h.obuf, h.indexLoaded, h.loadCount, rfl, h.obufNext, h.obufBottom⟩
  · rfl

theorem SimV.obufDest (x : Byte) : SimV (PtrRel (BRel P R R)) (· = ·) (obufDest x : Eff (Nat × BState σ) Unit) (obufDest x : Eff (Nat × BState σ') Unit) := by
  rintro ⟨n, b, w⟩ ⟨n', b', w'⟩ ⟨hn, hb, hw⟩
  dsimp only at hn hb hw
  have h := hb.pushOut x
  simp only [Upd.obufDest]
  revert h
  cases b.pushOut x <;> cases b'.pushOut x <;> intro h
  · exact h
  · exact h.elim
  · exact h.elim
  · exact ⟨trivial, hn, h, hw⟩

theorem SimV.callB (hP : P.Valid) : SimV (BRel P R R) (· = ·) (Buf.call P : Eff (BState σ) Unit) (Buf.call P : Eff (BState σ') Unit) := by
  unfold Buf.call
  refine SimV.seq (SimV.modify fun b b' h => ⟨h.disp, h.sup, h.shared, h.sizeMax, h.ibuf, h.obuf, h.indexLoaded, h.loadCount, h.ibufNext, rfl, rfl⟩) fun _ => ?_
  refine SimV.bind SimV.get fun st st' ht => ?_
  refine SimV.seq (SimV.withPtr ?_) fun _ => SimV.modify fun b b' h =>
    ⟨h.disp, h.sup, h.shared, h.sizeMax, h.ibuf, h.obuf, rfl, ht.1.disp.idx, rfl, h.obufNext, h.obufBottom⟩
  refine SimV.seq (SimV.getIndex ht.1.disp SimV.ibufSrc) fun i => SimV.bind (SimV.lift (ht.1.disp.at i)) fun a a' ha => ?_
  exact SimV.invoke hP ht.1.sup ha (fun _ _ h => h.2.2) (fun _ _ _ _ h hw => ⟨h.1, h.2.1, hw⟩) SimV.ibufSrc SimV.obufDest

theorem SimV.put (hP : P.Valid) (x : Byte) : SimV (BRel P R R) (· = ·) (Buf.put P x : Eff (BState σ) Status) (Buf.put P x : Eff (BState σ') Status) := by
  unfold Buf.put Buf.putWith
  refine SimV.bind SimV.get fun st st' ht => SimV.bind (SimV.lift (ht.1.pushIn x)) fun b b' hb => ?_
  have hc : decSize b.sizeMax b.loadCount = decSize b'.sizeMax b'.loadCount := by rw [hb.sizeMax, hb.loadCount]
  refine SimV.seq (SimV.modify fun _ _ _ => ⟨hb.disp, hb.sup, hb.shared, hb.sizeMax, hb.ibuf, hb.obuf, hb.indexLoaded, hc, hb.ibufNext, hb.obufNext, hb.obufBottom⟩)
    fun _ => ?_
  dsimp only
  rw [← hc, ← hb.indexLoaded, ← hb.disp.size]
  split
  · exact SimV.pure rfl
  · split
    · exact SimV.seq (SimV.callB hP) fun _ => SimV.pure rfl
    · refine SimV.seq (SimV.withPtr (SimV.getIndex hb.disp SimV.ibufSrc)) fun i => ?_
      split
      · refine SimV.bind (SimV.lift (hb.disp.at i)) fun a a' ha => ?_
        rw [← ha.inputSize]
        refine SimV.seq (SimV.liftEq _) fun n => SimV.seq (SimV.modify fun b b' h =>
          ⟨h.disp, h.sup, h.shared, h.sizeMax, h.ibuf, h.obuf, rfl, rfl, h.ibufNext, h.obufNext, h.obufBottom⟩) fun _ => ?_
        split
        · exact SimV.seq (SimV.callB hP) fun _ => SimV.pure rfl
        · exact SimV.pure rfl
      · exact SimV.seq (SimV.modify fun b b' h =>
          ⟨h.disp, h.sup, h.shared, h.sizeMax, h.ibuf, h.obuf, h.indexLoaded, h.disp.idx, rfl, h.obufNext, h.obufBottom⟩) fun _ => SimV.pure rfl

theorem SimV.popByte {T : τ → τ' → Prop} : SimV (BRel P T R) (· = ·) (Buf.get : Eff (Buf σ × τ) Byte) (Buf.get : Eff (Buf σ' × τ') Byte) := by
  rintro ⟨b, w⟩ ⟨b', w'⟩ ⟨hb, hw⟩
  dsimp only at hb hw
  simp only [Buf.get, Buf.popOut, ← hb.isLoaded, ← hb.out, ← hb.obufNext]
  split
  · cases b.out[b.obufNext]? with
    | none => rfl
    | some x => exact ⟨rfl, ⟨hb.disp, hb.sup, hb.shared, hb.sizeMax, hb.ibuf, hb.obuf, hb.indexLoaded, hb.loadCount, hb.ibufNext, rfl, hb.obufBottom⟩, hw⟩
  · exact ⟨rfl, hb, hw⟩

theorem SimV.onWorld {T : τ → τ' → Prop} {x : Eff τ α} {y : Eff τ' α} (h : SimV T (· = ·) x y) :
    SimV (BRel P T R) (· = ·) (Upd.onWorld x : Eff (Buf σ × τ) α) (Upd.onWorld y : Eff (Buf σ' × τ') α) :=
  SimV.zoom (fun _ _ h => h.2) (fun _ _ _ _ h hw => ⟨h.1, hw⟩) h

theorem SimV.readLoop1 (hP : P.Valid) {src : Eff σ Byte} {src' : Eff σ' Byte} (h : SimV R (· = ·) src src') : ∀ n st,
    SimV (BRel P R R) (· = ·) (Buf.readLoop1 P src n st) (Buf.readLoop1 P src' n st)
  | 0, _ => SimV.liftEq _
  | n + 1, st => by
    unfold Buf.readLoop1
    refine SimV.bind SimV.get fun t t' ht => ?_
    rw [← ht.1.indexLoaded]
    split
    · exact SimV.seq (SimV.onWorld h) fun x => SimV.seq (SimV.put hP x) fun st => SimV.readLoop1 hP h n st
    · exact SimV.pure rfl

theorem SimV.readLoop2 (hP : P.Valid) {src : Eff σ Byte} {src' : Eff σ' Byte} (h : SimV R (· = ·) src src') : ∀ n st,
    SimV (BRel P R R) (· = ·) (Buf.readLoop2 P src n st) (Buf.readLoop2 P src' n st)
  | 0, _ => SimV.liftEq _
  | n + 1, st => by
    unfold Buf.readLoop2
    refine SimV.bind SimV.get fun t t' ht => ?_
    rw [← ht.1.indexLoaded]
    split
    · exact SimV.seq (SimV.onWorld h) fun x => SimV.seq (SimV.put hP x) fun st => SimV.readLoop2 hP h n st
    · exact SimV.pure rfl

theorem SimV.readFromB (hP : P.Valid) {src : Eff σ Byte} {src' : Eff σ' Byte} (h : SimV R (· = ·) src src') :
    SimV (BRel P R R) (· = ·) (Buf.readFrom P src) (Buf.readFrom P src') := by
  unfold Buf.readFrom
  refine SimV.bind SimV.get fun t t' ht => ?_
  dsimp only
  rw [← ht.1.ibuf]
  exact SimV.seq (SimV.readLoop1 hP h _ _) fun st => SimV.readLoop2 hP h _ st

theorem SimV.writeLoop {T : τ → τ' → Prop} {dest : Byte → Eff τ Unit} {dest' : Byte → Eff τ' Unit} (h : ∀ x, SimV T (· = ·) (dest x) (dest' x)) : ∀ n,
    SimV (BRel P T R) (· = ·) (Buf.writeLoop dest n : Eff (Buf σ × τ) Unit) (Buf.writeLoop dest' n : Eff (Buf σ' × τ') Unit)
  | 0 => SimV.liftEq _
  | n + 1 => by
    unfold Buf.writeLoop
    refine SimV.bind SimV.get fun t t' ht => ?_
    rw [← ht.1.isLoaded]
    split
    · exact SimV.seq SimV.popByte fun x => SimV.seq (SimV.onWorld (h x)) fun _ => SimV.writeLoop h n
    · exact SimV.pure rfl

theorem SimV.writeTo {T : τ → τ' → Prop} {dest : Byte → Eff τ Unit} {dest' : Byte → Eff τ' Unit} (h : ∀ x, SimV T (· = ·) (dest x) (dest' x)) :
    SimV (BRel P T R) (· = ·) (Buf.writeTo dest : Eff (Buf σ × τ) Unit) (Buf.writeTo dest' : Eff (Buf σ' × τ') Unit) := by
  unfold Buf.writeTo
  refine SimV.bind SimV.get fun t t' ht => ?_
  rw [← ht.1.out]
  exact SimV.writeLoop h _

theorem SimV.process (hP : P.Valid) {src : Eff σ Byte} {src' : Eff σ' Byte} (h : SimV R (· = ·) src src') {dest : Byte → Eff σ Unit}
    {dest' : Byte → Eff σ' Unit} (hd : ∀ x, SimV R (· = ·) (dest x) (dest' x)) : SimV (BRel P R R) (· = ·) (Buf.process P src dest) (Buf.process P src' dest') := by
  unfold Buf.process
  refine SimV.seq (SimV.readFromB hP h) fun st => ?_
  split
  · exact SimV.seq (SimV.writeTo hd) fun _ => SimV.pure rfl
  · exact SimV.pure rfl

theorem SimV.reply {output : Byte → Eff σ Unit} {output' : Byte → Eff σ' Unit} (hd : ∀ x, SimV R (· = ·) (output x) (output' x)) (k : Key) (n : Nat) :
    SimV (BRel P R R) (· = ·) (Buf.reply P k n output) (Buf.reply P k n output') := by
  rintro ⟨b, w⟩ ⟨b', w'⟩ ⟨hb, hw⟩
  dsimp only at hb hw
  simp only [Buf.reply, ← hb.obufNext, ← hb.obufBottom]
  split
  · exact ⟨rfl, hb, hw⟩
  · have h1 := SimV.writeTo (P := P) (R := R) (T := fun (x y : Mem × Nat) => x = y) (dest := bufIt) (dest' := bufIt)
      (fun x t t' ht => by subst ht; cases bufIt x t <;> first | exact ⟨rfl, rfl⟩ | rfl) (b, (P.junkBytes n, 0)) (b', (P.junkBytes n, 0)) ⟨hb, rfl⟩
    revert h1
    cases (Buf.writeTo bufIt : Eff (Buf σ × (Mem × Nat)) Unit) (b, (P.junkBytes n, 0)) <;>
      cases (Buf.writeTo bufIt : Eff (Buf σ' × (Mem × Nat)) Unit) (b', (P.junkBytes n, 0)) <;> intro h1
    · rename_i u st u' st'
      obtain ⟨b1, m, i⟩ := st
      obtain ⟨b1', m', i'⟩ := st'
      obtain ⟨-, h2, h3⟩ := h1
      cases h3
      have h4 : SimV R (· = ·) (k.writeTo P [.arr (m.map fun x => .int x.toNat)] output) (k.writeTo P [.arr (m.map fun x => .int x.toNat)] output') :=
        SimV.seq (SimV.liftEq _) fun bs => SimV.putAll hd bs
      have h5 := h4 w w' hw
      dsimp only
      revert h5
      cases k.writeTo P [.arr (m.map fun x => .int x.toNat)] output w <;> cases k.writeTo P [.arr (m.map fun x => .int x.toNat)] output' w' <;> intro h5
      · exact ⟨rfl, h2, h5.2⟩
      · exact h5.elim
      · exact h5.elim
      · exact h5.elim
      · exact ⟨h2, h5⟩
      · exact h5.elim
      · exact h5.elim
      · exact h5.elim
      · exact h5
    · exact h1.elim
    · exact h1.elim
    · exact h1.elim
    · exact ⟨h1.1, hw⟩
    · exact h1.elim
    · exact h1.elim
    · exact h1.elim
    · exact h1

end Upd
