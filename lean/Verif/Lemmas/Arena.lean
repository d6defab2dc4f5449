import Verif.Spec.Arena
import Verif.Lemmas.Put

/-!
# Buffers which may overlap: step by step, the same as separate buffers
-/

namespace Upd
open Spec

/-- Outcomes of an execution with separate buffers (`x`) and of one with buffers which may overlap: the same, unless the first one faults. -/
def AlikeAt {τ τ' α : Type} (R T : τ → τ' → Prop) : Res τ α → Res τ' α → Prop
  | .ret a s, y => ∃ t, y = .ret a t ∧ R s t
  | .threw s, y => ∃ t, y = .threw t ∧ T s t
  | .fault _, _ => True

theorem AlikeAt.bind {τ τ' α β : Type} {R1 R T : τ → τ' → Prop} {x : Eff τ α} {y : Eff τ' α} {f : α → Eff τ β} {g : α → Eff τ' β} {s : τ} {t : τ'}
    (h : AlikeAt R1 T (x s) (y t)) (hf : ∀ a s t, R1 s t → AlikeAt R T (f a s) (g a t)) : AlikeAt R T ((x >>= f) s) ((y >>= g) t) := by
  cases hx : x s with
  | fault e => rw [Eff.bind_fault hx]; trivial
  | threw s' =>
    rw [hx] at h
    obtain ⟨t', h1, h2⟩ := h
    rw [Eff.bind_threw hx, Eff.bind_threw h1]
    exact ⟨t', rfl, h2⟩
  | ret a s' =>
    rw [hx] at h
    obtain ⟨t', h1, h2⟩ := h
    rw [Eff.bind_ret hx, Eff.bind_ret h1]
    exact hf a s' t' h2

theorem AlikeAt.lift {τ τ' α : Type} {R T : τ → τ' → Prop} (x : M α) {s : τ} {t : τ'} (h : R s t) :
    AlikeAt R T ((Eff.lift x : Eff τ α) s) ((Eff.lift x : Eff τ' α) t) := by
  cases x with
  | error e => trivial
  | ok a => exact ⟨t, rfl, h⟩

theorem AlikeAt.mono {τ τ' α : Type} {R R' T : τ → τ' → Prop} (h : ∀ s t, R s t → R' s t) {x : Res τ α} {y : Res τ' α} (hx : AlikeAt R T x y) : AlikeAt R' T x y := by
  cases x with
  | fault e => trivial
  | threw s => exact hx
  | ret a s =>
    obtain ⟨t, h1, h2⟩ := hx
    exact ⟨t, h1, h s t h2⟩

variable {τ τ' : Type} {R R' T : τ → τ' → Prop}

theorem fillFrom_alikeAt {src : Eff τ Byte} {src' : Eff τ' Byte} (hs : ∀ s t, R s t → AlikeAt R T (src s) (src' t)) :
    ∀ (n i : Nat) (mem : Mem) (s : τ) (t : τ'), R s t → AlikeAt R T (fillFrom src n i mem s) (fillFrom src' n i mem t)
  | 0, _, _, _, t, h => ⟨t, rfl, h⟩
  | n + 1, i, mem, s, t, h =>
    (hs s t h).bind fun b _ _ h1 => (AlikeAt.lift (mem.wr i b) h1).bind fun mem s t h2 => fillFrom_alikeAt hs n (i + 1) mem s t h2

theorem readFrom_alikeAt {src : Eff τ Byte} {src' : Eff τ' Byte} (hs : ∀ s t, R s t → AlikeAt R T (src s) (src' t)) (P : Platform) (e : Endian) (m : Mode)
    (ts : List Ty) {s : τ} {t : τ'} (h : R s t) : AlikeAt R T (Tuple.readFrom P e m ts src s) (Tuple.readFrom P e m ts src' t) :=
  (AlikeAt.lift (Tuple.default P e m ts) h).bind fun mem s t h1 => fillFrom_alikeAt hs _ 0 mem s t h1

theorem outAll_alikeAt {dest : Byte → Eff τ Unit} {dest' : Byte → Eff τ' Unit} (hd : ∀ b s t, R s t → AlikeAt R T (dest b s) (dest' b t)) :
    ∀ (bs : List Byte) (s : τ) (t : τ'), R s t → AlikeAt R T (outAll dest bs s) (outAll dest' bs t)
  | [], _, t, h => ⟨t, rfl, h⟩
  | b :: bs, s, t, h => (hd b s t h).bind fun _ s t h1 => outAll_alikeAt hd bs s t h1

theorem getIndex_alikeAt {σ : Type} {src : Eff τ Byte} {src' : Eff τ' Byte} (hs : ∀ s t, R s t → AlikeAt R T (src s) (src' t)) (P : Platform) (D : Dispatcher σ)
    {s : τ} {t : τ'} (h : R s t) : AlikeAt R T (D.getIndex P src s) (D.getIndex P src' t) := by
  unfold Dispatcher.getIndex
  refine (readFrom_alikeAt hs P D.e D.s _ h).bind fun mem s t h1 => (AlikeAt.lift _ h1).bind fun v s t h2 => ?_
  cases v with
  | int z => exact ⟨t, rfl, h2⟩
  | _ => trivial

/-- The arguments are read, the callback is called, then the response is written. -/
theorem invoke_alikeAt {σ : Type} {src : Eff τ Byte} {src' : Eff τ' Byte} {dest : Byte → Eff τ Unit} {dest' : Byte → Eff τ' Unit} {L : Lens τ σ} {L' : Lens τ' σ}
    (hs : ∀ s t, R s t → AlikeAt R T (src s) (src' t)) (hz : ∀ (x : Eff σ (Option Val)) s t, R s t → AlikeAt R' T (Eff.zoom L x s) (Eff.zoom L' x t))
    (hd : ∀ b s t, R' s t → AlikeAt R' T (dest b s) (dest' b t)) (hR : ∀ s t, R s t → R' s t) (P : Platform) (a : Action σ) {s : τ} {t : τ'} (h : R s t) :
    AlikeAt R' T (a.invoke P L src dest s) (a.invoke P L' src' dest' t) := by
  cases a with
  | null => exact ⟨t, rfl, hR s t h⟩
  | stored e m cb =>
    refine (readFrom_alikeAt hs P e m _ h).bind fun mem s t h1 => (AlikeAt.lift _ h1).bind fun x s t h2 => (hz x s t h2).bind fun r s t h3 => ?_
    cases cb.sig.ret with
    | none => cases r with
      | none => exact ⟨t, rfl, h3⟩
      | some v => trivial
    | some ty => cases r with
      | none => trivial
      | some v => exact (AlikeAt.lift _ h3).bind fun bs s t h4 => outAll_alikeAt hd bs s t h4
  | weak e m cb =>
    refine (readFrom_alikeAt hs P e m _ h).bind fun mem s t h1 => (AlikeAt.lift _ h1).bind fun x s t h2 => (hz x s t h2).bind fun r s t h3 => ?_
    cases cb.sig.ret with
    | none => cases r with
      | none => exact ⟨t, rfl, h3⟩
      | some v => trivial
    | some ty => cases r with
      | none => trivial
      | some v => exact (AlikeAt.lift _ h3).bind fun bs s t h4 => outAll_alikeAt hd bs s t h4

variable {σ : Type} {i n o m : Nat} {mem0 : Mem}

/-- A dispatcher with separate buffers of `n` and `m` bytes, and one whose buffers are at `i` and `o` in an array which had the content `mem0`: the
unread bytes of the response are the same, and the array is unchanged out of the buffers. -/
structure OutLike (i n o m : Nat) (mem0 : Mem) (b : Buf σ) (a : Arena σ) : Prop where
  disp : b.disp = a.disp
  shared : b.shared = false
  size : b.sizeMax = a.sizeMax
  loaded : b.indexLoaded = a.indexLoaded
  count : b.loadCount = a.loadCount
  inext : b.ibufNext = a.ibufNext
  onext : b.obufNext = a.obufNext
  bottom : b.obufBottom = a.obufBottom
  ibegin : a.ibegin = i
  obegin : a.obegin = o
  ilen : b.ibuf.length = n
  olen : b.obuf.length = m
  iroom : i + n ≤ mem0.length
  oroom : o + m ≤ mem0.length
  len : a.mem.length = mem0.length
  fits : b.obufBottom ≤ m
  out : ∀ k, b.obufNext ≤ k → k < b.obufBottom → b.obuf[k]? = a.mem[o + k]?
  frame : ∀ k, ¬(i ≤ k ∧ k < i + n) → ¬(o ≤ k ∧ k < o + m) → a.mem[k]? = mem0[k]?

/-- The input buffers are the same as well. -/
structure InLike (i n o m : Nat) (mem0 : Mem) (b : Buf σ) (a : Arena σ) : Prop extends OutLike i n o m mem0 b a where
  inp : ∀ k, k < n → b.ibuf[k]? = a.mem[i + k]?

/-- The pending bytes are the same as well. -/
structure FinLike (i n o m : Nat) (mem0 : Mem) (b : Buf σ) (a : Arena σ) : Prop extends OutLike i n o m mem0 b a where
  pend : ∀ k, k < b.ibufNext → b.ibuf[k]? = a.mem[i + k]?

/-- With the world. -/
def Along (R : Buf σ → Arena σ → Prop) (s : BState σ) (t : Arena σ × σ) : Prop := R s.1 t.1 ∧ s.2 = t.2

/-- With a pointer and the world. -/
def AlongPtr (R : Buf σ → Arena σ → Prop) (s : Nat × BState σ) (t : Nat × (Arena σ × σ)) : Prop := s.1 = t.1 ∧ Along R s.2 t.2

/-- The same world. -/
def SameWorld (s : BState σ) (t : Arena σ × σ) : Prop := s.2 = t.2

/-- The same world. -/
def SameWorldPtr (s : Nat × BState σ) (t : Nat × (Arena σ × σ)) : Prop := s.2.2 = t.2.2

theorem withPtr_alikeAt {α : Type} {R R' : Buf σ → Arena σ → Prop} {x : Eff (Nat × BState σ) α} {y : Eff (Nat × (Arena σ × σ)) α} {s : BState σ} {t : Arena σ × σ}
    (h : Along R s t) (hx : ∀ s t, AlongPtr R s t → AlikeAt (AlongPtr R') SameWorldPtr (x s) (y t)) :
    AlikeAt (Along R') SameWorld (withPtr x s) (withPtr y t) := by
  have h1 := hx (0, s) (0, t) ⟨rfl, h⟩
  unfold withPtr
  cases hr : x (0, s) with
  | fault e => trivial
  | threw s' =>
    rw [hr] at h1
    obtain ⟨t', h2, h3⟩ := h1
    rw [h2]
    exact ⟨_, rfl, h3⟩
  | ret a s' =>
    rw [hr] at h1
    obtain ⟨t', h2, h3⟩ := h1
    rw [h2]
    exact ⟨_, rfl, h3.2⟩

theorem src_alikeAt (s : Nat × BState σ) (t : Nat × (Arena σ × σ)) (h : AlongPtr (InLike i n o m mem0) s t) :
    AlikeAt (AlongPtr (InLike i n o m mem0)) SameWorldPtr (ibufSrc s) (Arena.src t) := by
  obtain ⟨p, b, w⟩ := s
  obtain ⟨p', a, w'⟩ := t
  obtain ⟨h1, h2, h3⟩ := h
  cases h1
  cases h3
  unfold ibufSrc Arena.src
  dsimp only
  cases hb : b.ibuf[p]? with
  | none => trivial
  | some x =>
    have hp : p < n := by
      have := (List.getElem?_eq_some_iff.1 hb).1
      rw [h2.ilen] at this
      exact this
    have := h2.inp p hp
    rw [hb] at this
    rw [h2.ibegin, ← this]
    exact ⟨_, rfl, rfl, h2, rfl⟩

theorem dest_alikeAt (x : Byte) (s : Nat × BState σ) (t : Nat × (Arena σ × σ)) (h : AlongPtr (OutLike i n o m mem0) s t) :
    AlikeAt (AlongPtr (OutLike i n o m mem0)) SameWorldPtr (obufDest x s) (Arena.dest x t) := by
  obtain ⟨p, b, w⟩ := s
  obtain ⟨p', a, w'⟩ := t
  obtain ⟨h1, h2, h3⟩ := h
  cases h1
  cases h3
  unfold obufDest Arena.dest Buf.pushOut Arena.pushOut Buf.out
  dsimp only at h2 ⊢
  rw [h2.shared]
  simp only [Bool.false_eq_true, if_false]
  by_cases hb : b.obufBottom < b.obuf.length
  · have hroom := h2.oroom
    have hol := h2.olen
    have hbot := h2.bottom
    rw [if_pos hb, if_pos (by rw [h2.obegin, h2.len]; omega)]
    refine ⟨_, rfl, rfl, ?_, rfl⟩
    exact { h2 with
      shared := rfl
      fits := by show b.obufBottom + 1 ≤ m; omega
      bottom := by show b.obufBottom + 1 = a.obufBottom + 1; rw [hbot]
      olen := by show (b.obuf.set _ _).length = m; rw [List.length_set]; exact hol
      len := by show (a.mem.set _ _).length = _; rw [List.length_set]; exact h2.len
      out := by
        intro k hk1 hk2
        show (b.obuf.set b.obufBottom x)[k]? = (a.mem.set (a.obegin + a.obufBottom) x)[o + k]?
        have hk2' : k < b.obufBottom + 1 := hk2
        rw [h2.obegin, ← hbot, List.getElem?_set, List.getElem?_set]
        by_cases hk : b.obufBottom = k
        · rw [if_pos hk, if_pos hb, if_pos (show o + b.obufBottom = o + k by omega), if_pos (show o + b.obufBottom < a.mem.length by rw [h2.len]; omega)]
        · rw [if_neg hk, if_neg (by omega)]
          exact h2.out k hk1 (by omega)
      frame := by
        intro k hk1 hk2
        show (a.mem.set (a.obegin + a.obufBottom) x)[k]? = _
        rw [h2.obegin, ← hbot, List.getElem?_set, if_neg (by omega)]
        exact h2.frame k hk1 hk2 }
  · rw [if_neg hb]; trivial

theorem zoom_alikeAt {α : Type} {R : Buf σ → Arena σ → Prop} (x : Eff σ α) (s : Nat × BState σ) (t : Nat × (Arena σ × σ)) (h : AlongPtr R s t) :
    AlikeAt (AlongPtr R) SameWorldPtr (Eff.zoom worldLens x s) (Eff.zoom Arena.world x t) := by
  obtain ⟨p, b, w⟩ := s
  obtain ⟨p', a, w'⟩ := t
  obtain ⟨h1, h2, h3⟩ := h
  cases h3
  show AlikeAt _ _ (match x w with | .ret a w => .ret a _ | .threw w => .threw _ | .fault e => .fault e) (match x w with | .ret a w => .ret a _ | .threw w => .threw _ | .fault e => .fault e)
  cases x w with
  | fault e => trivial
  | threw w1 => exact ⟨_, rfl, rfl⟩
  | ret r w1 => exact ⟨_, rfl, h1, h2, rfl⟩

theorem call_alikeAt (P : Platform) {s : BState σ} {t : Arena σ × σ} (h : Along (InLike i n o m mem0) s t) :
    AlikeAt (Along (FinLike i n o m mem0)) SameWorld (Buf.call P s) (Arena.call P t) := by
  obtain ⟨b, w⟩ := s
  obtain ⟨a, w'⟩ := t
  obtain ⟨h1, h2⟩ := h
  cases h2
  unfold Buf.call Arena.call
  have h3 : Along (InLike i n o m mem0) ({ b with disp := a.disp, obufBottom := 0, obufNext := 0 }, w) ({ a with obufBottom := 0, obufNext := 0 }, w) :=
    ⟨{ h1 with disp := rfl, bottom := rfl, onext := rfl, fits := Nat.zero_le _, out := fun k _ hk => absurd hk (Nat.not_lt_zero k) }, rfl⟩
  show AlikeAt _ _ ((withPtr _ >>= _) ({ b with obufBottom := 0, obufNext := 0 }, w)) ((withPtr _ >>= _) ({ a with obufBottom := 0, obufNext := 0 }, w))
  have hD : b.disp = a.disp := h1.disp
  dsimp only
  rw [hD]
  refine (withPtr_alikeAt (R' := OutLike i n o m mem0) h3 fun s t h4 => ?_).bind fun _ s t h5 => ?_
  · refine (getIndex_alikeAt src_alikeAt P a.disp h4).bind fun index s t h5 => (AlikeAt.lift _ h5).bind fun act s t h6 => ?_
    exact invoke_alikeAt src_alikeAt (fun x s t h => (zoom_alikeAt x s t h).mono fun s t h => ⟨h.1, h.2.1.toOutLike, h.2.2⟩) dest_alikeAt
      (fun s t h => ⟨h.1, h.2.1.toOutLike, h.2.2⟩) P act h6
  · obtain ⟨b1, w1⟩ := s
    obtain ⟨a1, w1'⟩ := t
    obtain ⟨h6, h7⟩ := h5
    cases h7
    exact ⟨_, rfl, { h6 with loaded := rfl, count := rfl, inext := rfl, pend := fun k hk => absurd hk (Nat.not_lt_zero k) }, rfl⟩

theorem put_alikeAt (P : Platform) (x : Byte) {b : Buf σ} {a : Arena σ} {w : σ} (h : InLike i n o m mem0 b a)
    (hd : Apart i n o m ∨ a.isLoaded = false) :
    AlikeAt (Along (FinLike i n o m mem0)) SameWorld (Buf.put P x (b, w)) (Arena.put P x (a, w)) := by
  unfold Buf.put Buf.putWith Arena.put
  show AlikeAt _ _ ((Eff.lift (b.pushIn x) >>= _) (b, w)) ((Eff.lift (a.pushIn x) >>= _) (a, w))
  unfold Buf.pushIn Arena.pushIn
  by_cases hb : b.ibufNext < b.ibuf.length
  · have hil := h.ilen
    have hroom := h.iroom
    have hin := h.inext
    rw [if_pos hb, if_pos (by rw [h.ibegin, h.len]; omega), Eff.lift_ok, Eff.lift_ok, pure_bind, pure_bind]
    have h1 : InLike i n o m mem0
        { b with ibuf := b.ibuf.set b.ibufNext x, ibufNext := b.ibufNext + 1, loadCount := decSize b.sizeMax b.loadCount }
        { a with mem := a.mem.set (a.ibegin + a.ibufNext) x, ibufNext := a.ibufNext + 1, loadCount := decSize a.sizeMax a.loadCount } :=
      { h with
        inext := by show b.ibufNext + 1 = a.ibufNext + 1; rw [hin]
        count := by show decSize b.sizeMax b.loadCount = decSize a.sizeMax a.loadCount; rw [h.size, h.count]
        ilen := by show (b.ibuf.set _ _).length = n; rw [List.length_set]; exact hil
        len := by show (a.mem.set _ _).length = _; rw [List.length_set]; exact h.len
        inp := by
          intro k hk
          show (b.ibuf.set b.ibufNext x)[k]? = (a.mem.set (a.ibegin + a.ibufNext) x)[i + k]?
          rw [h.ibegin, ← hin, List.getElem?_set, List.getElem?_set]
          by_cases hk' : b.ibufNext = k
          · rw [if_pos hk', if_pos hb, if_pos (show i + b.ibufNext = i + k by omega), if_pos (show i + b.ibufNext < a.mem.length by rw [h.len]; omega)]
          · rw [if_neg hk', if_neg (by omega)]
            exact h.inp k hk
        out := by
          intro k hk1 hk2
          show b.obuf[k]? = (a.mem.set (a.ibegin + a.ibufNext) x)[o + k]?
          rcases hd with hd | hd
          · have hf := h.fits
            have hk2' : k < b.obufBottom := hk2
            rw [h.ibegin, ← hin, List.getElem?_set, if_neg (by unfold Apart at hd; omega)]
            exact h.out k hk1 hk2
          · have : a.obufNext = a.obufBottom := by simpa [Arena.isLoaded] using hd
            have e1 := h.onext
            have e2 := h.bottom
            have hk1' : b.obufNext ≤ k := hk1
            have hk2' : k < b.obufBottom := hk2
            omega
        frame := by
          intro k hk1 hk2
          show (a.mem.set (a.ibegin + a.ibufNext) x)[k]? = _
          rw [h.ibegin, ← hin, List.getElem?_set, if_neg (by omega)]
          exact h.frame k hk1 hk2 }
    have hfin : ∀ {b : Buf σ} {a : Arena σ} {w : σ}, InLike i n o m mem0 b a → b.ibufNext ≤ n → Along (FinLike i n o m mem0) (b, w) (a, w) :=
      fun h hn => ⟨{ h with pend := fun k hk => h.inp k (Nat.lt_of_lt_of_le hk hn) }, rfl⟩
    generalize hb1 : ({ b with ibuf := b.ibuf.set b.ibufNext x, ibufNext := b.ibufNext + 1, loadCount := decSize b.sizeMax b.loadCount } : Buf σ) = b1 at h1
    generalize ha1 : ({ a with mem := a.mem.set (a.ibegin + a.ibufNext) x, ibufNext := a.ibufNext + 1, loadCount := decSize a.sizeMax a.loadCount } : Arena σ) = a1 at h1
    have hn1 : b1.ibufNext ≤ n := by rw [← hb1]; show b.ibufNext + 1 ≤ n; omega
    refine AlikeAt.bind (R1 := fun s t => s = (b1, w) ∧ t = (a1, w)) ⟨_, rfl, rfl, rfl⟩ ?_
    rintro _ _ _ ⟨rfl, rfl⟩
    rw [h1.count, h1.loaded, h1.disp]
    by_cases hl : a1.loadCount > 0
    · rw [if_pos hl, if_pos hl]
      exact ⟨_, rfl, hfin h1 hn1⟩
    rw [if_neg hl, if_neg hl]
    cases a1.indexLoaded with
    | true =>
      simp only [if_true]
      exact (call_alikeAt P ⟨h1, rfl⟩).bind fun _ s t h2 => ⟨_, rfl, h2⟩
    | false =>
      simp only [Bool.false_eq_true, if_false]
      refine (withPtr_alikeAt (R' := fun b a => InLike i n o m mem0 b a ∧ b.ibufNext ≤ n) (x := a1.disp.getIndex P ibufSrc) (y := a1.disp.getIndex P Arena.src)
        (s := (b1, w)) (t := (a1, w)) (R := fun b a => InLike i n o m mem0 b a ∧ b.ibufNext ≤ n) ⟨⟨h1, hn1⟩, rfl⟩ fun s t h2 => ?_).bind fun index s t h2 => ?_
      · refine getIndex_alikeAt (fun s t h => ?_) P a1.disp h2
        have hs := src_alikeAt s t ⟨h.1, h.2.1.1, h.2.2⟩
        unfold ibufSrc at hs ⊢
        cases hx : s.2.1.ibuf[s.1]? with
        | none => trivial
        | some x =>
          rw [hx] at hs
          obtain ⟨t', h3, h4⟩ := hs
          exact ⟨t', h3, h4.1, ⟨h4.2.1, h.2.1.2⟩, h4.2.2⟩
      obtain ⟨b2, w2⟩ := s
      obtain ⟨a2, w2'⟩ := t
      obtain ⟨⟨h3, h4⟩, h5⟩ := h2
      cases h5
      by_cases hi : index < a1.disp.size
      · rw [if_pos hi, if_pos hi]
        refine AlikeAt.bind (R1 := fun s t => s = (b2, w2) ∧ t = (a2, w2)) (AlikeAt.lift _ ⟨rfl, rfl⟩) ?_
        rintro act _ _ ⟨rfl, rfl⟩
        refine AlikeAt.bind (R1 := fun s t => s = (b2, w2) ∧ t = (a2, w2)) (AlikeAt.lift _ ⟨rfl, rfl⟩) ?_
        rintro len _ _ ⟨rfl, rfl⟩
        have h6 : InLike i n o m mem0 { b2 with loadCount := len, indexLoaded := true } { a2 with loadCount := len, indexLoaded := true } :=
          { h3 with count := rfl, loaded := rfl }
        refine AlikeAt.bind (R1 := fun s t => s = ({ b2 with loadCount := len, indexLoaded := true }, w2) ∧ t = ({ a2 with loadCount := len, indexLoaded := true }, w2))
          ⟨_, rfl, rfl, rfl⟩ ?_
        rintro _ _ _ ⟨rfl, rfl⟩
        by_cases hz : len = 0
        · rw [if_pos hz, if_pos hz]
          exact (call_alikeAt P ⟨h6, rfl⟩).bind fun _ s t h2 => ⟨_, rfl, h2⟩
        · rw [if_neg hz, if_neg hz]
          exact ⟨_, rfl, hfin h6 h4⟩
      · rw [if_neg hi, if_neg hi]
        refine AlikeAt.bind (R1 := Along (FinLike i n o m mem0)) ⟨_, rfl, ?_, rfl⟩ fun _ s t h2 => ⟨_, rfl, h2⟩
        exact { h3 with count := (by show b2.disp.idxBytes = a2.disp.idxBytes; rw [h3.disp]), inext := rfl, pend := fun k hk => absurd hk (Nat.not_lt_zero k) }
  · rw [if_neg hb]; trivial

theorem get_alikeAt {b : Buf σ} {a : Arena σ} {w : σ} (h : InLike i n o m mem0 b a) (hle : b.obufNext ≤ b.obufBottom) :
    AlikeAt (Along (InLike i n o m mem0)) SameWorld (Buf.get (b, w)) (Arena.get (a, w)) := by
  unfold Buf.get Arena.get Buf.isLoaded Arena.isLoaded Buf.popOut Arena.popOut Buf.out
  dsimp only
  rw [h.shared, ← h.onext, ← h.bottom, h.obegin]
  simp only [Bool.false_eq_true, if_false]
  by_cases hl : b.obufNext = b.obufBottom
  · rw [if_neg (by simp [hl]), if_neg (by simp [hl])]
    exact ⟨_, rfl, h, rfl⟩
  · rw [if_pos (by simp [hl]), if_pos (by simp [hl]), ← h.out b.obufNext (Nat.le_refl _) (by omega)]
    cases b.obuf[b.obufNext]? with
    | none => trivial
    | some x =>
      exact ⟨_, rfl, { h with shared := rfl, bottom := rfl, obegin := rfl, onext := rfl, out := fun k hk1 hk2 => h.out k (Nat.le_of_succ_le hk1) hk2 }, rfl⟩

end Upd
