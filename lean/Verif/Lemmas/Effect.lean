import Verif.Lemmas.Tuple2
import Verif.Spec.Stream

namespace Upd
open Spec

variable {σ τ α β : Type}

theorem Eff.bind_def (x : Eff σ α) (f : α → Eff σ β) : (x >>= f) = Eff.bind x f := rfl
theorem Eff.pure_def (a : α) : (pure a : Eff σ α) = fun w => .ret a w := rfl
@[simp] theorem Eff.pure_apply (a : α) (w : σ) : (pure a : Eff σ α) w = .ret a w := rfl

instance : LawfulMonad (Eff σ) := LawfulMonad.mk'
  (id_map := by
    intro α x; funext w; show Eff.bind x _ w = _
    unfold Eff.bind; cases x w <;> rfl)
  (pure_bind := by intros; rfl)
  (bind_assoc := by
    intro α β γ x f g; funext w; show Eff.bind (Eff.bind x f) g w = Eff.bind x _ w
    unfold Eff.bind; cases x w <;> rfl)
  (map_const := by intros; rfl)

theorem Eff.bind_ret {x : Eff σ α} {f : α → Eff σ β} {w w' : σ} {a : α} (h : x w = .ret a w') :
    (x >>= f) w = f a w' := by
  show Eff.bind x f w = _
  unfold Eff.bind; rw [h]

theorem Eff.bind_threw {x : Eff σ α} {f : α → Eff σ β} {w w' : σ} (h : x w = .threw w') :
    (x >>= f) w = .threw w' := by
  show Eff.bind x f w = _
  unfold Eff.bind; rw [h]

theorem Eff.bind_fault {x : Eff σ α} {f : α → Eff σ β} {w : σ} {e : Fault} (h : x w = .fault e) :
    (x >>= f) w = .fault e := by
  show Eff.bind x f w = _
  unfold Eff.bind; rw [h]

theorem Eff.bind_eq_ret {x : Eff σ α} {f : α → Eff σ β} {w w' : σ} {b : β} (h : (x >>= f) w = .ret b w') :
    ∃ a w1, x w = .ret a w1 ∧ f a w1 = .ret b w' := by
  have h : Eff.bind x f w = _ := h
  unfold Eff.bind at h
  cases hx : x w with
  | ret a w1 => rw [hx] at h; exact ⟨a, w1, rfl, h⟩
  | threw w1 => rw [hx] at h; cases h
  | fault e => rw [hx] at h; cases h

theorem Eff.lift_ok (a : α) : (Eff.lift (.ok a) : Eff σ α) = pure a := rfl
@[simp] theorem Eff.lift_ok_apply (a : α) (w : σ) : (Eff.lift (.ok a) : Eff σ α) w = .ret a w := rfl
@[simp] theorem Eff.lift_error_apply (e : Fault) (w : σ) : (Eff.lift (.error e) : Eff σ α) w = .fault e := rfl

theorem Eff.lift_bind (x : M α) (f : α → M β) :
    (Eff.lift (x >>= f) : Eff σ β) = (Eff.lift x >>= fun a => Eff.lift (f a)) := by
  cases x <;> rfl

theorem Eff.bind_congr {x : Eff σ α} {f g : α → Eff σ β} (h : ∀ w a w', x w = .ret a w' → f a w' = g a w') :
    (x >>= f) = (x >>= g) := by
  funext w
  show Eff.bind x f w = Eff.bind x g w
  unfold Eff.bind
  cases hx : x w with
  | ret a w1 => exact h w a w1 hx
  | threw w1 => rfl
  | fault e => rfl

/-! ### Sources and destinations -/

theorem Yields.append {src : Eff τ Byte} {w w1 w2 : τ} {as bs : List Byte} (h1 : Yields src w as w1)
    (h2 : Yields src w1 bs w2) : Yields src w (as ++ bs) w2 := by
  induction h1 with
  | nil => exact h2
  | cons h _ ih => exact .cons h (ih h2)

theorem Yields.split {src : Eff τ Byte} : ∀ {as bs : List Byte} {w w2 : τ}, Yields src w (as ++ bs) w2 →
    ∃ w1, Yields src w as w1 ∧ Yields src w1 bs w2
  | [], _, w, _, h => ⟨w, .nil w, h⟩
  | a :: as, bs, w, w2, h => by
    cases h with
    | cons h0 h1 =>
      obtain ⟨w1, ha, hb⟩ := Yields.split (as := as) h1
      exact ⟨w1, .cons h0 ha, hb⟩

theorem getN_yields {src : Eff τ Byte} {w w' : τ} {bs : List Byte} (h : Yields src w bs w') :
    getN src bs.length w = .ret bs w' := by
  induction h with
  | nil => rfl
  | cons h0 _ ih =>
    show (src >>= _) _ = _
    rw [Eff.bind_ret h0, Eff.bind_ret ih]
    rfl

theorem getN_length {src : Eff τ Byte} : ∀ {n : Nat} {w w' : τ} {bs : List Byte}, getN src n w = .ret bs w' →
    bs.length = n ∧ Yields src w bs w'
  | 0, w, w', bs, h => by cases h; exact ⟨rfl, .nil w⟩
  | n + 1, w, w', bs, h => by
    obtain ⟨b, w1, h1, h2⟩ := Eff.bind_eq_ret h
    obtain ⟨bs', w2, h3, h4⟩ := Eff.bind_eq_ret h2
    cases h4
    obtain ⟨h5, h6⟩ := getN_length h3
    exact ⟨by simp [h5], .cons h1 h6⟩

theorem putAll_accepts {dest : Byte → Eff τ Unit} {w w' : τ} {bs : List Byte} (h : Accepts dest w bs w') :
    putAll dest bs w = .ret () w' := by
  induction h with
  | nil => rfl
  | cons h0 _ ih =>
    show (dest _ >>= _) _ = _
    rw [Eff.bind_ret h0, ih]

theorem outAll_eq (dest : Byte → Eff τ Unit) : ∀ bs, outAll dest bs = putAll dest bs
  | [] => rfl
  | b :: bs => by
    show (dest b >>= fun _ => outAll dest bs) = _
    rw [outAll_eq dest bs]; rfl

theorem fillFrom_eq (src : Eff τ Byte) : ∀ (n i : Nat) (mem : Mem), i + n ≤ mem.length →
    fillFrom src n i mem = (getN src n >>= fun bs => pure (splice mem i bs))
  | 0, i, mem, h => by
    show _ = (pure [] >>= _)
    rw [pure_bind, splice_nil]; rfl
  | n + 1, i, mem, h => by
    show (src >>= _) = ((src >>= _) >>= _)
    rw [bind_assoc]
    apply Eff.bind_congr
    intro w b w' _
    show (Eff.lift (mem.wr i b) >>= _) w' = _
    rw [Mem.wr_ok (by omega), Eff.lift_ok, pure_bind, fillFrom_eq src n (i + 1) _ (by simp; omega), bind_assoc]
    refine congrFun ?_ w'
    apply Eff.bind_congr
    intro w1 bs w2 h2
    rw [pure_bind, splice_set_cons (by rw [(getN_length h2).1]; omega)]

theorem default_ok {P : Platform} (hP : P.Valid) {e : Endian} {s : Mode} (hs : Supported P e s) {ts : List Ty}
    (hw : Ty.WFs ts) (hl : LooseAll ts) :
    ∃ mem, Tuple.default P e s ts = .ok mem ∧ mem.length = Ty.serSizes ts := by
  have hf := zeros_fit (leaf := Safe P s) ts hw (safe_zero P s)
  have hlay := View.lay_eq P (Tuple.self e s ts) (Val.zeros ts) (P.junkBytes (Tuple.self e s ts).size)
  rw [← View.indices_eq] at hlay
  have hb : 0 + Ty.serSizes ts ≤ (P.junkBytes (Tuple.self e s ts).size).length := by
    rw [junkBytes_length, View.size_eq]; simp [Tuple.self]
  refine ⟨_, hlay.trans (writeAll_ok hP hs ts _ _ 0 hw hl hf hb), ?_⟩
  rw [overlay_length, junkBytes_length, View.size_eq]; rfl

/-- The bytes of a tuple read from a source are those of the source. -/
theorem readFrom_eq {P : Platform} (hP : P.Valid) {e : Endian} {s : Mode} (hs : Supported P e s) {ts : List Ty}
    (hw : Ty.WFs ts) (hl : LooseAll ts) (src : Eff τ Byte) :
    Tuple.readFrom P e s ts src = getN src (Ty.serSizes ts) := by
  obtain ⟨mem, h1, h2⟩ := default_ok hP hs hw hl
  unfold Tuple.readFrom
  rw [h1, Eff.lift_ok, pure_bind, View.size_eq]
  show fillFrom src (Ty.serSizes ts) 0 mem = _
  rw [fillFrom_eq src _ _ _ (by omega)]
  conv => rhs; rw [← bind_pure (getN src (Ty.serSizes ts))]
  apply Eff.bind_congr
  intro w bs w' h
  have := (getN_length h).1
  simp [splice, List.drop_eq_nil_of_le, h2, this]

theorem invoke_eq {P : Platform} {e : Endian} {s : Mode} {ts : List Ty} (f : List Val → β) (mem : Mem) :
    (Tuple.self e s ts).invoke P f mem = (readAll P e s ts mem 0 >>= fun vs => .ok (f vs)) := by
  unfold View.invoke
  rw [View.indices_eq, View.gets_eq]; rfl

/-- What the library does to respond. -/
theorem insert_eq {P : Platform} (hP : P.Valid) {e : Endian} {s : Mode} (hs : Supported P e s) {t : Ty} (hw : t.WF)
    (hp : Packed t) {v : Val} (hv : v.Fits (Safe P s) t) (dest : Byte → Eff τ Unit) :
    insert P e s t v dest = putAll dest (wire e s t v) := by
  unfold insert
  have : Tuple.make P e s [t] [v] = .ok (wire e s t v) := by
    have hlay := View.lay_eq P (Tuple.self e s [t]) [v] (P.junkBytes (Tuple.self e s [t]).size)
    rw [← View.indices_eq] at hlay
    refine hlay.trans ?_
    have hsz : Ty.serSizes [t] = wireSize t := by simp [Ty.serSizes, packed_serSize t hp]
    have hl := wire_length (e := e) (s := s) hp hv
    have hj : (P.junkBytes (Tuple.self e s [t]).size).length = wireSize t := by
      rw [junkBytes_length, View.size_eq]; exact hsz
    show writeAll P e s [t] [v] _ 0 = _
    rw [show writeAll P e s [t] [v] (P.junkBytes (Tuple.self e s [t]).size) 0 =
      (writeAs P e s t v (P.junkBytes (Tuple.self e s [t]).size) 0 >>= fun m => .ok m) from rfl,
      writeAs_packed hP hs hw hp hv (by omega)]
    show Except.ok _ = _
    simp [splice, List.drop_eq_nil_of_le, hj, hl]
  rw [this, Eff.lift_ok, pure_bind, outAll_eq]

end Upd
