import Verif.Lemmas.Interchange
import Verif.Lemmas.Bounds
import Verif.Lemmas.ReadFrom
import Verif.Lemmas.Reach
import Verif.Spec.Course

/-! Helper lemmas: what is done, in order. -/

namespace Upd
open Spec TypeList

variable {σ α β : Type} {P : Platform} {K : Keyring} {f : Features} {defs : Nat → List Val → Eff σ (Option Val)} {shared : Bool}

/-- What is recorded, from any state: `post` if there is a result, `exc` if there is an exception. -/
def Does (x : Eff (Watched σ) α) (post : α → List Deed → Prop) (exc : List Deed → Prop) : Prop :=
  ∀ w tr, match x (w, tr) with
    | .ret a (_, tr') => ∃ l, tr' = tr ++ l ∧ post a l
    | .threw (_, tr') => ∃ l, tr' = tr ++ l ∧ exc l
    | .fault _ => True

theorem Does.pure {post : α → List Deed → Prop} {exc : List Deed → Prop} {a : α} (h : post a []) : Does (pure a : Eff (Watched σ) α) post exc :=
  fun _ _ => ⟨[], by simp, h⟩

theorem Does.lift {post : α → List Deed → Prop} {exc : List Deed → Prop} {m : M α} (h : ∀ a, m = .ok a → post a []) : Does (Eff.lift m : Eff (Watched σ) α) post exc := by
  cases m with
  | ok a => exact Does.pure (h a rfl)
  | error e => exact fun _ _ => trivial

theorem Does.watch (d : Deed) (x : Eff σ α) : Does (watch d x) (fun _ l => l = [d]) (fun l => l = [d]) := by
  intro w tr
  unfold Spec.watch
  cases x w with
  | ret a w' => exact ⟨[d], rfl, rfl⟩
  | threw w' => exact ⟨[d], rfl, rfl⟩
  | fault f => trivial

theorem Does.bind {x : Eff (Watched σ) α} {y : α → Eff (Watched σ) β} {p : α → List Deed → Prop} {e e' : List Deed → Prop} {q : β → List Deed → Prop} (hx : Does x p e)
    (he : ∀ l, e l → e' l) (hy : ∀ a l, p a l → Does (y a) (fun b l' => q b (l ++ l')) (fun l' => e' (l ++ l'))) : Does (x >>= y) q e' := by
  intro w tr
  have h1 := hx w tr
  cases hr : x (w, tr) with
  | fault g => rw [Eff.bind_fault hr]; trivial
  | threw st =>
    rw [Eff.bind_threw hr]
    rw [hr] at h1
    obtain ⟨l, h2, h3⟩ := h1
    exact ⟨l, h2, he l h3⟩
  | ret a st =>
    rw [Eff.bind_ret hr]
    rw [hr] at h1
    obtain ⟨w1, tr1⟩ := st
    obtain ⟨l, h2, h3⟩ := h1
    have h2 : tr1 = tr ++ l := h2
    subst h2
    have h4 := hy a l h3 w1 (tr ++ l)
    cases hr2 : y a (w1, tr ++ l) with
    | fault g => trivial
    | threw st2 => rw [hr2] at h4; obtain ⟨l', h5, h6⟩ := h4; exact ⟨l ++ l', by rw [h5, List.append_assoc], h6⟩
    | ret b st2 => rw [hr2] at h4; obtain ⟨l', h5, h6⟩ := h4; exact ⟨l ++ l', by rw [h5, List.append_assoc], h6⟩

theorem does_fill (src : Eff σ Byte) : ∀ (n i : Nat) (mem : Mem),
    Does (fillFrom (watch .got src) n i mem) (fun _ l => l = List.replicate n .got) (fun l => ∃ k, k ≤ n ∧ l = List.replicate k .got)
  | 0, i, mem => Does.pure rfl
  | n + 1, i, mem => by
    refine Does.bind (Does.watch .got src) (fun l h => ⟨1, by omega, h⟩) fun x l hl => ?_
    subst hl
    refine Does.bind (Does.lift (post := fun _ l => l = []) (exc := fun _ => False) fun _ _ => rfl) (fun _ h => h.elim) fun m l hl => ?_
    subst hl
    intro w tr
    have ih := does_fill src n (i + 1) m w tr
    cases hr : fillFrom (watch .got src) n (i + 1) m (w, tr) with
    | fault g => trivial
    | ret a st => rw [hr] at ih; obtain ⟨l, h1, h2⟩ := ih; exact ⟨l, h1, by rw [h2]; rfl⟩
    | threw st => rw [hr] at ih; obtain ⟨l, h1, k, h2, h3⟩ := ih; exact ⟨l, h1, k + 1, by omega, by rw [h3]; rfl⟩

theorem does_out (dest : Byte → Eff σ Unit) : ∀ (bs : List Byte),
    Does (outAll (fun x => watch .gave (dest x)) bs) (fun _ l => l = List.replicate bs.length .gave) (fun l => ∃ k, k ≤ bs.length ∧ l = List.replicate k .gave)
  | [] => Does.pure rfl
  | b :: bs => by
    refine Does.bind (Does.watch .gave (dest b)) (fun l h => ⟨1, by simp, h⟩) fun x l hl => ?_
    subst hl
    intro w tr
    have ih := does_out dest bs w tr
    cases hr : outAll (fun x => watch .gave (dest x)) bs (w, tr) with
    | fault g => trivial
    | ret a st => rw [hr] at ih; obtain ⟨l, h1, h2⟩ := ih; exact ⟨l, h1, by rw [h2]; rfl⟩
    | threw st => rw [hr] at ih; obtain ⟨l, h1, k, h2, h3⟩ := ih; exact ⟨l, h1, k + 1, by simpa using h2, by rw [h3]; rfl⟩

theorem lay_length {V : View} (hp : PackedAll V.ts) : ∀ {is : List Nat} {vs : List Val} {mem mem' : Mem}, V.lay P is vs mem = .ok mem' → mem'.length = mem.length
  | [], [], mem, mem', h => by cases h; rfl
  | i :: is, v :: vs, mem, mem', h => by
    obtain ⟨m1, h1, h2⟩ := except_bind_eq_ok h
    rw [lay_length hp h2]
    by_cases hi : i < V.ts.length
    · rw [View.set_eq P V hi] at h1
      exact (writeAs_bounds _ _ _ _ _ (packedAll_get hp hi) h1).2
    · unfold View.set at h1
      rw [at11_eq, List.getElem?_eq_none (by omega)] at h1; cases h1

theorem make_length {e : Endian} {s : Mode} {ts : List Ty} (hp : PackedAll ts) {vs : List Val} {mem : Mem} (h : Tuple.make P e s ts vs = .ok mem) : mem.length = wireSizes ts := by
  have h1 := lay_length (V := ⟨e, s, ts, 0⟩) hp h
  rw [h1, junkBytes_length, View.size_eq]
  exact packedAll_serSizes _ hp

theorem self_size {e : Endian} {s : Mode} {ts : List Ty} (hp : PackedAll ts) : (Tuple.self e s ts).size = wireSizes ts := by
  rw [View.size_eq]; exact packedAll_serSizes _ hp

theorem does_readFrom {e : Endian} {s : Mode} {ts : List Ty} (hp : PackedAll ts) (src : Eff σ Byte) :
    Does (Tuple.readFrom P e s ts (watch .got src)) (fun _ l => l = List.replicate (wireSizes ts) .got) (fun l => ∃ k, k ≤ wireSizes ts ∧ l = List.replicate k .got) := by
  refine Does.bind (Does.lift (post := fun _ l => l = []) (exc := fun _ => False) fun _ _ => rfl) (fun _ h => h.elim) fun m l hl => ?_
  subst hl
  rw [self_size hp]
  exact does_fill src (wireSizes ts) 0 m

/-- An action. -/
theorem does_call {e : Endian} {s : Mode} {g : Sig} (hg : SigOk g) (name : Nat) (src : Eff σ Byte) (dest : Byte → Eff σ Unit) :
    Does (call P e s ⟨g, watched defs name⟩ (Lens.whole _) (watch .got src) (fun x => watch .gave (dest x)))
      (fun _ l => l = List.replicate (wireSizes g.params) .got ++ .called name :: List.replicate (retSize g.ret) .gave)
      (fun l => l <+: List.replicate (wireSizes g.params) .got ++ .called name :: List.replicate (retSize g.ret) .gave) := by
  unfold call
  refine Does.bind (does_readFrom hg.2.1 src) ?_ fun m l hl => ?_
  · rintro _ ⟨k, hk, rfl⟩
    refine List.IsPrefix.trans ?_ (List.prefix_append _ _)
    exact ⟨List.replicate (wireSizes g.params - k) .got, by rw [List.replicate_append_replicate]; congr 1; omega⟩
  subst hl
  refine Does.bind (p := fun z l => l = [] ∧ ∃ args, z = watched defs name args) (e := fun _ => False) (Does.lift fun z hz => ?_) (fun _ h => h.elim) fun z l hl => ?_
  · obtain ⟨vs, _, h2⟩ := except_bind_eq_ok hz
    injection h2 with h2
    exact ⟨rfl, vs, h2.symm⟩
  obtain ⟨rfl, args, rfl⟩ := hl
  rw [zoom_whole]
  refine Does.bind (Does.watch (.called name) (defs name args)) ?_ fun r l hl => ?_
  · rintro _ rfl
    simp only [List.nil_append]
    rw [List.prefix_append_right_inj]
    exact List.prefix_append [_] _
  subst hl
  simp only [List.nil_append]
  match hgr : g.ret, r with
  | none, none => exact Does.pure (by simp [retSize])
  | none, some v => exact fun _ _ => trivial
  | some t, none => exact fun _ _ => trivial
  | some t, some v =>
    refine Does.bind (p := fun m l => l = [] ∧ m.length = wireSize t) (e := fun _ => False) (Does.lift fun z hz => ?_) (fun _ h => h.elim) fun z l hl => ?_
    · have hp : PackedAll [t] := by simpa [PackedAll] using (hg.2.2 t hgr).2
      exact ⟨rfl, by simpa [wireSizes] using make_length hp hz⟩
    obtain ⟨rfl, hz⟩ := hl
    intro w tr
    have ho := does_out dest z w tr
    cases hr : outAll (fun x => watch .gave (dest x)) z (w, tr) with
    | fault _ => trivial
    | ret a st => rw [hr] at ho; obtain ⟨l, h1, h2⟩ := ho; exact ⟨l, h1, by rw [h2, hz]; simp [retSize]⟩
    | threw st =>
      rw [hr] at ho
      obtain ⟨l, h1, k, h2, h3⟩ := ho
      refine ⟨l, h1, List.replicate (wireSize t - k) .gave, ?_⟩
      rw [h3]
      simp only [List.nil_append, List.append_assoc, List.cons_append, List.replicate_append_replicate, retSize]
      congr 3; omega

theorem does_getN (src : Eff σ Byte) : ∀ (n : Nat),
    Does (getN (watch .got src) n) (fun _ l => l = List.replicate n .got) (fun l => ∃ k, k ≤ n ∧ l = List.replicate k .got)
  | 0 => Does.pure rfl
  | n + 1 => by
    refine Does.bind (Does.watch .got src) (fun l h => ⟨1, by omega, h⟩) fun x l hl => ?_
    subst hl
    refine Does.bind (does_getN src n) ?_ fun bs l hl => ?_
    · rintro _ ⟨k, hk, rfl⟩
      exact ⟨k + 1, by omega, rfl⟩
    · subst hl
      exact Does.pure (by simp [List.replicate_succ])

theorem replicate_prefix {k n : Nat} (h : k ≤ n) (d : Deed) : List.replicate k d <+: List.replicate n d :=
  ⟨List.replicate (n - k) d, by rw [List.replicate_append_replicate]; congr 1; omega⟩

theorem Does.mono {x : Eff (Watched σ) α} {p q : α → List Deed → Prop} {e e' : List Deed → Prop} (h : Does x p e) (hp : ∀ a l, p a l → q a l) (he : ∀ l, e l → e' l) :
    Does x q e' := by
  intro w tr
  have h1 := h w tr
  cases hr : x (w, tr) with
  | fault g => trivial
  | ret a st => rw [hr] at h1; obtain ⟨l, h2, h3⟩ := h1; exact ⟨l, h2, hp a l h3⟩
  | threw st => rw [hr] at h1; obtain ⟨l, h2, h3⟩ := h1; exact ⟨l, h2, he l h3⟩

/-- A dispatcher without buffers. -/
theorem does_run (hP : P.Valid) (hK : KeyringOk K) (hs : Supported P K.e K.s) (src : Eff σ Byte) (dest : Byte → Eff σ Unit) :
    Does ((Dispatcher.make K f (watched defs)).run P (Lens.whole _) (watch .got src) (fun x => watch .gave (dest x)))
      (fun i l => l = match K.decls[i]? with | some d => servedCourse K d 0 | none => droppedCourse K 0) (Begun K 0) := by
  rw [run_eq (D := Dispatcher.make K f (watched defs)) hP hs (idxBytes_pos hK.1).1]
  refine Does.bind (does_getN src _) ?_ fun bs l hl => ?_
  · rintro _ ⟨k, hk, rfl⟩
    exact Or.inl (replicate_prefix hk _)
  subst hl
  have hsz : (Dispatcher.make K f (watched defs)).size = K.decls.length := K.size_eq hK.1
  rw [hsz]
  have hcase : ∀ i, Does (if i < K.decls.length then (do
        let a ← Eff.lift ((Dispatcher.make K f (watched defs)).at i)
        a.invoke P (Lens.whole _) (watch .got src) (fun x => watch .gave (dest x))
        pure i) else pure i : Eff (Watched σ) Nat)
      (fun i l => List.replicate K.idxBytes .got ++ l = match K.decls[i]? with | some d => servedCourse K d 0 | none => droppedCourse K 0)
      (fun l => Begun K 0 (List.replicate K.idxBytes .got ++ l)) := by
    intro i
    split
    · rename_i hi
      have hg := hK.2 _ (List.getElem_mem hi)
      rw [at_eq (make_acts hi)]
      refine Does.bind (p := fun a l => l = [] ∧ a = makeAction f K.e K.s ⟨K.decls[i].sig, watched defs K.decls[i].name⟩) (e := fun _ => False) (Does.lift fun a h => ?_)
        (fun _ h => h.elim) fun a l hl => ?_
      · injection h with h
        exact ⟨rfl, h.symm⟩
      obtain ⟨rfl, rfl⟩ := hl
      rw [(makeAction_holds _ _ _ _).invoke]
      refine Does.bind (does_call hg _ src dest) ?_ fun _ l hl => ?_
      · intro l hl
        refine Or.inr ⟨_, List.getElem_mem hi, ?_⟩
        rw [servedCourse, Nat.sub_zero, ← List.replicate_append_replicate, List.append_assoc]
        exact (List.prefix_append_right_inj _).2 hl
      · subst hl
        refine Does.pure ?_
        rw [List.getElem?_eq_getElem hi]
        simp only [servedCourse, Nat.sub_zero, ← List.replicate_append_replicate, List.append_assoc, List.nil_append, List.append_nil]
    · rename_i hi
      refine Does.pure ?_
      rw [List.getElem?_eq_none (by omega)]
      simp [droppedCourse]
  exact hcase _

/-! ## Dispatchers with buffers -/

theorem setting_watched (h : Setting P K f defs) : Setting P K f (watched defs) where
  valid := h.valid
  ring := h.ring
  sup := h.sup
  sizes := h.sizes
  typed := by
    intro d hd args w r w' hf hr
    have hr : watch (.called d.name) (defs d.name args) w = .ret r w' := hr
    unfold watch at hr
    cases hx : defs d.name args w.1 with
    | fault g => rw [hx] at hr; cases hr
    | threw g => rw [hx] at hr; cases hr
    | ret a w1 =>
      rw [hx] at hr
      injection hr with h1 _
      subst h1
      exact h.typed d hd args _ _ _ hf hx

/-- `Begun`, with the bytes received not too many. -/
def BegunAt (K : Keyring) (m : Nat) (l : List Deed) : Prop :=
  (m ≤ K.idxBytes ∧ l <+: droppedCourse K m) ∨ ∃ d ∈ K.decls, m ≤ K.idxBytes + wireSizes d.sig.params ∧ l <+: servedCourse K d m

theorem BegunAt.begun {m : Nat} {l : List Deed} (h : BegunAt K m l) : Begun K m l := by
  rcases h with ⟨_, h⟩ | ⟨d, hd, _, h⟩
  · exact Or.inl h
  · exact Or.inr ⟨d, hd, h⟩

theorem dropped_succ {m : Nat} (h : m + 1 ≤ K.idxBytes) : droppedCourse K m = .got :: droppedCourse K (m + 1) := by
  rw [droppedCourse, droppedCourse, ← List.replicate_succ]
  congr 1; omega

theorem served_succ {d : Decl} {m : Nat} (h : m + 1 ≤ K.idxBytes + wireSizes d.sig.params) : servedCourse K d m = .got :: servedCourse K d (m + 1) := by
  rw [servedCourse, servedCourse, ← List.cons_append, ← List.replicate_succ]
  congr 2; omega

theorem BegunAt.step {m : Nat} {l : List Deed} (h : BegunAt K (m + 1) l) : BegunAt K m (.got :: l) := by
  rcases h with ⟨h1, h2⟩ | ⟨d, hd, h1, h2⟩
  · exact Or.inl ⟨by omega, by rw [dropped_succ h1]; exact (List.prefix_cons_inj _).2 h2⟩
  · exact Or.inr ⟨d, hd, by omega, by rw [served_succ h1]; exact (List.prefix_cons_inj _).2 h2⟩

theorem begun_source {b : Buf σ} {l : List Byte} (h : RelIn (protoOf K defs) b l) : BegunAt K l.length [.got] := by
  refine BegunAt.step ?_
  rcases h.load with ⟨h1, _⟩ | ⟨_, _, cb, h2, h3, _⟩
  · exact Or.inl ⟨h1, List.nil_prefix⟩
  · obtain ⟨d, hd, rfl⟩ := protoOf_mem (mem_of_get h2)
    exact Or.inr ⟨d, hd, h3, List.nil_prefix⟩

theorem bad_length {b : Buf σ} {l : List Byte} {x : Byte} (h : RelIn (protoOf K defs) b l) (hc : (protoOf K defs).classify (l ++ [x]) = .bad) : l.length + 1 = K.idxBytes := by
  unfold Proto.classify at hc
  split at hc
  · cases hc
  rename_i h0
  simp only [List.length_append, List.length_singleton] at h0
  rcases h.load with ⟨h1, _⟩ | ⟨h1, _, cb, h2, _, _⟩
  · have h1 : l.length < K.idxBytes := h1
    have h0 : ¬ l.length + 1 < K.idxBytes := h0
    omega
  · rw [List.take_append_of_le_length h1, h2] at hc
    simp only at hc
    split at hc <;> cases hc

theorem request_length {b : Buf σ} {l : List Byte} {x : Byte} (h : RelIn (protoOf K defs) b l) {cb : Callback σ} {args : List Byte}
    (hc : (protoOf K defs).classify (l ++ [x]) = .request cb args) (hl : args.length = wireSizes cb.sig.params) : l.length + 1 = K.idxBytes + wireSizes cb.sig.params := by
  unfold Proto.classify at hc
  split at hc
  · cases hc
  rename_i h0
  have h0 : ¬ (l ++ [x]).length < K.idxBytes := h0
  split at hc
  · cases hc
  split at hc
  · cases hc
  injection hc with _ h1
  rw [← h1] at hl
  have hl : ((l ++ [x]).drop K.idxBytes).length = _ := hl
  simp only [List.length_drop, List.length_append, List.length_singleton] at hl h0
  omega

theorem watch_cases (d : Deed) (x : Eff σ α) (w : σ) (tr : List Deed) :
    (∃ a w', x w = .ret a w' ∧ watch d x (w, tr) = .ret a (w', tr ++ [d])) ∨ (∃ w', x w = .threw w' ∧ watch d x (w, tr) = .threw (w', tr ++ [d])) ∨
      ∃ g, x w = .fault g ∧ watch d x (w, tr) = .fault g := by
  unfold watch
  cases x w with
  | ret a w' => exact Or.inl ⟨a, w', rfl, rfl⟩
  | threw w' => exact Or.inr (Or.inl ⟨w', rfl, rfl⟩)
  | fault g => exact Or.inr (Or.inr ⟨g, rfl, rfl⟩)

/-- What `put` records. -/
theorem put_record (hP : P.Valid) {b : Buf (Watched σ)} {l : List Byte} (h : RelIn (protoOf K (watched defs)) b l) (hb : BufOk P (protoOf K (watched defs)) b) (x : Byte) (w : σ)
    (tr : List Deed) :
    (∃ b', Buf.put P x (b, (w, tr)) = .ret .loading (b', (w, tr)) ∧ RelIn (protoOf K (watched defs)) b' (l ++ [x]) ∧ Same b b') ∨
    (l.length + 1 = K.idxBytes ∧ ∃ b', Buf.put P x (b, (w, tr)) = .ret .dropped (b', (w, tr))) ∨
    (∃ d ∈ K.decls, l.length + 1 = K.idxBytes + wireSizes d.sig.params ∧
      ((∃ b' w' out, Buf.put P x (b, (w, tr)) = .ret .resolved (b', (w', tr ++ [.called d.name])) ∧ Unread b' out ∧ out.length = retSize d.sig.ret) ∨
        ∃ b' w', Buf.put P x (b, (w, tr)) = .threw (b', (w', tr ++ [.called d.name])))) ∨
    ∃ g, Buf.put P x (b, (w, tr)) = .fault g := by
  rcases put_cases hP h hb x (w, tr) with ⟨_, b', h1, h2, h3, _⟩ | ⟨hc, b', h1, _⟩ | ⟨cb, args, hc, hm, hl, h1⟩
  · exact Or.inl ⟨b', h1, h2, h3⟩
  · exact Or.inr (Or.inl ⟨bad_length h hc, b', h1⟩)
  · have hlen := request_length h hc hl
    have hg := hb.serves.sig cb hm
    obtain ⟨d, hd, rfl⟩ := protoOf_mem hm
    rcases h1 with ⟨_, h1⟩ | ⟨g, _, _, h1⟩
    · rcases watch_cases (.called d.name) (defs d.name (unwires (protoOf K (watched defs)).e (protoOf K (watched defs)).s d.sig.params args)) w tr with
        ⟨r, w', _, h2⟩ | ⟨w', _, h2⟩ | ⟨g, _, h2⟩
      · rcases h1 with ⟨r', w2, h3, h4, h5⟩ | ⟨w2, b', h3, _⟩ | ⟨g, h3, _⟩
        · have h3 := h2.symm.trans h3
          injection h3 with h6 h7
          subst h6; subst h7
          rcases h5 with ⟨b', h5, _, h6, _⟩ | ⟨_, h5⟩
          · exact Or.inr (Or.inr (Or.inl ⟨d, hd, hlen, Or.inl ⟨b', w', _, h5, h6, response_length hg h4⟩⟩))
          · exact Or.inr (Or.inr (Or.inr ⟨_, h5⟩))
        · exact nomatch h2.symm.trans h3
        · exact nomatch h2.symm.trans h3
      · rcases h1 with ⟨r', w2, h3, _⟩ | ⟨w2, b', h3, h4⟩ | ⟨g, h3, _⟩
        · exact nomatch h2.symm.trans h3
        · have h3 := h2.symm.trans h3
          injection h3 with h7
          subst h7
          exact Or.inr (Or.inr (Or.inl ⟨d, hd, hlen, Or.inr ⟨b', w', h4⟩⟩))
        · exact nomatch h2.symm.trans h3
      · rcases h1 with ⟨r', w2, h3, _⟩ | ⟨w2, b', h3, h4⟩ | ⟨g, _, h4⟩
        · exact nomatch h2.symm.trans h3
        · exact nomatch h2.symm.trans h3
        · exact Or.inr (Or.inr (Or.inr ⟨g, h4⟩))
    · exact Or.inr (Or.inr (Or.inr ⟨g, h1⟩))

/-- What `read_from` records. -/
def ReadRecord (K : Keyring) (m : Nat) (tr : List Deed) : Res (BState (Watched σ)) Status → Prop
  | .ret st (b', (_, tr')) =>
    (st = .dropped ∧ m ≤ K.idxBytes ∧ tr' = tr ++ droppedCourse K m) ∨
    (st = .resolved ∧ ∃ d ∈ K.decls, m ≤ K.idxBytes + wireSizes d.sig.params ∧ tr' = tr ++ (List.replicate (K.idxBytes + wireSizes d.sig.params - m) .got ++ [.called d.name]) ∧
      ∃ out, Unread b' out ∧ out.length = retSize d.sig.ret)
  | .threw (_, (_, tr')) => ∃ l, tr' = tr ++ l ∧ BegunAt K m l
  | .fault _ => True

theorem ReadRecord.step {m : Nat} {tr : List Deed} : ∀ {r : Res (BState (Watched σ)) Status}, ReadRecord K (m + 1) (tr ++ [.got]) r → ReadRecord K m tr r
  | .ret st (b', (_, tr')), h => by
    rcases h with ⟨h1, h2, h3⟩ | ⟨h1, d, hd, h2, h3, h4⟩
    · exact Or.inl ⟨h1, by omega, by rw [h3, dropped_succ h2]; simp⟩
    · refine Or.inr ⟨h1, d, hd, by omega, ?_, h4⟩
      rw [h3, show K.idxBytes + wireSizes d.sig.params - m = K.idxBytes + wireSizes d.sig.params - (m + 1) + 1 by omega, List.replicate_succ]
      simp
  | .threw (_, (_, tr')), ⟨l, h1, h2⟩ => ⟨.got :: l, by rw [h1]; simp, h2.step⟩
  | .fault _, _ => trivial

theorem read_record (hP : P.Valid) (src : Eff σ Byte) : ∀ (n : Nat) {b : Buf (Watched σ)} {l : List Byte}, b.ibuf.length - l.length ≤ n →
    RelIn (protoOf K (watched defs)) b l → BufOk P (protoOf K (watched defs)) b → ∀ (w : σ) (tr : List Deed),
    ReadRecord K l.length tr (Buf.readFrom P (watch .got src) (b, (w, tr))) := by
  intro n
  induction n with
  | zero =>
    intro b l hn h hb w tr
    exfalso
    have := h.lt hb
    omega
  | succ n ih =>
    intro b l hn h hb w tr
    rw [readFrom_unfold hP h hb]
    rcases watch_cases .got src w tr with ⟨x, w1, _, h1⟩ | ⟨w1, _, h1⟩ | ⟨g, _, h1⟩
    · rw [Eff.bind_ret (onWorld_ret h1)]
      have hlt := h.lt hb
      rcases put_record hP h hb x w1 (tr ++ [.got]) with ⟨b', h2, h3, h4⟩ | ⟨h3, b', h2⟩ | ⟨d, hd, h3, h4⟩ | ⟨g, h2⟩
      · rw [Eff.bind_ret h2]
        simp only [if_true]
        have hh := ih (b := b') (l := l ++ [x]) (by rw [h4.ilen, List.length_append, List.length_singleton]; omega) h3 (hb.same h4) w1 (tr ++ [.got])
        rw [List.length_append, List.length_singleton] at hh
        exact ReadRecord.step hh
      · rw [Eff.bind_ret h2]
        refine Or.inl ⟨rfl, by omega, ?_⟩
        show tr ++ [Deed.got] = _
        rw [dropped_succ (by omega), droppedCourse, h3, Nat.sub_self]; rfl
      · rcases h4 with ⟨b', w', out, h2, h5, h6⟩ | ⟨b', w', h2⟩
        · rw [Eff.bind_ret h2]
          refine Or.inr ⟨rfl, d, hd, by omega, ?_, out, h5, h6⟩
          rw [show K.idxBytes + wireSizes d.sig.params - l.length = 1 by omega]
          show tr ++ [Deed.got] ++ [_] = _
          simp
        · rw [Eff.bind_threw h2]
          refine ⟨[.got, .called d.name], by simp, BegunAt.step (Or.inr ⟨d, hd, by omega, ?_⟩)⟩
          rw [servedCourse, h3, Nat.sub_self]
          exact List.prefix_append [_] _
      · rw [Eff.bind_fault h2]; trivial
    · rw [Eff.bind_threw (onWorld_threw h1)]
      exact ⟨[.got], rfl, begun_source h⟩
    · rw [Eff.bind_fault (onWorld_fault h1)]; trivial

theorem accepts_record {dest : Byte → Eff σ Unit} {st st' : Watched σ} {out : List Byte} (h : Accepts (fun x => watch .gave (dest x)) st out st') :
    st'.2 = st.2 ++ List.replicate out.length .gave := by
  induction h with
  | nil => simp
  | cons h1 _ ih =>
    rename_i w w1 w2 b bs _
    obtain ⟨w, tr⟩ := w
    rcases watch_cases .gave (dest b) w tr with ⟨x, w', _, h2⟩ | ⟨w', _, h2⟩ | ⟨g, _, h2⟩
    · have h3 := h2.symm.trans h1
      injection h3 with _ h3
      subst h3
      rw [ih]; simp [List.replicate_succ]
    · exact nomatch h2.symm.trans h1
    · exact nomatch h2.symm.trans h1

/-- What `write_to` records. -/
theorem write_record {ρ : Type} (dest : Byte → Eff σ Unit) {out : List Byte} {b : Buf ρ} (h : Unread b out) (w : σ) (tr : List Deed) :
    match Buf.writeTo (fun x => watch .gave (dest x)) (b, (w, tr)) with
    | .ret _ (_, (_, tr')) => tr' = tr ++ List.replicate out.length .gave
    | .threw (_, (_, tr')) => ∃ k, k ≤ out.length ∧ tr' = tr ++ List.replicate k .gave
    | .fault _ => True := by
  rcases writeTo_cases (fun x => watch .gave (dest x)) (w := (w, tr)) h with ⟨w', h1, h2⟩ | ⟨sent, x, rest, w1, h1, h2, ⟨w', h3, _, h4⟩ | ⟨g, _, h4⟩⟩
  · rw [h2]
    exact accepts_record h1
  · rw [h4]
    refine ⟨sent.length + 1, by rw [h1]; simp, ?_⟩
    have h5 := accepts_record h2
    obtain ⟨w1, tr1⟩ := w1
    rcases watch_cases .gave (dest x) w1 tr1 with ⟨x, w', _, h6⟩ | ⟨w', _, h6⟩ | ⟨g, _, h6⟩
    · exact nomatch h6.symm.trans h3
    · have h7 := h6.symm.trans h3
      injection h7 with h7
      subst h7
      show tr1 ++ [Deed.gave] = _
      have h5 : tr1 = tr ++ _ := h5
      rw [h5, List.append_assoc]
      congr 1
      rw [List.replicate_succ']
    · exact nomatch h6.symm.trans h3
  · rw [h4]; trivial

end Upd
