import Verif.Spec.PyNames

/-!
# Lemmas about the names of the keys exposed to Python
-/

namespace Upd

theorem isBlank_iff (b : Char) : isBlank b = true ↔ b ∈ blanks := by
  unfold isBlank blanks
  simp only [Bool.or_eq_true, beq_iff_eq, List.mem_cons, List.not_mem_nil, or_false]
  constructor
  · rintro (((((h | h) | h) | h) | h) | h) <;> simp [h]
  · rintro (h | h | h | h | h | h) <;> simp [h]

theorem isBlank_false {b : Char} (h : b ∉ blanks) : isBlank b = false := by
  cases e : isBlank b with
  | false => rfl
  | true => exact absurd ((isBlank_iff b).1 e) h

theorem isWord_iff (c : Char) : isWord c = true ↔ c.isAlphanum = true ∨ c = '_' := by
  unfold isWord
  simp only [Bool.or_eq_true, beq_iff_eq]

theorem isDot_iff (c : Char) : isDot c = true ↔ c ≠ '\n' ∧ c ≠ '\r' := by
  unfold isDot
  simp only [Bool.and_eq_true, bne_iff_ne]

theorem Identifier.word {id : List Char} (h : Identifier id) : ∀ c ∈ id, isWord c = true := fun c hc => (isWord_iff c).2 (h.2 c hc)

theorem OneLine.dot {s : List Char} (h : OneLine s) : ∀ c ∈ s, isDot c = true := fun c hc => (isDot_iff c).2 (h c hc)

theorem oneLine_of_dot {s : List Char} (h : ∀ c ∈ s, isDot c = true) : OneLine s := fun c hc => (isDot_iff c).1 (h c hc)

theorem demangle_strip (s : List Char) : demangle (unevaluatedText ++ s) = search s := by
  unfold demangle
  rw [List.take_left, if_pos rfl, List.drop_left]

theorem search_of_suffix {t : List Char} {name : List Char} (h : search t = some name) : ∀ {s : List Char}, OneLine s →
    search (s ++ t) = some name
  | [], _ => h
  | c :: s, hs => by
    rw [List.cons_append]
    unfold search
    rw [if_pos (OneLine.dot hs c (List.mem_cons_self ..)), search_of_suffix h (fun d hd => hs d (List.mem_cons_of_mem _ hd))]

/-- Without the separator, nothing is found. -/
theorem search_none : ∀ {s : List Char}, NoAmp s → search s = none
  | [], _ => rfl
  | c :: t, h => by
    have ht : NoAmp t := fun l b r e => h (c :: l) b r (by rw [e]; rfl)
    have h1 : (if isDot c then search t else none) = none := by rw [search_none ht]; split <;> rfl
    unfold search
    rw [h1]
    simp only []
    split
    · rename_i b s
      rw [isBlank_false (h [] b s rfl)]
      rfl
    · rfl


theorem takeWhile_word {id : List Char} (hid : ∀ c ∈ id, isWord c = true) {c : Char} (hc : isWord c = false) (r : List Char) :
    (id ++ c :: r).takeWhile isWord = id ∧ (id ++ c :: r).dropWhile isWord = c :: r := by
  induction id with
  | nil => simp [hc]
  | cons d id ih =>
    have hd := hid d (List.mem_cons_self ..)
    have := ih (fun e he => hid e (List.mem_cons_of_mem _ he))
    simp [hd, this]

theorem word_head {id : List Char} (h : Identifier id) : ∃ c t, id = c :: t ∧ isWord c = true ∧ c ≠ '(' := by
  cases id with
  | nil => exact absurd rfl h.1
  | cons c t =>
    have hc := h.word c (List.mem_cons_self ..)
    refine ⟨c, t, rfl, hc, ?_⟩
    rintro rfl
    exact absurd hc (by decide)

theorem word_eq {id : List Char} (h : Identifier id) {c : Char} (hc : isWord c = false) {r : List Char} (hr : closes (c :: r) = true) :
    word (id ++ c :: r) = some id := by
  have ⟨h1, h2⟩ := takeWhile_word h.word hc r
  unfold word
  rw [h1, h2, if_pos ⟨h.1, hr⟩]

theorem skipParen_eq {c : Char} (hc : c ≠ '(') (t : List Char) : skipParen (c :: t) = c :: t := by
  unfold skipParen
  split
  · rename_i u hu
    exact absurd (List.cons.inj hu).1 hc
  · rfl

theorem captured_paren {id : List Char} (h : Identifier id) {c : Char} (hc : isWord c = false) {r : List Char} (hr : closes (c :: r) = true) :
    captured ('(' :: (id ++ c :: r)) = some id := word_eq h hc hr

theorem captured_plain {id : List Char} (h : Identifier id) {c : Char} (hc : isWord c = false) {r : List Char} (hr : closes (c :: r) = true) :
    captured (id ++ c :: r) = some id := by
  obtain ⟨d, t, rfl, _, hne⟩ := word_head h
  unfold captured
  rw [List.cons_append, skipParen_eq hne, ← List.cons_append]
  exact word_eq h hc hr

theorem closes_params {ps : List Char} (hp : OneLine ps) : closes ('(' :: (ps ++ [')', ')', '>'])) = true := by
  have e : ps ++ [')', ')', '>'] = (ps ++ [')']) ++ [')', '>'] := by simp
  have hl : ((ps ++ [')']) ++ [')', '>']).length - 2 = (ps ++ [')']).length := by simp
  unfold closes
  rw [e]
  simp only [hl, List.drop_left, List.take_left]
  have h2 : (ps ++ [')']).all isDot = true := by
    rw [List.all_append, List.all_eq_true.2 hp.dot]; rfl
  simp [h2]

theorem noAmp_cons {c : Char} (hc : c ≠ ',') {t : List Char} (h : NoAmp t) : NoAmp (c :: t) := by
  intro l b r e
  cases l with
  | nil => exact absurd (List.cons.inj e).1 hc
  | cons d l => exact h l b r (List.cons.inj e).2

theorem noAmp_word {id t : List Char} (hid : ∀ c ∈ id, isWord c = true) (h : NoAmp t) : NoAmp (id ++ t) := by
  induction id with
  | nil => exact h
  | cons c id ih =>
    refine noAmp_cons ?_ (ih fun d hd => hid d (List.mem_cons_of_mem _ hd))
    rintro rfl
    exact absurd (hid _ (List.mem_cons_self ..)) (by decide)

theorem noAmp_append {s q : List Char} (h : NoAmp s) (hq : '&' ∉ q) : NoAmp (s ++ q) := by
  induction s with
  | nil =>
    intro l b r e
    exact absurd (by rw [List.nil_append] at e; rw [e]; simp) hq
  | cons c s ih =>
    have hs : NoAmp s := fun l b r e => h (c :: l) b r (by rw [e]; rfl)
    intro l b r e
    cases l with
    | cons d l => exact ih hs l b r (List.cons.inj e).2
    | nil =>
      have e1 := List.cons.inj e
      have e2 : s ++ q = b :: '&' :: r := e1.2
      have ec : c = ',' := e1.1
      clear e1 e
      subst ec
      match s, e2 with
      | [], e => exact absurd (by rw [show q = b :: '&' :: r from e]; simp) hq
      | [_], e => exact absurd (by rw [show q = '&' :: r from (List.cons.inj e).2]; simp) hq
      | x :: y :: s, e =>
        have e3 := List.cons.inj e
        have e4 := (List.cons.inj e3.2).1
        rw [← e3.1]
        exact h [] x s (by rw [e4]; rfl)

/-- Nothing is found before a comma either. -/
theorem search_append_none {t : List Char} (ht : search (',' :: t) = none) : ∀ {s : List Char}, NoAmp s → search (s ++ ',' :: t) = none
  | [], _ => ht
  | c :: s, h => by
    have hs : NoAmp s := fun l b r e => h (c :: l) b r (by rw [e]; rfl)
    have h1 : (if isDot c then search (s ++ ',' :: t) else none) = none := by rw [search_append_none ht hs]; split <;> rfl
    rw [List.cons_append]
    unfold search
    rw [h1]
    simp only []
    split
    · rename_i b u e
      match s, e with
      | [], e => rw [← (List.cons.inj e).1]; rfl
      | [_], e => exact absurd (List.cons.inj (List.cons.inj e).2).1 (by decide)
      | x :: y :: s, e =>
        have e3 := List.cons.inj e
        have e4 := (List.cons.inj e3.2).1
        rw [← e3.1, isBlank_false (h [] x s (by rw [e4]; rfl))]
        rfl
    · rfl

theorem search_sep (s : List Char) (h : NoAmp s) : search (',' :: ' ' :: '&' :: s) = captured s := by
  have h1 : search (' ' :: '&' :: s) = none := search_none (noAmp_cons (by decide) (noAmp_cons (by decide) h))
  unfold search
  simp only []
  rw [h1]
  rfl

theorem unevaluatedText_eq : "upd::unevaluated<".toList = unevaluatedText := rfl

theorem Callable.text_some {f : Callable} {ps : List Char} (h : f.params = some ps) :
    f.text = unevaluatedText ++ (f.type ++ ',' :: ' ' :: '&' :: '(' :: (f.path ++ (f.name ++ '(' :: (ps ++ [')', ')', '>'])))) := by
  unfold Callable.text
  rw [h, unevaluatedText_eq]
  simp

theorem Callable.text_none {f : Callable} (h : f.params = none) :
    f.text = unevaluatedText ++ (f.type ++ ',' :: ' ' :: '&' :: (f.path ++ (f.name ++ ['>']))) := by
  unfold Callable.text
  rw [h, unevaluatedText_eq]
  simp

theorem noAmp_of_not_mem {s : List Char} (h : '&' ∉ s) : NoAmp s := noAmp_append (s := []) (fun l b r e => by simp at e) h

theorem demangle_plain {f : Callable} (h : f.Plain) : demangle f.text = some f.name := by
  cases hp : f.params with
  | some ps =>
    have ⟨h1, h2⟩ := h.params ps hp
    rw [Callable.text_some hp, demangle_strip, h.path, List.nil_append]
    refine search_of_suffix ?_ h.type
    rw [search_sep _ (noAmp_cons (by decide) (noAmp_word h.name.word (noAmp_cons (by decide) (noAmp_append h2 (by decide)))))]
    exact captured_paren h.name (by decide) (closes_params h1)
  | none =>
    rw [Callable.text_none hp, demangle_strip, h.path, List.nil_append]
    refine search_of_suffix ?_ h.type
    rw [search_sep _ (noAmp_word h.name.word (noAmp_of_not_mem (by decide)))]
    exact captured_plain h.name (by decide) (by decide)

theorem word_colon {q : List Char} (h : Identifier q) (r : List Char) : word (q ++ ':' :: r) = none := by
  have ⟨h1, h2⟩ := takeWhile_word h.word (show isWord ':' = false by decide) r
  unfold word
  rw [h1, h2, if_neg]
  rintro ⟨_, h3⟩
  simp [closes] at h3

theorem noAmp_no_comma {s t : List Char} (hs : ',' ∉ s) (h : NoAmp t) : NoAmp (s ++ t) := by
  induction s with
  | nil => exact h
  | cons c s ih =>
    refine noAmp_cons ?_ (ih fun d => hs (List.mem_cons_of_mem _ d))
    rintro rfl
    exact hs (List.mem_cons_self ..)

theorem demangle_qualified {f : Callable} (h : f.Qualified) : demangle f.text = none := by
  obtain ⟨q, r, e, hq, hr, hc⟩ := h.path
  cases hp : f.params with
  | some ps =>
    rw [Callable.text_some hp, demangle_strip, e]
    have ht : NoAmp (q ++ ':' :: (r ++ (f.name ++ '(' :: (ps ++ [')', ')', '>'])))) :=
      noAmp_word hq.word (noAmp_cons (by decide) (noAmp_no_comma hc (noAmp_word h.name.word (noAmp_cons (by decide)
        (noAmp_append (h.params ps hp) (by decide))))))
    refine search_append_none ?_ h.type
    rw [List.append_assoc, List.cons_append, search_sep _ (noAmp_cons (by decide) ht)]
    exact word_colon hq _
  | none =>
    rw [Callable.text_none hp, demangle_strip, e]
    have ht : NoAmp (q ++ ':' :: (r ++ (f.name ++ ['>']))) :=
      noAmp_word hq.word (noAmp_cons (by decide) (noAmp_no_comma hc (noAmp_word h.name.word (noAmp_of_not_mem (by decide)))))
    refine search_append_none ?_ h.type
    rw [List.append_assoc, List.cons_append, search_sep _ ht]
    obtain ⟨d, t, rfl, _, hne⟩ := word_head hq
    unfold captured
    rw [List.cons_append, skipParen_eq hne, ← List.cons_append]
    exact word_colon hq _

theorem get_set_same (m : PyMod) (n : List Char) (x : PyVal) : (m.set n x).get n = some x := by
  simp [PyMod.get, PyMod.set]

theorem get_set_ne (m : PyMod) {n n' : List Char} (x : PyVal) (h : n' ≠ n) : (m.set n x).get n' = m.get n' := by
  have h1 : (n == n') = false := by simpa using Ne.symm h
  unfold PyMod.get PyMod.set
  simp only [List.find?_cons, h1]
  congr 1
  rw [List.find?_filter]
  congr 1
  funext a
  by_cases ha : a.1 = n'
  · simp [ha, h]
  · simp [ha]

theorem drop_prefix (name : List Char) : (pykeyPrefix ++ name).drop 2 = name := rfl

theorem definePyKey_ok {k i : Nat} {name type : List Char} {m : PyMod} (h1 : m.get (pykeyPrefix ++ name) = none) (h2 : (i, type) ∉ m.types) :
    definePyKey k i name type m = some (({ m.set (pykeyPrefix ++ name) .cls with types := (i, type) :: m.types } : PyMod).set name (.key k i)) := by
  unfold definePyKey PyMod.define
  rw [h1, if_neg (by simp), if_neg h2]
  rfl

/-- What is left untouched by `definePyKeys`, and what is defined. -/
theorem definePyKeys_ok (k : Nat) : ∀ (fs : List (Callable × List Char)) (i : Nat) (m : PyMod),
    (∀ f ∈ fs, f.1.Plain ∧ Unreserved f.1.name ∧ m.get (pykeyPrefix ++ f.1.name) = none) → (fs.map (·.1.name)).Nodup →
    (∀ j f, fs[j]? = some f → (i + j, f.2) ∉ m.types) →
    ∃ m', definePyKeys k i (pyKeys fs) m = some m' ∧
      (∀ j f, fs[j]? = some f → m'.get f.1.name = some (.key k (i + j)) ∧ m'.get (pykeyPrefix ++ f.1.name) = some .cls) ∧
      ∀ n, (∀ f ∈ fs, n ≠ f.1.name ∧ n ≠ pykeyPrefix ++ f.1.name) → m'.get n = m.get n
  | [], i, m, _, _, _ => ⟨m, rfl, by simp, fun _ _ => rfl⟩
  | (f, t) :: fs, i, m, h, hn, ht => by
    have ⟨hf, hu, hg⟩ := h (f, t) (List.mem_cons_self ..)
    have ht0 : (i, t) ∉ m.types := ht 0 (f, t) rfl
    rw [List.map_cons, List.nodup_cons] at hn
    let m1 : PyMod := ({ m.set (pykeyPrefix ++ f.name) .cls with types := (i, t) :: m.types } : PyMod).set f.name (.key k i)
    have hne : ∀ n : List Char, Unreserved n → ∀ n', n ≠ pykeyPrefix ++ n' := by
      intro n hun n' e
      exact hun (by rw [e]; rfl)
    have hinj : ∀ n n' : List Char, pykeyPrefix ++ n = pykeyPrefix ++ n' → n = n' := fun n n' e => List.append_cancel_left e
    have g1 : ∀ n, n ≠ f.name → n ≠ pykeyPrefix ++ f.name → m1.get n = m.get n := by
      intro n h1 h2
      show (PyMod.set _ _ _).get n = _
      rw [get_set_ne _ _ h1]
      exact get_set_ne m _ h2
    have g2 : m1.get f.name = some (.key k i) := get_set_same _ _ _
    have g3 : m1.get (pykeyPrefix ++ f.name) = some .cls := by
      show (PyMod.set _ _ _).get _ = _
      rw [get_set_ne _ _ (Ne.symm (hne _ hu _))]
      exact get_set_same m _ _
    have mem : ∀ g ∈ fs, g.1.name ≠ f.name := by
      intro g hg' e
      exact hn.1 (e ▸ List.mem_map_of_mem (f := (·.1.name)) hg')
    obtain ⟨m', e, ha, hb⟩ := definePyKeys_ok k fs (i + 1) m1
      (by
        intro g hg'
        have ⟨h1, h2, h3⟩ := h g (List.mem_cons_of_mem _ hg')
        refine ⟨h1, h2, ?_⟩
        rw [g1 _ (Ne.symm (hne _ hu _)) (fun e => mem g hg' (hinj _ _ e)), h3])
      hn.2
      (by
        intro j g hj hmem
        have := ht (j + 1) g (by simpa using hj)
        rcases List.mem_cons.1 hmem with e | hmem
        · have := (Prod.mk.inj e).1
          omega
        · exact this (by rw [show i + (j + 1) = i + 1 + j by omega]; exact hmem))
    refine ⟨m', ?_, ?_, ?_⟩
    · show (match demangle f.text with | none => none | some name => _) = _
      rw [demangle_plain hf]
      show (match definePyKey k i f.name t m with | none => none | some m => _) = _
      rw [definePyKey_ok hg ht0]
      exact e
    · intro j g hj
      cases j with
      | zero =>
        obtain rfl : (f, t) = g := by simpa using hj
        have hx : ∀ n, n = f.name ∨ n = pykeyPrefix ++ f.name → ∀ g ∈ fs, n ≠ g.1.name ∧ n ≠ pykeyPrefix ++ g.1.name := by
          rintro n (rfl | rfl) g hg'
          · exact ⟨Ne.symm (mem g hg'), hne _ hu _⟩
          · exact ⟨Ne.symm (hne _ (h g (List.mem_cons_of_mem _ hg')).2.1 _), fun e => mem g hg' (hinj _ _ e).symm⟩
        exact ⟨(hb _ (hx _ (.inl rfl))).trans g2, (hb _ (hx _ (.inr rfl))).trans g3⟩
      | succ j =>
        have := ha j g (by simpa using hj)
        rw [show i + (j + 1) = i + 1 + j by omega]
        exact this
    · intro n hn'
      have h0 := hn' (f, t) (List.mem_cons_self ..)
      rw [hb n fun g hg' => hn' g (List.mem_cons_of_mem _ hg'), g1 n h0.1 h0.2]

/-- What is defined stays so. -/
structure PyMod.Le (m m' : PyMod) : Prop where
  attrs : ∀ n, (m.get n).isSome → (m'.get n).isSome
  types : ∀ t ∈ m.types, t ∈ m'.types

theorem set_le (m : PyMod) (n : List Char) (x : PyVal) : PyMod.Le m (m.set n x) := by
  refine ⟨fun n' h => ?_, fun _ h => h⟩
  by_cases e : n' = n
  · rw [e, get_set_same]; rfl
  · rwa [get_set_ne _ _ e]

theorem PyMod.Le.trans {a b c : PyMod} (h : PyMod.Le a b) (h' : PyMod.Le b c) : PyMod.Le a c :=
  ⟨fun n x => h'.1 n (h.1 n x), fun t x => h'.2 t (h.2 t x)⟩

theorem definePyKey_le {k i : Nat} {name type : List Char} {m m' : PyMod} (h : definePyKey k i name type m = some m') :
    m.get (pykeyPrefix ++ name) = none ∧ (i, type) ∉ m.types ∧ PyMod.Le m m' ∧ (m'.get (pykeyPrefix ++ name)).isSome ∧ (i, type) ∈ m'.types := by
  unfold definePyKey PyMod.define at h
  split at h
  · simp at h
  · rename_i h1
    split at h
    · simp at h
    · rename_i h2
      simp only [Option.map_some, Option.some.injEq] at h
      have h0 : PyMod.Le m { m.set (pykeyPrefix ++ name) .cls with types := (i, type) :: m.types } :=
        ⟨(set_le m (pykeyPrefix ++ name) .cls).1, fun t x => List.mem_cons_of_mem _ x⟩
      have h3 := set_le { m.set (pykeyPrefix ++ name) .cls with types := (i, type) :: m.types } ((pykeyPrefix ++ name).drop 2) (.key k i)
      rw [h] at h3
      refine ⟨by simpa using h1, h2, h0.trans h3, h3.1 _ ?_, h3.2 _ (List.mem_cons_self ..)⟩
      show ((m.set (pykeyPrefix ++ name) .cls).get (pykeyPrefix ++ name)).isSome
      rw [get_set_same]
      rfl

/-- When every key has been defined: the class of each was not defined before, nor was its type. -/
theorem definePyKeys_inv (k : Nat) : ∀ (keys : List PyKey) (i : Nat) (m m' : PyMod), definePyKeys k i keys m = some m' →
    PyMod.Le m m' ∧ ∀ j key, keys[j]? = some key → ∃ name, demangle key.text = some name ∧ m.get (pykeyPrefix ++ name) = none ∧
      (i + j, key.type) ∉ m.types ∧ (m'.get (pykeyPrefix ++ name)).isSome ∧ (i + j, key.type) ∈ m'.types
  | [], i, m, m', h => by
    cases h
    exact ⟨⟨fun _ x => x, fun _ x => x⟩, by simp⟩
  | key :: keys, i, m, m', h => by
    unfold definePyKeys at h
    cases hd : demangle key.text with
    | none => rw [hd] at h; cases h
    | some name =>
      rw [hd] at h
      simp only [] at h
      cases hk : definePyKey k i name key.type m with
      | none => rw [hk] at h; cases h
      | some m1 =>
        rw [hk] at h
        have ⟨a1, a2, a3, a4, a5⟩ := definePyKey_le hk
        have ⟨b1, b2⟩ := definePyKeys_inv k keys (i + 1) m1 m' h
        refine ⟨a3.trans b1, fun j key' hj => ?_⟩
        cases j with
        | zero =>
          obtain rfl : key = key' := by simpa using hj
          exact ⟨name, hd, a1, a2, b1.1 _ a4, b1.2 _ a5⟩
        | succ j =>
          obtain ⟨name', c1, c2, c3, c4, c5⟩ := b2 j key' (by simpa using hj)
          rw [show i + (j + 1) = i + 1 + j by omega]
          refine ⟨name', c1, ?_, fun x => c3 (a3.2 _ x), c4, c5⟩
          cases hx : m.get (pykeyPrefix ++ name') with
          | none => rfl
          | some v =>
            have := a3.1 (pykeyPrefix ++ name') (by rw [hx]; rfl)
            rw [c2] at this
            cases this

theorem closes_iff (r : List Char) : closes r = true ↔
    ∃ params closing, r = params ++ closing ++ ['>'] ∧ (params = [] ∨ ∃ ps, OneLine ps ∧ params = ['('] ++ ps ++ [')']) ∧ (closing = [] ∨ closing = [')']) := by
  constructor
  · intro h
    unfold closes at h
    simp only [Bool.or_eq_true, beq_iff_eq] at h
    rcases h with (h | h) | h
    · exact ⟨[], [], by rw [h]; rfl, .inl rfl, .inl rfl⟩
    · exact ⟨[], [')'], by rw [h]; rfl, .inl rfl, .inr rfl⟩
    · split at h
      case h_2 => cases h
      case h_1 m =>
        simp only [Bool.and_eq_true, beq_iff_eq, decide_eq_true_eq, List.all_eq_true] at h
        obtain ⟨⟨_, h2⟩, h3⟩ := h
        refine ⟨['('] ++ m.take (m.length - 2) ++ [')'], [], ?_, .inr ⟨_, oneLine_of_dot h3, rfl⟩, .inl rfl⟩
        have := List.take_append_drop (m.length - 2) m
        rw [h2] at this
        simp only [List.append_nil, List.append_assoc, List.cons_append, List.nil_append]
        rw [this]
  · have group : ∀ q : List Char, OneLine q → closes ('(' :: (q ++ [')', '>'])) = true := by
      intro q hq
      have hl : (q ++ [')', '>']).length - 2 = q.length := by simp
      unfold closes
      simp only [hl, List.drop_left, List.take_left]
      simp [List.all_eq_true.2 hq.dot]
    rintro ⟨params, closing, rfl, rfl | ⟨ps, hp, rfl⟩, rfl | rfl⟩
    · rfl
    · rfl
    · simpa using group ps hp
    · simpa using closes_params hp

theorem closes_head {r : List Char} (h : closes r = true) : ∃ c t, r = c :: t ∧ isWord c = false := by
  obtain ⟨params, closing, rfl, rfl | ⟨ps, hp, rfl⟩, rfl | rfl⟩ := (closes_iff r).1 h
  · exact ⟨'>', [], rfl, by decide⟩
  · exact ⟨')', ['>'], rfl, by decide⟩
  · exact ⟨'(', _, rfl, by decide⟩
  · exact ⟨'(', _, rfl, by decide⟩

theorem captured_iff (s id : List Char) : captured s = some id ↔ ∃ opening r, s = opening ++ id ++ r ∧ (opening = [] ∨ opening = ['(']) ∧ Identifier id ∧ closes r = true := by
  have hword : ∀ t, word t = some id → ∃ r, t = id ++ r ∧ Identifier id ∧ closes r = true := by
    intro t h
    unfold word at h
    split at h
    case isFalse => cases h
    case isTrue hc =>
      cases h
      exact ⟨t.dropWhile isWord, List.takeWhile_append_dropWhile.symm, ⟨hc.1, fun c hc => (isWord_iff c).1 (by simpa using List.all_eq_true.1 List.all_takeWhile c hc)⟩, hc.2⟩
  constructor
  · intro h
    unfold captured skipParen at h
    split at h
    · obtain ⟨r, e, h1, h2⟩ := hword _ h
      exact ⟨['('], r, by rw [e]; rfl, .inr rfl, h1, h2⟩
    · obtain ⟨r, e, h1, h2⟩ := hword _ h
      exact ⟨[], r, e, .inl rfl, h1, h2⟩
  · rintro ⟨opening, r, rfl, ho, h1, h2⟩
    obtain ⟨c, t, rfl, hc⟩ := closes_head h2
    rcases ho with rfl | rfl
    · exact captured_plain h1 hc h2
    · exact captured_paren h1 hc h2

theorem oneLine_nil : OneLine [] := fun _ h => nomatch h

/-- What `search` finds, as positions. -/
theorem search_iff : ∀ (s id : List Char), search s = some id ↔
    ∃ a b t, s = a ++ ',' :: b :: '&' :: t ∧ OneLine a ∧ isBlank b = true ∧ captured t = some id ∧
      ∀ a' b' t' id', s = a' ++ ',' :: b' :: '&' :: t' → OneLine a' → isBlank b' = true → captured t' = some id' → a'.length ≤ a.length
  | [], id => by
    constructor
    · intro h; cases h
    · rintro ⟨a, b, t, e, _⟩
      exact absurd (congrArg List.length e) (by simp)
  | c :: s, id => by
    have ih := search_iff s
    -- a decomposition of the tail
    have up : ∀ {a b t id'}, s = a ++ ',' :: b :: '&' :: t → OneLine a → isBlank b = true → captured t = some id' → ∃ id'', search s = some id'' := by
      intro a b t id' e ha hb hc
      rcases hs : search s with _ | x
      · exfalso
        -- take the longest one
        have : ∀ n, ∀ a b t id', s = a ++ ',' :: b :: '&' :: t → OneLine a → isBlank b = true → captured t = some id' → s.length - a.length = n → False := by
          intro n
          induction n using Nat.strongRecOn with
          | ind n ihn =>
            intro a b t id' e ha hb hc hn
            have := (ih id').2 ⟨a, b, t, e, ha, hb, hc, by
              intro a' b' t' id'' e' ha' hb' hc'
              refine Nat.le_of_not_lt fun hlt => ?_
              refine ihn (s.length - a'.length) ?_ a' b' t' id'' e' ha' hb' hc' rfl
              have := congrArg List.length e'
              simp at this
              omega⟩
            rw [hs] at this
            cases this
        exact this _ a b t id' e ha hb hc rfl
      · exact ⟨x, rfl⟩
    unfold search
    rcases hd : isDot c with _ | _
    · -- the first character is not matched by `.*`
      have none_tail : ∀ {a b t}, c :: s = a ++ ',' :: b :: '&' :: t → OneLine a → a = [] := by
        intro a b t e ha
        cases a with
        | nil => rfl
        | cons d a =>
          have := ha.dot d (List.mem_cons_self ..)
          rw [← (List.cons.inj e).1, hd] at this
          cases this
      simp only [Bool.false_eq_true, if_false]
      constructor
      · intro h
        split at h
        · rename_i b t
          split at h
          · rename_i hb
            exact ⟨[], b, t, rfl, oneLine_nil, hb, h, by intro a' b' t' id' e' ha' _ _; rw [none_tail e' ha']; exact Nat.le_refl _⟩
          · cases h
        · cases h
      · rintro ⟨a, b, t, e, ha, hb, hc, _⟩
        have := none_tail e ha
        subst this
        cases (List.cons.inj e).1
        have e2 := (List.cons.inj e).2
        subst e2
        simp only [hb, if_true]
        exact hc
    · simp only [if_true]
      rcases hs : search s with _ | x
      · have no_tail : ∀ {a b t id'}, c :: s = a ++ ',' :: b :: '&' :: t → OneLine a → isBlank b = true → captured t = some id' → a = [] := by
          intro a b t id' e ha hb hc
          cases a with
          | nil => rfl
          | cons d a =>
            obtain ⟨y, hy⟩ := up (List.cons.inj e).2 (fun x hx => ha x (List.mem_cons_of_mem _ hx)) hb hc
            rw [hs] at hy
            cases hy
        simp only
        constructor
        · intro h
          split at h
          · rename_i b t
            split at h
            · rename_i hb
              exact ⟨[], b, t, rfl, oneLine_nil, hb, h, by intro a' b' t' id' e' ha' hb' hc'; rw [no_tail e' ha' hb' hc']; exact Nat.le_refl _⟩
            · cases h
          · cases h
        · rintro ⟨a, b, t, e, ha, hb, hc, _⟩
          have := no_tail e ha hb hc
          subst this
          cases (List.cons.inj e).1
          have e2 := (List.cons.inj e).2
          subst e2
          simp only [hb, if_true]
          exact hc
      · obtain ⟨a, b, t, e, ha, hb, hc, hm⟩ := (ih x).1 hs
        have hone : OneLine (c :: a) := by
          intro d hd'
          rcases List.mem_cons.1 hd' with rfl | h
          · exact (isDot_iff _).1 hd
          · exact ha d h
        have hmax : ∀ a' b' t' id', c :: s = a' ++ ',' :: b' :: '&' :: t' → OneLine a' → isBlank b' = true → captured t' = some id' → a'.length ≤ (c :: a).length := by
          intro a' b' t' id' e' ha' hb' hc'
          cases a' with
          | nil => simp
          | cons d a' =>
            have := hm a' b' t' id' (List.cons.inj e').2 (fun x hx => ha' x (List.mem_cons_of_mem _ hx)) hb' hc'
            simp only [List.length_cons]
            omega
        simp only [Option.some.injEq]
        constructor
        · rintro rfl
          exact ⟨c :: a, b, t, by rw [e]; rfl, hone, hb, hc, hmax⟩
        · rintro ⟨a', b', t', e', ha', hb', hc', hm'⟩
          have l1 := hmax a' b' t' id e' ha' hb' hc'
          have l2 := hm' (c :: a) b t x (by rw [e]; rfl) hone hb hc
          have e2 : a' ++ ',' :: b' :: '&' :: t' = (c :: a) ++ ',' :: b :: '&' :: t := by rw [← e', e]; rfl
          obtain ⟨_, h2⟩ := List.append_inj e2 (Nat.le_antisymm l1 l2)
          have h3 : t' = t := by simpa using (List.cons.inj (List.cons.inj (List.cons.inj h2).2).2).2
          rw [h3, hc] at hc'
          exact Option.some.inj hc'

theorem matchesAt_iff (before name text : List Char) : MatchesAt before name text ↔
    ∃ b t, text = unevaluatedText ++ (before ++ ',' :: b :: '&' :: t) ∧ OneLine before ∧ isBlank b = true ∧ captured t = some name := by
  constructor
  · rintro ⟨b, o, ps, cl, e, h1, h2, h3, h4, h5, h6⟩
    refine ⟨b, o ++ name ++ (ps ++ cl ++ ['>']), ?_, h1, (isBlank_iff b).2 h2, (captured_iff _ _).2 ⟨o, _, rfl, h3, h4, (closes_iff _).2 ⟨ps, cl, rfl, h5, h6⟩⟩⟩
    rw [e, unevaluatedText_eq]
    simp
  · rintro ⟨b, t, e, h1, h2, h3⟩
    obtain ⟨o, r, rfl, ho, hi, hr⟩ := (captured_iff _ _).1 h3
    obtain ⟨ps, cl, rfl, h5, h6⟩ := (closes_iff _).1 hr
    refine ⟨b, o, ps, cl, ?_, h1, (isBlank_iff b).1 h2, ho, hi, h5, h6⟩
    rw [e, unevaluatedText_eq]
    simp

end Upd
