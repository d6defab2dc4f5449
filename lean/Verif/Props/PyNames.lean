import Verif.Lemmas.PyNames

/-!
# Names of the keys exposed to Python (C74)

A user of `unpack_keyring` expects every function of the keyring under its name in the Python module.
-/

namespace Upd

/-- Namespaces around a name: nothing, or identifiers followed by `::`. -/
inductive ValidPath : List Char → Prop where
  | nil : ValidPath []
  | cons {q r : List Char} : Identifier q → ValidPath r → ValidPath (q ++ ':' :: ':' :: r)

/-- The full statement: when the functions of a keyring have distinct names, the module gets every key under the name of its function. -/
def C74_Statement : Prop :=
  ∀ fs : List (Callable × List Char),
    (∀ f ∈ fs, Identifier f.1.name ∧ Unreserved f.1.name ∧ ValidPath f.1.path ∧ OneLine f.1.type ∧ ∀ ps, f.1.params = some ps → OneLine ps) →
    (fs.map (·.1.name)).Nodup →
    ∃ m, unpackKeyring 0 (pyKeys fs) ⟨[], []⟩ = some m ∧ ∀ i f, fs[i]? = some f → m.get f.1.name = some (.key 0 i)

/-- `namespace ns { void f(); }`. -/
def nsF : Callable := { type := "void (*)()".toList, path := "ns::".toList, name := "f".toList, params := some [] }

theorem oneLine_of {s : List Char} (h : s.all isDot = true) : OneLine s := oneLine_of_dot (List.all_eq_true.1 h)

theorem identifier_of {s : List Char} (h : s ≠ []) (h' : s.all isWord = true) : Identifier s :=
  ⟨h, fun c hc => (isWord_iff c).1 (List.all_eq_true.1 h' c hc)⟩

/-- **C74** is false: the module of a keyring which holds a function of a namespace cannot be imported. -/
theorem C74_full_statement_is_false : ¬ C74_Statement := by
  intro h
  obtain ⟨m, e, _⟩ := h [(nsF, "uint8_t, void ()".toList)]
    (by
      intro f hf
      rw [List.mem_singleton] at hf
      subst hf
      refine ⟨identifier_of (by decide) (by decide), by decide, ?_, oneLine_of (by decide), ?_⟩
      · exact ValidPath.cons (q := "ns".toList) (r := []) (identifier_of (by decide) (by decide)) .nil
      · intro ps hps
        cases hps
        intro c hc
        cases hc)
    (by simp)
  have e' : unpackKeyring 0 (pyKeys [(nsF, "uint8_t, void ()".toList)]) ⟨[], []⟩ = none := by decide +kernel
  rw [e'] at e
  cases e

/-- **C74**, for global functions and objects. Missing: functions of namespaces (`C74_qualified`), and functions with a parameter whose type has a pointer
among its template arguments (`C74_misnamed`).

The key of index `i` is the attribute whose name is the one of its function, its class has the same name with a prefix, and the other attributes of the
module are left as they were. -/
theorem C74_names_partial (k : Nat) (fs : List (Callable × List Char)) (m : PyMod)
    (hf : ∀ f ∈ fs, f.1.Plain ∧ Unreserved f.1.name ∧ m.get ("__".toList ++ f.1.name) = none)
    (hn : (fs.map (·.1.name)).Nodup) (ht : ∀ i f, fs[i]? = some f → (i, f.2) ∉ m.types) :
    ∃ m', unpackKeyring k (pyKeys fs) m = some m' ∧
      (∀ i f, fs[i]? = some f → m'.get f.1.name = some (.key k i) ∧ m'.get ("__".toList ++ f.1.name) = some .cls) ∧
      ∀ n, (∀ f ∈ fs, n ≠ f.1.name ∧ n ≠ "__".toList ++ f.1.name) → m'.get n = m.get n := by
  obtain ⟨m', h1, h2, h3⟩ := definePyKeys_ok k fs 0 m hf hn (by intro j f hj; rw [Nat.zero_add]; exact ht j f hj)
  refine ⟨m', h1, fun i f hi => ?_, h3⟩
  have := h2 i f hi
  rwa [Nat.zero_add] at this

/-- The same of `declare_dispatcher`: the class of the dispatchers is defined as well. -/
theorem C74_dispatcher_partial (k : Nat) (name : List Char) (fs : List (Callable × List Char)) (m : PyMod) (h0 : m.get name = none)
    (hf : ∀ f ∈ fs, f.1.Plain ∧ Unreserved f.1.name ∧ m.get ("__".toList ++ f.1.name) = none ∧ name ≠ f.1.name ∧ name ≠ "__".toList ++ f.1.name)
    (hn : (fs.map (·.1.name)).Nodup) (ht : ∀ i f, fs[i]? = some f → (i, f.2) ∉ m.types) :
    ∃ m', declareDispatcher k name (pyKeys fs) m = some m' ∧ m'.get name = some .cls ∧
      (∀ i f, fs[i]? = some f → m'.get f.1.name = some (.key k i)) ∧
      ∀ n, n ≠ name → (∀ f ∈ fs, n ≠ f.1.name ∧ n ≠ "__".toList ++ f.1.name) → m'.get n = m.get n := by
  obtain ⟨m', h1, h2, h3⟩ := C74_names_partial k fs (m.set name .cls)
    (fun f hf' => by
      have ⟨a, b, c, _, e⟩ := hf f hf'
      exact ⟨a, b, by rw [get_set_ne _ _ (Ne.symm e), c]⟩)
    hn ht
  refine ⟨m', ?_, ?_, fun i f hi => (h2 i f hi).1, fun n hne hn' => ?_⟩
  · unfold declareDispatcher
    rw [h0]
    exact h1
  · rw [h3 name fun f hf' => ⟨(hf f hf').2.2.2.1, (hf f hf').2.2.2.2⟩, get_set_same]
  · rw [h3 n hn', get_set_ne _ _ hne]

/-- A function of a namespace prevents the module from being imported, whatever the other functions are. -/
theorem C74_qualified (k : Nat) (fs : List (Callable × List Char)) (m : PyMod) (f : Callable × List Char) (hf : f ∈ fs) (hq : f.1.Qualified) :
    unpackKeyring k (pyKeys fs) m = none := by
  cases h : unpackKeyring k (pyKeys fs) m with
  | none => rfl
  | some m' =>
    obtain ⟨j, hj⟩ := List.mem_iff_getElem?.1 hf
    obtain ⟨name, e, _⟩ := (definePyKeys_inv k _ 0 m m' h).2 j ⟨f.1.text, f.2⟩ (by simp [pyKeys, hj])
    rw [demangle_qualified hq] at e
    cases e

theorem definePyKeys_append (k : Nat) (b : List PyKey) : ∀ (a : List PyKey) (i : Nat) (m m' : PyMod), definePyKeys k i (a ++ b) m = some m' →
    ∃ m1, definePyKeys k i a m = some m1 ∧ definePyKeys k (i + a.length) b m1 = some m'
  | [], i, m, m', h => ⟨m, rfl, h⟩
  | key :: a, i, m, m', h => by
    rw [List.cons_append] at h
    unfold definePyKeys at h ⊢
    cases hd : demangle key.text with
    | none => rw [hd] at h; cases h
    | some name =>
      rw [hd] at h
      simp only [] at h ⊢
      cases hk : definePyKey k i name key.type m with
      | none => rw [hk] at h; cases h
      | some m2 =>
        rw [hk] at h
        obtain ⟨m1, h1, h2⟩ := definePyKeys_append k b a (i + 1) m2 m' h
        refine ⟨m1, h1, ?_⟩
        have e : i + (key :: a).length = i + 1 + a.length := by rw [List.length_cons]; omega
        rw [← e] at h2
        rw [← h2]
        exact (definePyKeys.eq_def ..).symm

/-- Two functions of the same name (overloads) prevent the module from being imported as well. -/
theorem C74_overloads (k : Nat) (as bs cs : List (Callable × List Char)) (f g : Callable × List Char) (m : PyMod) (hf : f.1.Plain) (hg : g.1.Plain)
    (e : f.1.name = g.1.name) : unpackKeyring k (pyKeys (as ++ f :: bs ++ g :: cs)) m = none := by
  cases h : unpackKeyring k (pyKeys (as ++ f :: bs ++ g :: cs)) m with
  | none => rfl
  | some m' =>
    unfold unpackKeyring pyKeys at h
    rw [List.map_append] at h
    obtain ⟨m1, h1, h2⟩ := definePyKeys_append k _ _ _ _ _ h
    obtain ⟨n1, e1, _, _, x1, _⟩ := (definePyKeys_inv k _ _ _ _ h1).2 as.length ⟨f.1.text, f.2⟩ (by simp)
    obtain ⟨n2, e2, x2, _⟩ := (definePyKeys_inv k _ _ _ _ h2).2 0 ⟨g.1.text, g.2⟩ (by simp)
    rw [demangle_plain hf] at e1
    rw [demangle_plain hg] at e2
    cases e1
    cases e2
    rw [e, x2] at x1
    cases x1

/-- A key type can be bound only once: once a keyring has been exposed, a keyring with a function of the same index and signature (and the same type of
index, endianess and signed mode) cannot, even under another name. In particular, no keyring with a function can be exposed twice. -/
theorem C74_bound_once (k k' : Nat) (as bs : List PyKey) (m m1 : PyMod) (h : unpackKeyring k as m = some m1) (i : Nat) (a b : PyKey)
    (ha : as[i]? = some a) (hb : bs[i]? = some b) (e : a.type = b.type) : unpackKeyring k' bs m1 = none := by
  cases h' : unpackKeyring k' bs m1 with
  | none => rfl
  | some m' =>
    obtain ⟨_, _, _, _, _, x1⟩ := (definePyKeys_inv k _ _ _ _ h).2 i a ha
    obtain ⟨_, _, _, x2, _⟩ := (definePyKeys_inv k' _ _ _ _ h').2 i b hb
    rw [e] at x1
    exact absurd x1 x2

/-- `template<int, void (*)(int)> struct B; void g(int); void f(B<1, g>);`. -/
def badF : Callable :=
  { type := "void (*)(B<1, &(g(int))>)".toList, name := "f".toList, params := some "B<1, &(g(int))>".toList }

/-- A function may be exposed under the name of another: this one is found under the name `g`, and not under its own. -/
theorem C74_misnamed : ∃ m, unpackKeyring 0 (pyKeys [(badF, "uint8_t, void (B<1, g>)".toList)]) ⟨[], []⟩ = some m ∧
    m.get badF.name = none ∧ m.get "g".toList = some (.key 0 0) := by
  refine ⟨⟨[("g".toList, .key 0 0), ("__g".toList, .cls)], [(0, "uint8_t, void (B<1, g>)".toList)]⟩, ?_, ?_, ?_⟩
  · decide +kernel
  · decide +kernel
  · decide +kernel

/-- `uint8_t sum(int, const int &)` and an object `led` with an `operator()`. -/
def pySum : Callable :=
  { type := "unsigned char (*)(int, int const&)".toList, name := "sum".toList, params := some "int, int const&".toList }

def pyLed : Callable := { type := "Led*".toList, name := "led".toList, params := none }

theorem pySum_plain : pySum.Plain := by
  refine ⟨identifier_of (by decide) (by decide), rfl, oneLine_of (by decide), ?_⟩
  intro ps h
  cases h
  refine ⟨oneLine_of (by decide), ?_⟩
  have e : "int, int const&".toList = "int".toList ++ ',' :: ' ' :: 'i' :: "nt const&".toList := by decide
  rw [e]
  intro l b r h
  match l, h with
  | [], h => cases h
  | [_], h => cases h
  | [_, _], h => cases h
  | [_, _, _], h => cases h
  | _ :: _ :: _ :: _ :: l, h =>
    have h' := (List.cons.inj (List.cons.inj (List.cons.inj (List.cons.inj h).2).2).2).2
    have hm : ',' ∈ (' ' :: 'i' :: "nt const&".toList) := by
      rw [show (' ' :: 'i' :: "nt const&".toList) = l ++ ',' :: b :: '&' :: r from h']
      simp
    exact absurd hm (by decide)

theorem pyLed_plain : pyLed.Plain := ⟨identifier_of (by decide) (by decide), rfl, oneLine_of (by decide), by intro ps h; cases h⟩

/-- `C74_names_partial` is met by a keyring with a function and an object. -/
example : ∃ m', unpackKeyring 0 (pyKeys [(pySum, "uint8_t, unsigned char (int, int const&)".toList), (pyLed, "uint8_t, void ()".toList)])
    ⟨[("__name__".toList, .other)], []⟩ = some m' ∧ m'.get "sum".toList = some (.key 0 0) ∧ m'.get "led".toList = some (.key 0 1) ∧
    m'.get "__name__".toList = some .other := by
  obtain ⟨m', h1, h2, h3⟩ := C74_names_partial 0 [(pySum, "uint8_t, unsigned char (int, int const&)".toList), (pyLed, "uint8_t, void ()".toList)]
    ⟨[("__name__".toList, .other)], []⟩
    (by
      intro f hf
      rcases List.mem_cons.1 hf with rfl | hf
      · exact ⟨pySum_plain, by decide, by decide⟩
      · rw [List.mem_singleton] at hf
        subst hf
        exact ⟨pyLed_plain, by decide, by decide⟩)
    (by decide) (by intro i f _; exact List.not_mem_nil)
  exact ⟨m', h1, (h2 0 _ rfl).1, (h2 1 _ rfl).1, (h3 _ (by decide)).trans (by decide)⟩

/-- `C74_qualified` is met by `ns::f`. -/
example (m : PyMod) : unpackKeyring 0 (pyKeys [(pyLed, []), (nsF, [])]) m = none :=
  C74_qualified 0 _ m (nsF, []) (by simp) ⟨identifier_of (by decide) (by decide),
    ⟨"ns".toList, ":".toList, by decide, identifier_of (by decide) (by decide), noAmp_of_not_mem (by decide), by decide⟩,
    noAmp_of_not_mem (by decide), by intro ps h; cases h; exact noAmp_of_not_mem (by decide)⟩

/-- `C74_bound_once` is met by a keyring exposed twice. -/
example : ∃ m, unpackKeyring 0 (pyKeys [(pyLed, "uint8_t, void ()".toList)]) ⟨[], []⟩ = some m ∧
    unpackKeyring 1 (pyKeys [({ pyLed with name := "relay".toList }, "uint8_t, void ()".toList)]) m = none := by
  have h : unpackKeyring 0 (pyKeys [(pyLed, "uint8_t, void ()".toList)]) ⟨[], []⟩ =
      some ⟨[("led".toList, .key 0 0), ("__led".toList, .cls)], [(0, "uint8_t, void ()".toList)]⟩ := by decide +kernel
  exact ⟨_, h, C74_bound_once 0 1 _ _ _ _ h 0 ⟨pyLed.text, "uint8_t, void ()".toList⟩
    ⟨({ pyLed with name := "relay".toList } : Callable).text, "uint8_t, void ()".toList⟩ rfl rfl rfl⟩

/-- C74. Which name a key is given, whatever the demangler returns: what the first group of the regular expression matches, `.*` being greedy; there is no name, and the import fails, if and only if the
text does not match. -/
theorem C74_regex (text : List Char) :
    (∀ name, demangle text = some name ↔ ∃ before, MatchesAt before name text ∧ ∀ before' name', MatchesAt before' name' text → before'.length ≤ before.length) ∧
    (demangle text = none ↔ ∀ before name, ¬ MatchesAt before name text) := by
  have main : ∀ name, demangle text = some name ↔ ∃ before, MatchesAt before name text ∧ ∀ before' name', MatchesAt before' name' text → before'.length ≤ before.length := by
    intro name
    simp only [matchesAt_iff]
    constructor
    · intro h
      unfold demangle at h
      split at h
      case isFalse => cases h
      case isTrue ht =>
        obtain ⟨a, b, t, e, ha, hb, hc, hm⟩ := (search_iff _ _).1 h
        have et : text = unevaluatedText ++ text.drop unevaluatedText.length := by
          conv => lhs; rw [← List.take_append_drop unevaluatedText.length text, ht]
        refine ⟨a, ⟨b, t, by rw [← e]; exact et, ha, hb, hc⟩, ?_⟩
        rintro a' name' ⟨b', t', e', ha', hb', hc'⟩
        exact hm a' b' t' name' (List.append_cancel_left (et.symm.trans e')) ha' hb' hc'
    · rintro ⟨a, ⟨b, t, e, ha, hb, hc⟩, hm⟩
      rw [e, demangle_strip]
      refine (search_iff _ _).2 ⟨a, b, t, rfl, ha, hb, hc, ?_⟩
      intro a' b' t' id' e' ha' hb' hc'
      exact hm a' id' ⟨b', t', by rw [e, e'], ha', hb', hc'⟩
  refine ⟨main, ?_⟩
  constructor
  · intro h
    -- a longest match would be found
    have : ∀ n a name, MatchesAt a name text → text.length - a.length = n → False := by
      intro n
      induction n using Nat.strongRecOn with
      | ind n ihn =>
        intro a name hm hn
        have := (main name).2 ⟨a, hm, by
          intro a' name' hm'
          refine Nat.le_of_not_lt fun hlt => ihn (text.length - a'.length) ?_ a' name' hm' rfl
          obtain ⟨b, t, e, _⟩ := (matchesAt_iff _ _ _).1 hm'
          have := congrArg List.length e
          simp at this
          omega⟩
        rw [h] at this
        cases this
    exact fun a name hm => this _ a name hm rfl
  · intro h
    rcases hd : demangle text with _ | name
    · rfl
    · obtain ⟨a, hm, _⟩ := (main name).1 hd
      exact absurd hm (h a name)

/-- A text with a tabulation and parentheses around the name; a text with two names, of which the last one is taken. -/
example : (∃ before, MatchesAt before "f".toList "upd::unevaluated<int (*)(),\t&(f)>".toList ∧
      ∀ before' name', MatchesAt before' name' "upd::unevaluated<int (*)(),\t&(f)>".toList → before'.length ≤ before.length) ∧
    (∃ before, MatchesAt before "g".toList "upd::unevaluated<int (*)(), &(f(B<1, &(g(int))>))>".toList ∧
      ∀ before' name', MatchesAt before' name' "upd::unevaluated<int (*)(), &(f(B<1, &(g(int))>))>".toList → before'.length ≤ before.length) :=
  ⟨((C74_regex _).1 _).1 (by decide +kernel), ((C74_regex _).1 _).1 (by decide +kernel)⟩

/-- A text without a comma. -/
example : ∀ before name, ¬ MatchesAt before name "upd::unevaluated<&f>".toList := (C74_regex _).2.1 (by decide +kernel)

example : ∃ m', declareDispatcher 0 "Arduino".toList (pyKeys [(pySum, "uint8_t, unsigned char (int, int const&)".toList), (pyLed, "uint8_t, void ()".toList)])
    ⟨[], []⟩ = some m' ∧ m'.get "Arduino".toList = some .cls ∧ m'.get "led".toList = some (.key 0 1) := by
  obtain ⟨m', h1, h2, h3, _⟩ := C74_dispatcher_partial 0 "Arduino".toList
    [(pySum, "uint8_t, unsigned char (int, int const&)".toList), (pyLed, "uint8_t, void ()".toList)] ⟨[], []⟩ rfl
    (by
      intro f hf
      rcases List.mem_cons.1 hf with rfl | hf
      · exact ⟨pySum_plain, by decide, by decide, by decide, by decide⟩
      · rw [List.mem_singleton.1 hf]; exact ⟨pyLed_plain, by decide, by decide, by decide, by decide⟩)
    (by decide) (by simp)
  exact ⟨m', h1, h2, h3 1 _ rfl⟩

/-- `led` twice. -/
example (m : PyMod) : unpackKeyring 0 (pyKeys [(pyLed, "a".toList), (pySum, "b".toList), (pyLed, "c".toList)]) m = none :=
  C74_overloads 0 [] [(pySum, "b".toList)] [] (pyLed, "a".toList) (pyLed, "c".toList) m pyLed_plain pyLed_plain rfl

end Upd
