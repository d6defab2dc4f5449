import Verif.Model.Signature

/-!
# C80, C81: the callbacks and the byte streams which compile
-/

namespace Upd
open Cpp

variable {T : Type}

/-- Every combination of qualifiers of `operator()` is among the specialisations. -/
theorem mem_specialisations (c v : Bool) (r : RefQual) : (c, v, r) ∈ specialisations := by
  cases c <;> cases v <;> cases r <;> decide

theorem noexcept_false (std : Standard) (n : Bool) : (std.noexceptInType && n) = false ↔ ¬ (std = .cpp17 ∧ n = true) := by
  cases std <;> cases n <;> simp [Standard.noexceptInType]

/-- What the library deduces from a type: the signature of a function (through a pointer or a reference or not), that of the only `operator()` of a class, unless `noexcept`
is part of the type. -/
theorem examine_fn (std : Standard) (n : Bool) (g : Fn T) :
    examine std (.fn n g) = if std.noexceptInType && n then none else some g := rfl

theorem examine_cls (std : Standard) (k : Bool) (m : Member T) :
    examine std (.cls k [m]) = if std.noexceptInType && m.isNoexcept then none else some m.sig := by
  simp only [examine, CTy.decay, CTy.removeRef, mem_specialisations, if_true]

/-- C80, full statement: a dispatcher can be built from any keyring which can be built. -/
def C80_Statement : Prop :=
  ∀ (T : Type) (std : Standard) (f : Features) (F : CTy T), flistAccepts std F = true → dispatcherAccepts std f F = true

/-- C80. A free function may be put in a keyring, in any version of the language, whether or not it returns something; its key and its slot have its own signature,
and both kinds of dispatchers accept it. The only functions which are refused are the `noexcept` ones in C++17, and they are refused by the keyring already. -/
theorem C80_functions (std : Standard) (n : Bool) (g : Fn T) :
    (flistAccepts std (.fn n g) = true ↔ ¬ (std = .cpp17 ∧ n = true)) ∧
    (flistAccepts std (.fn n g) = true →
      keySig std (.fn n g) = some g ∧ ringSig std (.fn n g) = some g ∧
      (∀ f, dispatcherAccepts std f (.fn n g) = true) ∧ ∀ slot, ReplaceAccepts std slot (.fn n g) ↔ slot = some g) := by
  rw [← noexcept_false]
  cases h : std.noexceptInType && n
  all_goals
    simp [flistAccepts, isInvocable, examine, CTy.decay, CTy.removeRef, CTy.removePtr, h, keySig, ringSig, dispatcherAccepts, ReplaceAccepts, lvalueCallable]
  intro f; cases f <;> rfl

/-- C80. An object whose class has one `operator()`, with any qualifiers, may be put in a keyring (unless it is `noexcept` in C++17); its key has the signature of the
`operator()`. No dispatcher can be built from that keyring: the slot has no signature and neither kind of action accepts a pointer to the object. The object may
replace the callback of a slot with the same signature, if it can be called as an lvalue. -/
theorem C80_objects_partial (std : Standard) (k : Bool) (m : Member T) :
    (flistAccepts std (.cls k [m]) = true ↔ ¬ (std = .cpp17 ∧ m.isNoexcept = true)) ∧
    (flistAccepts std (.cls k [m]) = true →
      keySig std (.cls k [m]) = some m.sig ∧ ringSig std (.cls k [m]) = none ∧
      (∀ f, dispatcherAccepts std f (.cls k [m]) = false) ∧
      ∀ slot, ReplaceAccepts std slot (.cls k [m]) ↔ slot = some m.sig ∧ m.admits k .lvalue = true) := by
  rw [← noexcept_false]
  cases h : std.noexceptInType && m.isNoexcept
  all_goals
    simp [flistAccepts, isInvocable, examine, CTy.decay, CTy.removeRef, CTy.removePtr, h, keySig, ringSig, dispatcherAccepts, ReplaceAccepts, lvalueCallable,
      mem_specialisations]
  intro f; cases f <;> rfl

/-- C80. A variable which holds a pointer to a function behaves like an object: the keyring accepts it (unless the function is `noexcept` in C++17) and its key has the
signature of the function, but no dispatcher can be built from that keyring, since the actions would be given a pointer to a pointer. The variable may replace the
callback of a slot with the same signature. -/
theorem C80_pointers_partial (std : Standard) (n : Bool) (g : Fn T) :
    (flistAccepts std (.ptr (.fn n g)) = true ↔ ¬ (std = .cpp17 ∧ n = true)) ∧
    (flistAccepts std (.ptr (.fn n g)) = true →
      keySig std (.ptr (.fn n g)) = some g ∧ ringSig std (.ptr (.fn n g)) = none ∧
      (∀ f, dispatcherAccepts std f (.ptr (.fn n g)) = false) ∧ ∀ slot, ReplaceAccepts std slot (.ptr (.fn n g)) ↔ slot = some g) := by
  rw [← noexcept_false]
  cases h : std.noexceptInType && n
  all_goals
    simp [flistAccepts, isInvocable, examine, CTy.decay, CTy.removeRef, CTy.removePtr, h, keySig, ringSig, dispatcherAccepts, ReplaceAccepts, lvalueCallable]
  intro f; cases f <;> rfl

/-- C80. Nothing else may replace a callback: what `replace` accepts is a function, a pointer to a function, or an object with one `operator()`. -/
theorem C80_replace (std : Standard) (slot : Option (Fn T)) (F : CTy T) (hF : F.removeRef = F) (h : ReplaceAccepts std slot F) :
    (∃ n g, F = .fn n g ∨ F = .ptr (.fn n g)) ∨ ∃ k m, F = .cls k [m] := by
  obtain ⟨-, h2, h3⟩ := h
  cases F with
  | fn n g => exact .inl ⟨n, g, .inl rfl⟩
  | cls k ms =>
    match ms with
    | [] => simp [lvalueCallable] at h3
    | [m] => exact .inr ⟨k, m, rfl⟩
    | _ :: _ :: _ => simp [isInvocable, examine, CTy.decay, CTy.removeRef] at h2
  | ptr t =>
    cases t with
    | fn n g => exact .inl ⟨n, g, .inr rfl⟩
    | _ => simp [lvalueCallable] at h3
  | lref t => exact absurd (congrArg sizeOf hF) (by simp [CTy.removeRef])
  | rref t => exact absurd (congrArg sizeOf hF) (by simp [CTy.removeRef])
  | other => simp [lvalueCallable] at h3

/-- A pointer to a pointer to a function replaces nothing. -/
example (slot : Option (Fn Nat)) : ¬ ReplaceAccepts .cpp17 slot (.ptr (.ptr (.fn false (⟨0, []⟩ : Fn Nat)))) := by
  intro h
  rcases C80_replace _ _ _ rfl h with ⟨n, g, e | e⟩ | ⟨k, m, e⟩ <;> cases e

/-- C80. Whatever is put in a keyring, a dispatcher can be built from the keyring if and only if all its callbacks are functions; the features make no difference. -/
theorem C80_exact (std : Standard) (f : Features) (F : CTy T) (h : flistAccepts std F = true) :
    dispatcherAccepts std f F = true ↔ ∃ n g, F = .fn n g := by
  constructor
  · intro hd
    cases F with
    | fn n g => exact ⟨n, g, rfl⟩
    | _ => cases f <;> simp [dispatcherAccepts, isInvocable, examine, CTy.decay, CTy.removeRef] at hd
  · rintro ⟨n, g, rfl⟩
    exact (C80_functions std n g).2 h |>.2.2.1 f

/-- C80. Whatever is put in a keyring, the keyring is accepted if and only if the key of the callback has a signature: no key is left without one, and nothing is refused
for which there would have been a key. `F` is not a reference since there are no pointers to references. -/
theorem C80_keys (std : Standard) (F : CTy T) (hF : F.removeRef = F) : flistAccepts std F = (keySig std F).isSome := by
  cases F with
  | fn n g => cases h : std.noexceptInType && n <;> simp [flistAccepts, isInvocable, examine, CTy.decay, CTy.removeRef, CTy.removePtr, keySig, h]
  | lref t => exact absurd (congrArg sizeOf hF) (by simp [CTy.removeRef])
  | rref t => exact absurd (congrArg sizeOf hF) (by simp [CTy.removeRef])
  | _ => rfl

/-- A `noexcept` function: it has a key up to C++14, none since C++17. -/
example : keySig .cpp14 (.fn true (⟨0, []⟩ : Fn Nat)) = some ⟨0, []⟩ ∧ (keySig .cpp17 (.fn true (⟨0, []⟩ : Fn Nat))).isSome = false :=
  ⟨((C80_functions .cpp14 true _).2 rfl).1, (C80_keys .cpp17 _ rfl).symm.trans rfl⟩

/-- `callable<int, int>` of test/keyring.cpp:6-11: `int operator()(int &&)`. -/
private def callable : CTy Nat := .cls false [⟨false, false, .unqualified, false, ⟨0, [1]⟩⟩]

theorem C80_full_statement_is_false : ¬ C80_Statement := by
  intro h
  exact absurd (h Nat .cpp11 .any callable (by decide)) (by decide)

/-- The keyring of the tests accepts the object, its key has the signature of its `operator()`, no dispatcher accepts the keyring. -/
example : flistAccepts .cpp17 callable = true ∧ keySig .cpp17 callable = some ⟨0, [1]⟩ ∧ dispatcherAccepts .cpp17 .weakReference callable = false := by
  decide

/-- `int get_8() noexcept;` is accepted up to C++14 and refused since C++17. -/
example : flistAccepts .cpp14 (.fn true (⟨0, []⟩ : Fn Nat)) = true ∧ flistAccepts .cpp17 (.fn true (⟨0, []⟩ : Fn Nat)) = false := by decide

/-- A `const &&` one may be put in a keyring and cannot replace anything. -/
example : flistAccepts .cpp11 (.cls false [⟨true, false, .rvalue, false, (⟨0, []⟩ : Fn Nat)⟩]) = true ∧
    ¬ ReplaceAccepts .cpp11 (some ⟨0, []⟩) (.cls false [⟨true, false, .rvalue, false, (⟨0, []⟩ : Fn Nat)⟩]) := by
  refine ⟨by decide, fun h => ?_⟩
  exact absurd h.2.2 (by decide)

/-! ## Byte streams -/

/-- C81, full statement: a byte getter or putter which meets the requirement of the library, and is therefore accepted by keys, is accepted by actions and dispatchers. -/
def C81_Statement : Prop :=
  ∀ (Y : Types) (std : Standard) (F : CTy Y.T), (inputInvocable Y F = true → ActionReads Y std F) ∧ (outputInvocable Y F = true → ActionWrites Y std F)

theorem argsOk_refl {conv : T → T → Bool} (hc : ∀ t, conv t t = true) : ∀ l : List T, argsOk conv l l = true
  | [] => rfl
  | a :: l => by simp [argsOk, hc, argsOk_refl hc l]

/-- The exact requirement: what the requirement examines is the call, what the type erasure needs is the type. -/
theorem erases_fn {std : Standard} {conv : T → T → Bool} (hc : ∀ t, conv t t = true) {F : CTy T} {n : Bool} {g g' : Fn T}
    (hF : F = .fn n g ∨ F = .ptr (.fn n g)) : ErasesTo std conv F g' ↔ g = g' ∧ (std.noexceptInType && n) = false := by
  have hx : examine std F = if std.noexceptInType && n then none else some g := by rcases hF with rfl | rfl <;> rfl
  unfold ErasesTo
  rw [hx]
  cases hn : std.noexceptInType && n
  · simp only [Bool.false_eq_true, if_false, Option.some.injEq, and_true]
    refine ⟨fun h => h.1, ?_⟩
    rintro rfl
    refine ⟨rfl, ?_⟩
    rcases hF with rfl | rfl <;> simp [hasSignature, callRet, CTy.removeRef, argsOk_refl hc, hc]
  · simp

theorem hasSignature_cls {conv : T → T → Bool} {F : CTy T} {k : Bool} {m : Member T} {c : Category} (hc : ∀ t, conv t t = true)
    (hF : (F = .lref (.cls k [m]) ∧ c = .lvalue) ∨ ((F = .cls k [m] ∨ F = .rref (.cls k [m])) ∧ c = .rvalue)) :
    hasSignature conv F m.sig = m.admits k c := by
  have h : callRet conv F m.sig.params = callObj conv [m] k c m.sig.params := by
    rcases hF with ⟨rfl, rfl⟩ | ⟨rfl | rfl, rfl⟩ <;> rfl
  unfold hasSignature
  rw [h, callObj]
  cases ha : m.admits k c <;> simp [List.filter, ha, argsOk_refl hc, hc]

theorem erases_cls {std : Standard} {conv : T → T → Bool} (hc : ∀ t, conv t t = true) {k : Bool} {m : Member T} {g : Fn T} :
    ErasesTo std conv (.cls k [m]) g ↔ m.sig = g ∧ (std.noexceptInType && m.isNoexcept) = false ∧ m.admits k .lvalue = true := by
  unfold ErasesTo
  rw [examine_cls]
  cases hn : std.noexceptInType && m.isNoexcept
  · simp only [Bool.false_eq_true, if_false, Option.some.injEq, true_and]
    refine ⟨?_, ?_⟩
    · rintro ⟨rfl, h⟩
      exact ⟨rfl, by rwa [hasSignature_cls hc (.inl ⟨rfl, rfl⟩)] at h⟩
    · rintro ⟨rfl, h⟩
      exact ⟨rfl, by rwa [hasSignature_cls hc (.inl ⟨rfl, rfl⟩)]⟩
  · simp

/-- C81. A function, by itself, by pointer, or by reference to either, is accepted as a byte getter by keys if it takes nothing and its result converts to a byte; by actions and
dispatchers if it returns a `byte_t` exactly (and is not `noexcept` in C++17). -/
theorem C81_reading_functions (Y : Types) (std : Standard) (F : CTy Y.T) (n : Bool) (g : Fn Y.T)
    (hF : F.removeRef = .fn n g ∨ F.removeRef = .ptr (.fn n g)) :
    (keyReads Y F = true ↔ g.params = [] ∧ Y.conv g.ret Y.byte = true) ∧
    (ActionReads Y std F ↔ g = ⟨Y.byte, []⟩ ∧ ¬ (std = .cpp17 ∧ n = true)) := by
  rw [← noexcept_false]
  have hk : inputInvocable Y F = true ↔ g.params = [] ∧ Y.conv g.ret Y.byte = true := by
    have : callRet Y.conv F [] = if argsOk Y.conv [] g.params then some g.ret else none := by
      rcases hF with h | h <;> simp [callRet, h]
    simp only [inputInvocable, hasSignature, this]
    cases hp : g.params <;> simp [argsOk]
  refine ⟨hk, ?_⟩
  unfold ActionReads
  rw [erases_fn Y.conv_refl hF, hk]
  refine ⟨fun h => h.2, fun h => ⟨?_, h⟩⟩
  obtain ⟨rfl, -⟩ := h
  exact ⟨rfl, Y.conv_refl _⟩

/-- C81. The same for byte putters: whatever takes a byte and returns nothing is accepted by keys; by actions and dispatchers if the parameter is a `byte_t` exactly. A function which returns something
is accepted by none. -/
theorem C81_writing_functions (Y : Types) (std : Standard) (F : CTy Y.T) (n : Bool) (g : Fn Y.T)
    (hF : F.removeRef = .fn n g ∨ F.removeRef = .ptr (.fn n g)) :
    (messageWrites Y F = true ↔ (∃ p, g.params = [p] ∧ Y.conv Y.byte p = true) ∧ g.ret = Y.void) ∧
    (ActionWrites Y std F ↔ g = ⟨Y.void, [Y.byte]⟩ ∧ ¬ (std = .cpp17 ∧ n = true)) := by
  rw [← noexcept_false]
  have hr : ∀ F' : CTy Y.T, (F'.removeRef = .fn n g ∨ F'.removeRef = .ptr (.fn n g)) →
      callRet Y.conv F' [Y.byte] = if argsOk Y.conv [Y.byte] g.params then some g.ret else none := by
    intro F' h; rcases h with h | h <;> simp [callRet, h]
  have ha : argsOk Y.conv [Y.byte] g.params = true ↔ ∃ p, g.params = [p] ∧ Y.conv Y.byte p = true := by
    cases hp : g.params with
    | nil => simp [argsOk]
    | cons p ps => cases ps <;> simp [argsOk]
  have hv : Y.conv g.ret Y.void = true ↔ g.ret = Y.void := ⟨Y.conv_void _, fun h => by rw [h]; exact Y.conv_refl _⟩
  have hk : outputInvocable Y F = true ↔ (∃ p, g.params = [p] ∧ Y.conv Y.byte p = true) ∧ g.ret = Y.void := by
    simp only [outputInvocable, hasSignature, hr F hF]
    rw [← ha, ← hv]
    cases argsOk Y.conv [Y.byte] g.params <;> simp
  constructor
  · simp only [messageWrites, Bool.and_eq_true, hk]
    refine ⟨fun h => h.1, fun h => ⟨h, ?_⟩⟩
    rw [hr (.lref F.removeRef) hF, if_pos (ha.2 h.1)]; rfl
  · unfold ActionWrites
    rw [erases_fn Y.conv_refl hF, hk]
    refine ⟨fun h => h.2, fun h => ⟨?_, h⟩⟩
    obtain ⟨rfl, -⟩ := h
    exact ⟨⟨_, rfl, Y.conv_refl _⟩, rfl⟩

/-- C81. An object whose class has one `operator()` is accepted as a byte getter by actions and dispatchers if and only if the signature of the `operator()` is
`byte_t()` exactly, it can be called both as an lvalue and as it is given, and it is not `noexcept` in C++17; as a byte putter, if and only if the signature
is `void(byte_t)` exactly, with the same conditions. `c` is the value category of the argument. -/
theorem C81_objects (Y : Types) (std : Standard) (F : CTy Y.T) (k : Bool) (m : Member Y.T) (c : Category)
    (hF : (F = .lref (.cls k [m]) ∧ c = .lvalue) ∨ ((F = .cls k [m] ∨ F = .rref (.cls k [m])) ∧ c = .rvalue)) :
    (ActionReads Y std F ↔
      m.sig = ⟨Y.byte, []⟩ ∧ ¬ (std = .cpp17 ∧ m.isNoexcept = true) ∧ m.admits k .lvalue = true ∧ m.admits k c = true) ∧
    (ActionWrites Y std F ↔
      m.sig = ⟨Y.void, [Y.byte]⟩ ∧ ¬ (std = .cpp17 ∧ m.isNoexcept = true) ∧ m.admits k .lvalue = true ∧ m.admits k c = true) := by
  rw [← noexcept_false]
  have hb : F.removeRef = .cls k [m] := by rcases hF with ⟨rfl, -⟩ | ⟨rfl | rfl, -⟩ <;> rfl
  have key : ∀ g, hasSignature Y.conv F g = true ∧ ErasesTo std Y.conv F.removeRef g ↔
      m.sig = g ∧ (std.noexceptInType && m.isNoexcept) = false ∧ m.admits k .lvalue = true ∧ m.admits k c = true := by
    intro g
    rw [hb, erases_cls Y.conv_refl]
    refine ⟨fun ⟨h, h1, h2, h3⟩ => ⟨h1, h2, h3, ?_⟩, fun ⟨h1, h2, h3, h4⟩ => ⟨?_, h1, h2, h3⟩⟩
    · subst h1; rwa [hasSignature_cls Y.conv_refl hF] at h
    · subst h1; rwa [hasSignature_cls Y.conv_refl hF]
  exact ⟨key _, key _⟩

/-- C81. In terms of the qualifiers of the `operator()`, when its signature is the right one and it is not `noexcept`: a const object needs a const `operator()`; one which is `&&`-qualified is never accepted;
one which is `&`-qualified is accepted if the object is given as an lvalue, or if it is `const &`. -/
theorem C81_qualifiers (Y : Types) (std : Standard) (F : CTy Y.T) (k : Bool) (m : Member Y.T) (c : Category)
    (hF : (F = .lref (.cls k [m]) ∧ c = .lvalue) ∨ ((F = .cls k [m] ∨ F = .rref (.cls k [m])) ∧ c = .rvalue)) (hn : m.isNoexcept = false) :
    (m.sig = ⟨Y.byte, []⟩ → (ActionReads Y std F ↔ (k = true → m.isConst = true) ∧ m.ref ≠ .rvalue ∧
      (m.ref = .lvalue → c = .lvalue ∨ (m.isConst = true ∧ m.isVolatile = false)))) ∧
    (m.sig = ⟨Y.void, [Y.byte]⟩ → (ActionWrites Y std F ↔ (k = true → m.isConst = true) ∧ m.ref ≠ .rvalue ∧
      (m.ref = .lvalue → c = .lvalue ∨ (m.isConst = true ∧ m.isVolatile = false)))) := by
  have hq : m.admits k .lvalue = true ∧ m.admits k c = true ↔ (k = true → m.isConst = true) ∧ m.ref ≠ .rvalue ∧
      (m.ref = .lvalue → c = .lvalue ∨ (m.isConst = true ∧ m.isVolatile = false)) := by
    obtain ⟨mc, mv, mr, mn, g⟩ := m
    cases k <;> cases mc <;> cases mv <;> cases mr <;> cases c <;> simp [Member.admits]
  refine ⟨fun hs => ?_, fun hs => ?_⟩
  · rw [(C81_objects Y std F k m c hF).1, ← hq]; simp [hs, hn]
  · rw [(C81_objects Y std F k m c hF).2, ← hq]; simp [hs, hn]

/-- C81. An object with no or with several `operator()` is never accepted by actions and dispatchers, even if it meets the requirement. -/
theorem C81_overloaded (Y : Types) (std : Standard) (F : CTy Y.T) (k : Bool) (calls : List (Member Y.T)) (hF : F.removeRef = .cls k calls)
    (hl : calls.length ≠ 1) : ¬ ActionReads Y std F ∧ ¬ ActionWrites Y std F := by
  have hx : examine std F.removeRef = none := by
    rw [hF]
    match calls, hl with
    | [], _ => rfl
    | [_], h => exact absurd rfl h
    | _ :: _ :: _, _ => rfl
  exact ⟨fun h => by simp [h.2.1] at hx, fun h => by simp [h.2.1] at hx⟩

/-- C81. Actions and dispatchers accept nothing which keys refuse. -/
theorem C81_keys_accept_more (Y : Types) (std : Standard) (F : CTy Y.T) :
    (ActionReads Y std F → keyReads Y F = true) ∧ (ActionWrites Y std F → messageWrites Y F = true) := by
  refine ⟨fun h => h.1, fun h => ?_⟩
  simp only [messageWrites, h.1, Bool.true_and]
  have := h.2.2
  simp only [hasSignature] at this
  cases hr : callRet Y.conv (.lref F.removeRef) [Y.byte] with
  | none => simp [hr] at this
  | some r => rfl

/-- `byte_t`, `void` and `int`. -/
private inductive Three where
  | byte
  | void
  | int
  deriving DecidableEq

private def three : Types where
  T := Three
  byte := .byte
  void := .void
  conv := fun a b => a == b || (a != .void && b != .void)
  conv_refl := fun t => by cases t <;> decide
  conv_void := fun t => by cases t <;> decide

/-- `int getchar();` -/
private def getchar : CTy Three := .lref (.fn false ⟨.int, []⟩)

/-- C81. The full statement is false: `getchar` meets the requirement, keys accept it, actions and dispatchers do not. -/
theorem C81_full_statement_is_false : ¬ C81_Statement := by
  intro h
  have := (h three .cpp11 getchar).1 (by decide)
  rw [((C81_reading_functions three .cpp11 getchar false ⟨.int, []⟩ (.inl rfl)).2)] at this
  exact Three.noConfusion (show Three.int = Three.byte from congrArg Fn.ret this.1)

/-- `C81_objects`: `[&]() { return b; }` given as an rvalue is accepted, in all versions. -/
example (std : Standard) : ActionReads three std (.cls false [⟨true, false, .unqualified, false, ⟨.byte, []⟩⟩]) :=
  ((C81_objects three std _ _ _ .rvalue (.inr ⟨.inl rfl, rfl⟩)).1).2 ⟨rfl, by simp, rfl, rfl⟩

/-- `C81_qualifiers`: `[x]() mutable { ... }` is accepted, unless the closure is const. -/
example (std : Standard) (k : Bool) : ActionReads three std (.lref (.cls k [⟨false, false, .unqualified, false, ⟨.byte, []⟩⟩])) ↔ k = false := by
  rw [(C81_qualifiers three std _ k _ .lvalue (.inl ⟨rfl, rfl⟩) rfl).1 rfl]
  cases k <;> simp

/-- A `noexcept` one is refused in C++17, though it meets the requirement. -/
example : inputInvocable three (.cls false [⟨true, false, .unqualified, true, ⟨.byte, []⟩⟩]) = true ∧
    ¬ ActionReads three .cpp17 (.cls false [⟨true, false, .unqualified, true, ⟨.byte, []⟩⟩]) := by
  refine ⟨by decide, fun h => ?_⟩
  have := ((C81_objects three .cpp17 _ _ _ .rvalue (.inr ⟨.inl rfl, rfl⟩)).1).1 h
  exact absurd this.2.1 (by decide)

/-- `C81_writing_functions`: `size_t write(byte_t);` (here returning an `int`) is refused by keys, `void putchar(int)` is accepted by keys and refused by actions. -/
example : messageWrites three (.ptr (.fn false ⟨.int, [.byte]⟩)) = false ∧ messageWrites three (.ptr (.fn false ⟨.void, [.int]⟩)) = true ∧
    ¬ ActionWrites three .cpp11 (.ptr (.fn false ⟨.void, [.int]⟩)) := by
  refine ⟨by decide, by decide, ?_⟩
  rw [(C81_writing_functions three .cpp11 _ false ⟨.void, [.int]⟩ (.inr rfl)).2]
  exact fun h => absurd (show [Three.int] = [Three.byte] from congrArg Fn.params h.1) (by decide)

/-- `C81_overloaded`: a class with `byte_t operator()()` and `void operator()(byte_t)` meets both requirements. -/
example : inputInvocable three (.lref (.cls false [⟨false, false, .unqualified, false, ⟨.byte, []⟩⟩, ⟨false, false, .unqualified, false, ⟨.void, [.byte]⟩⟩])) = true ∧
    outputInvocable three (.lref (.cls false [⟨false, false, .unqualified, false, ⟨.byte, []⟩⟩, ⟨false, false, .unqualified, false, ⟨.void, [.byte]⟩⟩])) = true := by
  decide

/-! ## Further uses -/

/-- `[](byte_t) mutable { ... }`: keys only, and it may replace a callback. -/
example (std : Standard) : keySig std (.cls false [⟨false, false, .unqualified, false, (⟨0, [1]⟩ : Fn Nat)⟩]) = some ⟨0, [1]⟩ ∧
    dispatcherAccepts std .any (.cls false [⟨false, false, .unqualified, false, (⟨0, [1]⟩ : Fn Nat)⟩]) = false ∧
    ReplaceAccepts std (some ⟨0, [1]⟩) (.cls false [⟨false, false, .unqualified, false, (⟨0, [1]⟩ : Fn Nat)⟩]) := by
  have h := C80_objects_partial std false ⟨false, false, .unqualified, false, (⟨0, [1]⟩ : Fn Nat)⟩
  have h' := h.2 (h.1.2 (by simp))
  exact ⟨h'.1, h'.2.2.1 _, (h'.2.2.2 _).2 ⟨rfl, rfl⟩⟩

/-- A variable `void (*f)(byte_t) noexcept`. -/
example : flistAccepts .cpp17 (.ptr (.fn true (⟨0, [1]⟩ : Fn Nat))) = false ∧ flistAccepts .cpp11 (.ptr (.fn true (⟨0, [1]⟩ : Fn Nat))) = true :=
  ⟨Bool.eq_false_iff.2 fun h => (C80_pointers_partial .cpp17 true (⟨0, [1]⟩ : Fn Nat)).1.1 h ⟨rfl, rfl⟩,
    (C80_pointers_partial .cpp11 true (⟨0, [1]⟩ : Fn Nat)).1.2 (by simp)⟩

example : dispatcherAccepts .cpp17 .weakReference (.fn false (⟨0, [1]⟩ : Fn Nat)) = true :=
  (C80_exact .cpp17 .weakReference _ (by decide)).2 ⟨_, _, rfl⟩

/-- `int getchar()`: keys read from it, actions do not. -/
example (std : Standard) : keyReads three (.ptr (.fn false ⟨.int, []⟩)) = true ∧ ¬ ActionReads three std (.ptr (.fn false ⟨.int, []⟩)) := by
  have h := C81_reading_functions three std (.ptr (.fn false ⟨.int, []⟩)) false ⟨.int, []⟩ (.inr rfl)
  exact ⟨h.1.2 ⟨rfl, rfl⟩, fun hr => absurd (show Three.int = Three.byte from congrArg Fn.ret (h.2.1 hr).1) (by decide)⟩

example (std : Standard) : ¬ ActionReads three std
    (.lref (.cls false [⟨false, false, .unqualified, false, ⟨.byte, []⟩⟩, ⟨false, false, .unqualified, false, ⟨.void, [.byte]⟩⟩])) :=
  (C81_overloaded three std _ false _ rfl (by decide)).1

example (std : Standard) : keyReads three (.cls false [⟨true, false, .unqualified, false, ⟨.byte, []⟩⟩]) = true :=
  (C81_keys_accept_more three std _).1 (((C81_objects three std _ _ _ .rvalue (.inr ⟨.inl rfl, rfl⟩)).1).2 ⟨rfl, by simp, rfl, rfl⟩)

end Upd
