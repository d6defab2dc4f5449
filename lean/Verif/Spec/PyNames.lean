import Verif.Model.PyNames

/-!
# Vocabulary about the names of the keys exposed to Python

The texts below are those given by the demangler of GCC: `upd::unevaluated<T, &(f(ps))>` for the function `f(ps)` and `upd::unevaluated<T, &f>` for the
callable object `f`, where `T` is the type of the pointer.
-/

namespace Upd

/-- A function of a keyring, or an object with an `operator()`: type of the pointer, namespaces (which end with `::`), name, parameters. -/
structure Callable where
  type : List Char
  path : List Char := []
  name : List Char
  params : Option (List Char)

/-- Name of the type which stands for the callable. -/
def Callable.text (f : Callable) : List Char :=
  "upd::unevaluated<".toList ++ f.type ++ ", &".toList ++
    match f.params with
    | some ps => "(".toList ++ f.path ++ f.name ++ "(".toList ++ ps ++ "))>".toList
    | none => f.path ++ f.name ++ ">".toList

/-- An identifier. -/
def Identifier (name : List Char) : Prop := name ≠ [] ∧ ∀ c ∈ name, c.isAlphanum = true ∨ c = '_'

/-- The text has no line break. -/
def OneLine (s : List Char) : Prop := ∀ c ∈ s, c ≠ '\n' ∧ c ≠ '\r'

/-- The characters which are blanks in the C locale. -/
def blanks : List Char := [' ', '\t', '\n', '\x0b', '\x0c', '\r']

/-- The text has no comma followed by a blank and an ampersand. -/
def NoAmp (s : List Char) : Prop := ∀ l b r, s = l ++ ',' :: b :: '&' :: r → b ∉ blanks

/-- The text matches the regular expression `upd::unevaluated<.*,\s\&\(?(\w+)(\(.*\))?\)?>$` (include/upd/python.hpp:50), where `before` is what the first `.*` matches and `name` is what the
first group matches. -/
def MatchesAt (before name text : List Char) : Prop :=
  ∃ blank opening params closing, text = "upd::unevaluated<".toList ++ before ++ [',', blank, '&'] ++ opening ++ name ++ params ++ closing ++ ['>'] ∧
    OneLine before ∧ blank ∈ blanks ∧ (opening = [] ∨ opening = ['(']) ∧ Identifier name ∧
    (params = [] ∨ ∃ ps, OneLine ps ∧ params = ['('] ++ ps ++ [')']) ∧ (closing = [] ∨ closing = [')'])

/-- The callable is in the global namespace, and its name can be found in the text. -/
structure Callable.Plain (f : Callable) : Prop where
  name : Identifier f.name
  path : f.path = []
  type : OneLine f.type
  params : ∀ ps, f.params = some ps → OneLine ps ∧ NoAmp ps

/-- The callable is in a namespace. -/
structure Callable.Qualified (f : Callable) : Prop where
  name : Identifier f.name
  path : ∃ q r, f.path = q ++ ':' :: r ∧ Identifier q ∧ NoAmp r ∧ ',' ∉ r
  type : NoAmp f.type
  params : ∀ ps, f.params = some ps → NoAmp ps

/-- The name does not begin with two underscores (such names are reserved in C++). -/
def Unreserved (name : List Char) : Prop := name.take 2 ≠ ['_', '_']

instance (name : List Char) : Decidable (Unreserved name) := inferInstanceAs (Decidable (_ ≠ _))

/-- The keys of a keyring of callables, given with the other parameters of the type of their key. -/
def pyKeys (fs : List (Callable × List Char)) : List PyKey := fs.map fun f => ⟨f.1.text, f.2⟩

end Upd
