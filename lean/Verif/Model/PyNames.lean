import Verif.Model.Basic

/-!
# Names of the keys exposed to Python (include/upd/python.hpp:33-138)

`typeid` and `abi::__cxa_demangle` are not modelled: the demangled name of the type of each function of the keyring is given. Texts are lists
of characters.
-/

namespace Upd

/-- `\w`. -/
def isWord (c : Char) : Bool := c.isAlphanum || c == '_'

/-- `\s` (the characters which are not ASCII are left out). -/
def isBlank (c : Char) : Bool := c == ' ' || c == '\t' || c == '\n' || c == '\r' || c == '\x0b' || c == '\x0c'

/-- `.` (the characters which are not ASCII are left out). -/
def isDot (c : Char) : Bool := c != '\n' && c != '\r'

/-- Whether `(\(.*\))?\)?>` matches the whole text. -/
def closes (r : List Char) : Bool :=
  r == ['>'] || r == [')', '>'] ||
    (match r with
      | '(' :: m => 2 ≤ m.length && m.drop (m.length - 2) == [')', '>'] && (m.take (m.length - 2)).all isDot
      | _ => false)

/-- Skips `\(?`. -/
def skipParen : List Char → List Char
  | '(' :: t => t
  | s => s

/-- What `(\w+)(\(.*\))?\)?>$` captures in `match[1]`. No backtracking is needed: none of what may follow the word begins with a word character. -/
def word (s : List Char) : Option (List Char) :=
  if s.takeWhile isWord ≠ [] ∧ closes (s.dropWhile isWord) then some (s.takeWhile isWord) else none

/-- What `\(?(\w+)(\(.*\))?\)?>$` captures in `match[1]` (include/upd/python.hpp:50). No backtracking is needed: a parenthesis is not a word
character. -/
def captured (s : List Char) : Option (List Char) := word (skipParen s)

/-- What `.*,\s\&\(?(\w+)(\(.*\))?\)?>$` captures (include/upd/python.hpp:50). `.*` is greedy: the last position which is suitable is the one found. -/
def search : List Char → Option (List Char)
  | [] => none
  | c :: t =>
    match if isDot c then search t else none with
    | some name => some name
    | none =>
      match c, t with
      | ',', b :: '&' :: s => if isBlank b then captured s else none
      | _, _ => none

/-- `upd::unevaluated<`. -/
def unevaluatedText : List Char := "upd::unevaluated<".toList

/-- `demangle(x)` (include/upd/python.hpp:36-58), from the demangled name of the type of `x`; `none` if `std::invalid_argument` is thrown. -/
def demangle (name : List Char) : Option (List Char) :=
  if name.take unevaluatedText.length = unevaluatedText then search (name.drop unevaluatedText.length) else none

/-- Value of an attribute of a Python module: a class defined by the library, the key of some index of the `k`th keyring exposed, or anything else. -/
inductive PyVal where
  | cls
  | key (k index : Nat)
  | other
  deriving DecidableEq

/-- What `unpack_keyring` changes: the attributes of the module, and the key types known to pybind11 (their index, and the other parameters of the
template as a text). -/
structure PyMod where
  attrs : List (List Char × PyVal)
  types : List (Nat × List Char)
  deriving DecidableEq

/-- A key to expose: demangled name of the type of the function, and the parameters of the type of the key other than its index (type of the index,
signature, endianess and signed mode). -/
structure PyKey where
  text : List Char
  type : List Char
  deriving DecidableEq

/-- `pykey_prefix` (include/upd/python.hpp:33-34). -/
def pykeyPrefix : List Char := ['_', '_']

/-- `pymodule.attr(name) = x`. -/
def PyMod.set (m : PyMod) (name : List Char) (x : PyVal) : PyMod := { m with attrs := (name, x) :: m.attrs.filter (fun a => a.1 != name) }

/-- Attribute `name` of the module. -/
def PyMod.get (m : PyMod) (name : List Char) : Option PyVal := (m.attrs.find? (fun a => a.1 == name)).map (·.2)

/-- `pybind11::class_<key_t>{pymodule, name}` (include/upd/python.hpp:76). pybind11 throws if the module already has an attribute of this name, or if
the type is already bound to a class. -/
def PyMod.define (m : PyMod) (name : List Char) (type : Nat × List Char) : Option PyMod :=
  if (m.get name).isSome then none
  else if type ∈ m.types then none
  else some { m.set name .cls with types := type :: m.types }

/-- `define_pykey` (include/upd/python.hpp:71-106) on the key of index `i` of the keyring `k`: defines the class, whose methods are those of
`Model/Python.lean`, then the attribute `name + 2`. `name` is given by `demangled_fname` (:60-69). -/
def definePyKey (k i : Nat) (name type : List Char) (m : PyMod) : Option PyMod :=
  (m.define (pykeyPrefix ++ name) (i, type)).map fun m => m.set ((pykeyPrefix ++ name).drop 2) (.key k i)

/-- `define_pykeys` (include/upd/python.hpp:108-121), from the index `i`. `none` if an exception is thrown (importing the module fails). -/
def definePyKeys (k i : Nat) : List PyKey → PyMod → Option PyMod
  | [], m => some m
  | key :: keys, m =>
    match demangle key.text with
    | none => none
    | some name =>
      match definePyKey k i name key.type m with
      | none => none
      | some m => definePyKeys k (i + 1) keys m

/-- `unpack_keyring` (include/upd/python.hpp:125-138) on the keyring `k`. -/
def unpackKeyring (k : Nat) (keys : List PyKey) (m : PyMod) : Option PyMod := definePyKeys k 0 keys m

/-- `declare_dispatcher` (include/upd/python.hpp:139-177), as to the names: defines the class of the dispatchers, then unpacks the keyring. The check
that the dispatcher type is not bound yet is left out: the one on the key of index 0 does the same. -/
def declareDispatcher (k : Nat) (name : List Char) (keys : List PyKey) (m : PyMod) : Option PyMod :=
  if (m.get name).isSome then none else unpackKeyring k keys (m.set name .cls)

end Upd
