/-!
# Model of include/upd/detail/type_traits/typelist.hpp, smallest.hpp and index_sequence.hpp

A typelist is a list; types are elements of an arbitrary type with decidable equality, integer holders are numbers.
`none` stands for a substitution failure (the program does not compile). Each algorithm has a C++17 implementation and a
default one, for C++11 and C++14.
-/

namespace Upd.TypeList

variable {α : Type}

/-- C++17 `at_impl` (include/upd/detail/type_traits/typelist.hpp:130-133): overload resolution of `element(index_t<I>)` among the
base classes `itype<Is, Ts>` (:37-44, :52-61). -/
def at17 (l : List α) (i : Nat) : Option α := (l.zipIdx.find? fun p => p.2 == i).map (·.1)

/-- Default `at_impl` (include/upd/detail/type_traits/typelist.hpp:184-191): recursion on the index. -/
def at11 : List α → Nat → Option α
  | [], _ => none
  | t :: _, 0 => some t
  | _ :: ts, i + 1 => at11 ts i

/-- C++17 `max_impl` (include/upd/detail/type_traits/typelist.hpp:136-143): loop over all the values, starting from the first
one. Simplification: unbounded integers instead of `long long`. -/
def max17 : List Nat → Option Nat
  | [] => none
  | v :: vs => some ((v :: vs).foldl (fun m x => if m < x then x else m) v)

/-- Default `max_impl` (include/upd/detail/type_traits/typelist.hpp:194-199). -/
def max11 : List Nat → Option Nat
  | [] => none
  | most :: ts => some (from' most ts)
where
  /-- `max_impl<tlist_t<Most, T, Ts...>>` (include/upd/detail/type_traits/typelist.hpp:196-199): the first element of the list
  is the argument `most`. -/
  from' (most : Nat) : List Nat → Nat
    | [] => most
    | t :: ts => from' (if t > most then t else most) ts

/-- C++17 `find_impl` (include/upd/detail/type_traits/typelist.hpp:148-151): overload resolution of `index(element_t<T>)` among
the base classes; ambiguous if the element occurs several times. -/
def find17 [DecidableEq α] (l : List α) (t : α) : Option Nat :=
  match l.zipIdx.filter fun p => p.1 = t with
  | [p] => some p.2
  | _ => none

/-- Default `find_impl` (include/upd/detail/type_traits/typelist.hpp:202-207): index of the first occurrence. -/
def find11 [DecidableEq α] (t : α) (i : Nat) : List α → Option Nat
  | [] => none
  | x :: xs => if x = t then some i else find11 t (i + 1) xs

/-- C++17 `sum_impl` (include/upd/detail/type_traits/typelist.hpp:154-157): left fold. -/
def sum17 (l : List Nat) : Nat := l.foldl (· + ·) 0

/-- Default `sum_impl` (include/upd/detail/type_traits/typelist.hpp:210-216): recursion with an accumulator, starting
from 0. -/
def sum11 (result : Nat) : List Nat → Nat
  | [] => result
  | t :: ts => sum11 (result + t) ts

/-- C++17 `clip_impl` (include/upd/detail/type_traits/typelist.hpp:160-163): `at_impl<I + Ns>...` for `Ns` = 0, ..., N-1. -/
def clip17 (l : List α) (i n : Nat) : Option (List α) := (List.range n).mapM fun k => at17 l (i + k)

/-- Default `clip_impl` (include/upd/detail/type_traits/typelist.hpp:219-226): pops `i` elements, then moves `n` elements to
the end of the result. -/
def clip11 : (i n : Nat) → (l retval : List α) → Option (List α)
  | 0, 0, _, retval => some retval
  | 0, _ + 1, [], _ => none
  | 0, n + 1, t :: l, retval => clip11 0 n l (retval ++ [t])
  | _ + 1, _, [], _ => none
  | i + 1, n, _ :: l, retval => clip11 i n l retval

/-- `make_index_sequence<I>` before C++14 (include/upd/detail/type_traits/index_sequence.hpp:34-37). -/
def makeIndexSequence11 : (i : Nat) → (is : List Nat) → List Nat
  | 0, is => is
  | i + 1, is => makeIndexSequence11 i (i :: is)

/-- One step of `try_promote` (include/upd/detail/type_traits/smallest.hpp:17-20): `cur` is the size of the current type, `u`
the size of the candidate. -/
def tryPromote (x cur u : Nat) : Nat := if x % 2 ^ (8 * u) = x then u else cur

/-- `smallest_unsigned<X>` (include/upd/detail/type_traits/smallest.hpp:27-33), as a size in bytes. -/
def smallestUnsigned (x : Nat) : Nat := tryPromote x (tryPromote x (tryPromote x 8 4) 2) 1

end Upd.TypeList
