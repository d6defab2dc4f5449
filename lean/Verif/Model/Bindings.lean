import Verif.Model.Tuple

/-!
# Programs with tuples, views and structured bindings

Tuples are objects with a lifetime; views refer to them; the names of structured bindings refer to temporary objects of their own.
-/

namespace Upd

mutual
/-- `std::is_same<T, U>::value`. Classes with the same extension and the same size are not told apart. -/
def Ty.same : Ty → Ty → Bool
  | .bool, .bool => true
  | .uint n, .uint m => n == m
  | .sint n, .sint m => n == m
  | .arr t n, .arr u m => t.same u && n == m
  | .user n ts, .user m us => n == m && Ty.sames ts us
  | _, _ => false

/-- `Ty.same`, element-wise. -/
def Ty.sames : List Ty → List Ty → Bool
  | [], [] => true
  | t :: ts, u :: us => t.same u && Ty.sames ts us
  | _, _ => false
end

mutual
theorem Ty.same_iff : ∀ (t u : Ty), t.same u = true ↔ t = u
  | .bool, u => by cases u <;> simp [Ty.same]
  | .uint n, u => by cases u <;> simp [Ty.same]
  | .sint n, u => by cases u <;> simp [Ty.same]
  | .arr t n, u => by cases u <;> simp [Ty.same, Ty.same_iff t]
  | .user n ts, u => by cases u <;> simp [Ty.same, Ty.sames_iff ts]

theorem Ty.sames_iff : ∀ (ts us : List Ty), Ty.sames ts us = true ↔ ts = us
  | [], us => by cases us <;> simp [Ty.sames]
  | t :: ts, us => by cases us <;> simp [Ty.sames, Ty.same_iff t, Ty.sames_iff ts]
end

instance : DecidableEq Ty := fun t u => decidable_of_iff _ (Ty.same_iff t u)

/-- A `tuple<Endianess, Signed_Mode, Ts...>` object (include/upd/tuple.hpp:303-399): its class and its storage (`none` once destroyed). -/
structure TupleObj where
  e : Endian
  s : Mode
  ts : List Ty
  mem : Option Mem

/-- A `tuple_view` object made by `tuple::view<I, L>()` (include/upd/tuple.hpp:367-395): the tuple where its iterator points to, and where. -/
structure ViewObj where
  obj : Nat
  view : View

/-- The objects of a program, in the order of their declarations, and what it has read so far. -/
structure Store where
  tuples : List TupleObj
  views : List ViewObj
  names : List Val
  out : List Val

/-- Statements of a program. Objects are designated by the numbers of their declarations. -/
inductive Stmt where
  /-- `tuple<e, s, ts...> t{vs...};` -/
  | make (e : Endian) (s : Mode) (ts : List Ty) (vs : List Val)
  /-- `auto t = t_i;` -/
  | copy (i : Nat)
  /-- `t_i = std::move(t_j);` -/
  | assign (i j : Nat)
  /-- End of the lifetime of `t_i`. -/
  | destroy (i : Nat)
  /-- `t_i.set<k>(v);` -/
  | set (i k : Nat) (v : Val)
  /-- `auto view = t_i.view<first, length>();` -/
  | view (i first length : Nat)
  /-- `view_n.set<k>(v);` -/
  | setView (n k : Nat) (v : Val)
  /-- `auto &&[a, b, ...] = t_i;` -/
  | bind (i : Nat)
  /-- `auto [a, b, ...] = t_i;` -/
  | bindCopy (i : Nat)
  /-- `auto [a, b, ...] = view_n;` (the copy of the view refers to the same tuple) or `auto &&[a, b, ...] = view_n;` -/
  | bindView (n : Nat)
  /-- `a = v;` where `a` is a name of a structured binding. -/
  | assignName (n : Nat) (v : Val)
  /-- `a`, read. -/
  | readName (n : Nat)
  /-- `t_i.get<k>()` -/
  | get (i k : Nat)
  /-- `view_n.get<k>()` -/
  | getView (n k : Nat)

/-- The storage of `t_i`, which has to be alive. -/
def Store.bytes (c : Store) (i : Nat) : M (TupleObj × Mem) :=
  match c.tuples[i]? with
  | none => .error .illTyped
  | some t =>
    match t.mem with
    | none => .error .dangling
    | some mem => .ok (t, mem)

/-- The `n`-th view. -/
def Store.viewAt (c : Store) (n : Nat) : M ViewObj :=
  match c.views[n]? with
  | none => .error .illTyped
  | some v => .ok v

/-- Changes the storage of `t_i`. -/
def Store.put (c : Store) (i : Nat) (t : TupleObj) (mem : Mem) : Store := { c with tuples := c.tuples.set i { t with mem := some mem } }

/-- The initializers of the names of a structured binding: `std::tuple_size` (include/upd/tuple.hpp:431-434, :441-444) of them, `e.get<0>()`, `e.get<1>()`, ... in order. They
are of the types given by `std::tuple_element` (:436-439, :446-449), which are not references, so the names refer to temporary objects. A structured binding has at least one
name. -/
def View.bind (P : Platform) (V : View) (mem : Mem) : M (List Val) :=
  if V.ts.isEmpty then .error .illTyped else V.gets P V.indices mem

/-- `t_i = std::move(t_j)`: the implicit assignment operator if the classes are the same, `tuple_base::operator=` (include/upd/tuple.hpp:310, :118-122, :175-178) otherwise. Tuples of
different types of elements are not modelled here. -/
def TupleObj.assign (P : Platform) (t u : TupleObj) (mem from_ : Mem) : M Mem :=
  if t.ts = u.ts then
    if t.e = u.e ∧ t.s = u.s then .ok from_
    else do
      let vs ← (Tuple.self u.e u.s u.ts).gets P (Tuple.self t.e t.s t.ts).indices from_
      (Tuple.self t.e t.s t.ts).lay P (Tuple.self t.e t.s t.ts).indices vs mem
  else .error .illTyped

/-- Executes a statement. -/
def Stmt.run (P : Platform) : Stmt → Store → M Store
  | .make e s ts vs, c => do
    let mem ← Tuple.make P e s ts vs
    .ok { c with tuples := c.tuples ++ [⟨e, s, ts, some mem⟩] }
  | .copy i, c => do
    let (t, mem) ← c.bytes i
    .ok { c with tuples := c.tuples ++ [{ t with mem := some mem }] }
  | .assign i j, c => do
    let (t, mem) ← c.bytes i
    let (u, from_) ← c.bytes j
    let mem ← t.assign P u mem from_
    .ok (c.put i t mem)
  | .destroy i, c => do
    let (t, _) ← c.bytes i
    .ok { c with tuples := c.tuples.set i { t with mem := none } }
  | .set i k v, c => do
    let (t, mem) ← c.bytes i
    let mem ← (Tuple.self t.e t.s t.ts).set P k v mem
    .ok (c.put i t mem)
  | .view i first length, c => do
    let (t, _) ← c.bytes i
    match (Tuple.self t.e t.s t.ts).sub first length with
    | none => .error .illTyped
    | some V => .ok { c with views := c.views ++ [⟨i, V⟩] }
  | .setView n k v, c => do
    let w ← c.viewAt n
    let (t, mem) ← c.bytes w.obj
    let mem ← w.view.set P k v mem
    .ok (c.put w.obj t mem)
  | .bind i, c => do
    let (t, mem) ← c.bytes i
    let vs ← (Tuple.self t.e t.s t.ts).bind P mem
    .ok { c with names := c.names ++ vs }
  | .bindCopy i, c => do
    let (t, mem) ← c.bytes i
    let vs ← (Tuple.self t.e t.s t.ts).bind P mem
    .ok { c with tuples := c.tuples ++ [{ t with mem := some mem }], names := c.names ++ vs }
  | .bindView n, c => do
    let w ← c.viewAt n
    let (_, mem) ← c.bytes w.obj
    let vs ← w.view.bind P mem
    .ok { c with names := c.names ++ vs }
  | .assignName n v, c => if n < c.names.length then .ok { c with names := c.names.set n v } else .error .illTyped
  | .readName n, c =>
    match c.names[n]? with
    | none => .error .illTyped
    | some v => .ok { c with out := c.out ++ [v] }
  | .get i k, c => do
    let (t, mem) ← c.bytes i
    let v ← (Tuple.self t.e t.s t.ts).get P k mem
    .ok { c with out := c.out ++ [v] }
  | .getView n k, c => do
    let w ← c.viewAt n
    let (_, mem) ← c.bytes w.obj
    let v ← w.view.get P k mem
    .ok { c with out := c.out ++ [v] }

/-- Executes statements. -/
def Store.exec (P : Platform) : List Stmt → Store → M Store
  | [], c => .ok c
  | st :: sts, c => do
    let c ← st.run P c
    Store.exec P sts c

/-- No object. -/
def Store.empty : Store := ⟨[], [], [], []⟩

end Upd
