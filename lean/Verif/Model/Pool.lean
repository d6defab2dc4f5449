import Verif.Model.ArenaServe

/-!
# Several buffered dispatchers on one array
-/

namespace Upd

variable {σ : Type}

/-- A program which has several dispatchers and an array. It lets a dispatcher process a packet (`serve`, the continuation being told whether the index was
valid), replaces callbacks, stores bytes in the array for its own purposes (`store`), and acts on the rest of the world. -/
inductive PoolProg (σ : Type) where
  | done (r : Option Val)
  | act (x : Eff σ (Option Val)) (next : Option Val → PoolProg σ)
  | store (pos : Nat) (x : Byte) (next : PoolProg σ)
  | serve (d : Nat) (src : Eff σ Byte) (dest : Byte → Eff σ Unit) (next : Bool → PoolProg σ)
  | replace (d i : Nat) (cb : Callback σ) (next : PoolProg σ)
  | replaceStatic (d i : Nat) (cb : Callback σ) (next : PoolProg σ)

/-- The program, with unbuffered dispatchers, which do not use the array: `dispatcher(src, dest)` (include/upd/dispatcher.hpp:119-127) returns the index, compared
with `size` (:95-96); `replace` (:154-161, :180-187). A dispatcher which does not exist cannot be named. -/
def PoolProg.unbuffered (P : Platform) : PoolProg σ → Eff (List (Dispatcher σ) × σ) (Option Val)
  | .done r => pure r
  | .act x next => fun st =>
    match x st.2 with
    | .ret r w => PoolProg.unbuffered P (next r) (st.1, w)
    | .threw w => .threw (st.1, w)
    | .fault f => .fault f
  | .store _ _ next => PoolProg.unbuffered P next
  | .serve d src dest next => fun st =>
    match st.1[d]? with
    | none => .fault .illTyped
    | some D =>
      match D.run P (Lens.whole σ) src dest st.2 with
      | .ret i w => PoolProg.unbuffered P (next (decide (i < D.size))) (st.1, w)
      | .threw w => .threw (st.1, w)
      | .fault f => .fault f
  | .replace d i cb next => fun st =>
    match st.1[d]? with
    | none => .fault .illTyped
    | some D => PoolProg.unbuffered P next (st.1.set d (D.replace i cb), st.2)
  | .replaceStatic d i cb next => fun st =>
    match st.1[d]? with
    | none => .fault .illTyped
    | some D => PoolProg.unbuffered P next (st.1.set d (D.replaceStatic i cb), st.2)

/-- The array, and the dispatchers whose `ibuf_begin()` and `obuf_begin()` (called at include/upd/buffered_dispatcher.hpp:131, 140, 179, 264, 267; doc/callee.rst.in:47) return pointers to
elements of it. The field `mem` of the dispatchers is not used: the array is put in it while a member function runs. -/
abbrev Pool (σ : Type) := Mem × List (Arena σ)

/-- The program, with buffered dispatchers on one array: `dispatcher(src, dest)` (include/upd/buffered_dispatcher.hpp:197-203), `replace` (:182-185, :207-217). -/
def PoolProg.pooled (P : Platform) : PoolProg σ → Eff (Pool σ × σ) (Option Val)
  | .done r => pure r
  | .act x next => fun st =>
    match x st.2 with
    | .ret r w => PoolProg.pooled P (next r) (st.1, w)
    | .threw w => .threw (st.1, w)
    | .fault f => .fault f
  | .store pos x next => fun st =>
    if pos < st.1.1.length then PoolProg.pooled P next ((st.1.1.set pos x, st.1.2), st.2) else .fault .oobWrite
  | .serve d src dest next => fun st =>
    match st.1.2[d]? with
    | none => .fault .illTyped
    | some a =>
      match Arena.process P src dest ({ a with mem := st.1.1 }, st.2) with
      | .ret status (a, w) => PoolProg.pooled P (next (status == .resolved)) ((a.mem, st.1.2.set d a), w)
      | .threw (a, w) => .threw ((a.mem, st.1.2.set d a), w)
      | .fault f => .fault f
  | .replace d i cb next => fun st =>
    match st.1.2[d]? with
    | none => .fault .illTyped
    | some a => PoolProg.pooled P next ((st.1.1, st.1.2.set d (a.replace i cb)), st.2)
  | .replaceStatic d i cb next => fun st =>
    match st.1.2[d]? with
    | none => .fault .illTyped
    | some a => PoolProg.pooled P next ((st.1.1, st.1.2.set d (a.replaceStatic i cb)), st.2)

end Upd
