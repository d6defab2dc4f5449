import Verif.Model.Replace

/-!
# Buffered dispatchers whose buffers may overlap

As Verif/Model/Buffered.lean, for a class written by the user whose two buffers are anywhere in one array.
-/

namespace Upd

variable {σ : Type}

/-- An object of a class written by the user, which derives from `buffered_dispatcher` (include/upd/buffered_dispatcher.hpp:67-73, :280-282;
doc/callee.rst.in:47): `ibuf_begin()` and `obuf_begin()` always return pointers to the elements `ibegin` and `obegin` of the array `mem`. -/
structure Arena (σ : Type) where
  disp : Dispatcher σ
  sizeMax : Nat
  mem : Mem
  ibegin : Nat
  obegin : Nat
  indexLoaded : Bool
  loadCount : Nat
  ibufNext : Nat
  obufNext : Nat
  obufBottom : Nat

/-- `buffered_dispatcher()` (include/upd/buffered_dispatcher.hpp:92-93), the array having the content `mem`. -/
def Arena.make (K : Keyring) (f : Features) (defs : Nat → List Val → Eff σ (Option Val)) (sizeMax : Nat) (mem : Mem) (ibegin obegin : Nat) : Arena σ :=
  ⟨Dispatcher.make K f defs, sizeMax, mem, ibegin, obegin, false, (Dispatcher.make K f defs).idxBytes, 0, 0, 0⟩

/-- `obuf_begin()[m_obuf_bottom++] = byte` (include/upd/buffered_dispatcher.hpp:267). -/
def Arena.pushOut (a : Arena σ) (byte : Byte) : M (Arena σ) :=
  if a.obegin + a.obufBottom < a.mem.length then
    .ok { a with mem := a.mem.set (a.obegin + a.obufBottom) byte, obufBottom := a.obufBottom + 1 }
  else .error .obufOverrun

/-- `obuf_begin()[m_obuf_next++]` (include/upd/buffered_dispatcher.hpp:179). -/
def Arena.popOut (a : Arena σ) : M (Byte × Arena σ) :=
  match a.mem[a.obegin + a.obufNext]? with
  | some x => .ok (x, { a with obufNext := a.obufNext + 1 })
  | none => .error .obufOverrun

/-- `ibuf_begin()[m_ibuf_next++] = byte` (include/upd/buffered_dispatcher.hpp:131). -/
def Arena.pushIn (a : Arena σ) (byte : Byte) : M (Arena σ) :=
  if a.ibegin + a.ibufNext < a.mem.length then
    .ok { a with mem := a.mem.set (a.ibegin + a.ibufNext) byte, ibufNext := a.ibufNext + 1 }
  else .error .ibufOverrun

/-- `is_loaded()` (include/upd/buffered_dispatcher.hpp:97). -/
def Arena.isLoaded (a : Arena σ) : Bool := a.obufNext != a.obufBottom

/-- Applies a pure update to the dispatcher. -/
def modifyArena (f : Arena σ → Arena σ) : Eff (Arena σ × σ) Unit := fun st => .ret () (f st.1, st.2)

/-- `[&]() { return *ibuf_ptr++; }` (include/upd/buffered_dispatcher.hpp:141, :265, :266). -/
def Arena.src : Eff (Nat × (Arena σ × σ)) Byte := fun st =>
  match st.2.1.mem[st.2.1.ibegin + st.1]? with
  | some x => .ret x (st.1 + 1, st.2)
  | none => .fault .ibufOverrun

/-- `[&](byte_t byte) { derived().obuf_begin()[m_obuf_bottom++] = byte; }` (include/upd/buffered_dispatcher.hpp:267). -/
def Arena.dest (x : Byte) : Eff (Nat × (Arena σ × σ)) Unit := fun st =>
  match st.2.1.pushOut x with
  | .ok a => .ret () (st.1, a, st.2.2)
  | .error f => .fault f

/-- The world in which the callbacks run. -/
def Arena.world : Lens (Nat × (Arena σ × σ)) σ := ⟨fun st => st.2.2, fun w st => (st.1, st.2.1, w)⟩

/-- `call()` (include/upd/buffered_dispatcher.hpp:260-272). -/
def Arena.call (P : Platform) : Eff (Arena σ × σ) Unit := do
  modifyArena fun a => { a with obufBottom := 0, obufNext := 0 }
  let st ← Eff.get
  let D := st.1.disp
  withPtr do
    let index ← D.getIndex P Arena.src
    let a ← Eff.lift (D.at index)
    a.invoke P Arena.world Arena.src Arena.dest
  modifyArena fun a => { a with indexLoaded := false, loadCount := D.idxBytes, ibufNext := 0 }

/-- `put(byte)` (include/upd/buffered_dispatcher.hpp:130-158). -/
def Arena.put (P : Platform) (byte : Byte) : Eff (Arena σ × σ) Status := do
  let st ← Eff.get
  let a ← Eff.lift (st.1.pushIn byte)
  let a := { a with loadCount := decSize a.sizeMax a.loadCount }
  modifyArena fun _ => a
  if a.loadCount > 0 then pure .loading
  else if a.indexLoaded then do
    Arena.call P
    pure .resolved
  else do
    let index ← withPtr (a.disp.getIndex P Arena.src)
    if index < a.disp.size then do
      let act ← Eff.lift (a.disp.at index)
      let n ← Eff.lift act.inputSize
      modifyArena fun a => { a with loadCount := n, indexLoaded := true }
      if n = 0 then do
        Arena.call P
        pure .resolved
      else pure .loading
    else do
      modifyArena fun a => { a with loadCount := a.disp.idxBytes, ibufNext := 0 }
      pure .dropped

/-- `get()` (include/upd/buffered_dispatcher.hpp:179). -/
def Arena.get : Eff (Arena σ × σ) Byte := fun st =>
  if st.1.isLoaded then
    match st.1.popOut with
    | .ok (x, a) => .ret x (a, st.2)
    | .error f => .fault f
  else .ret 0#8 st

/-- `replace<Index>(F &&)` (include/upd/buffered_dispatcher.hpp:214-217): only for `action_features::ANY`. -/
def Arena.replace (a : Arena σ) (index : Nat) (cb : Callback σ) : Arena σ := { a with disp := a.disp.replace index cb }

/-- `replace<Index>(unevaluated<F, Ftor>)` and `replace<Index, Ftor>()` (include/upd/buffered_dispatcher.hpp:182-185, :207-210). -/
def Arena.replaceStatic (a : Arena σ) (index : Nat) (cb : Callback σ) : Arena σ := { a with disp := a.disp.replaceStatic index cb }

/-- `self[index] = action` (include/upd/buffered_dispatcher.hpp:252, include/upd/dispatcher.hpp:193): no bound check in C++. -/
def Arena.assign (a : Arena σ) (index : Nat) (act : Action σ) : M (Arena σ) :=
  if index < a.disp.acts.length then .ok { a with disp := { a.disp with acts := a.disp.acts.set index act } } else .error .oobWrite

/-- `replace(pykey, pyfunction)` of the Python class (include/upd/python.hpp:172-174, :92-103), as `Buf.pyReplace`. -/
def Arena.pyReplace (a : Arena σ) (k : Key) (fn : List Val → Eff σ (Option Val)) : M (Arena σ) :=
  a.assign (k.index % 256 ^ a.disp.idxBytes) (.stored k.e k.s ⟨k.sig, fn⟩)

end Upd
