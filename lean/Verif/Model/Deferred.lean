import Verif.Model.Session

/-!
# Deferred responses

The non-blocking mode of the documentation (doc/caller.rst.in, "Non-blocking mode"): the caller keeps an action, made from the key and a
callback (the hook), and invokes it on the response when it comes.
-/

namespace Upd

variable {σ τ : Type}

/-- A callback which acts on the rest of the world. -/
def Callback.hosted (cb : Callback σ) : Callback (Link σ) := ⟨cb.sig, fun args => Eff.zoom Link.rest (cb.fn args)⟩

/-- `send_request()` followed by `process_response()` (test/snippet/caller5:6-19). In between, the callee serves the request. -/
def hookedCall (P : Platform) (L : Lens τ (Link σ)) (serve : Eff τ Unit) (k : Key) (args : List Val) (hook : Callback σ) : Eff τ Unit := do
  Eff.zoom L (k.writeTo P args Link.writeToSlave)
  serve
  Eff.zoom L ((k.withHook hook.hosted).invoke1 P (Lens.whole _) Link.readFromSlave)

/-- A sequence of such calls, by names. -/
def hookedCalls (P : Platform) (K : Keyring) (L : Lens τ (Link σ)) (serve : Eff τ Unit) : List (Nat × List Val × Callback σ) → Eff τ Unit
  | [] => pure ()
  | (name, args, hook) :: calls =>
    match K.get11 name with
    | none => Eff.lift (.error .illTyped)
    | some k => do
      hookedCall P L serve k args hook
      hookedCalls P K L serve calls

/-- `*it++` on the bytes of an array (`reader_iterator`, include/upd/detail/io/immediate_process.hpp:46-50). -/
def arraySrc : Eff (List Byte × σ) Byte := fun st =>
  match st.1 with
  | [] => .fault .oobRead
  | x :: bytes => .ret x (bytes, st.2)

/-- The byte held by an element of an array of bytes. -/
def Val.byte : Val → Byte
  | .int x => BitVec.ofInt 8 x
  | _ => 0#8

/-- `reply` (test/buffered_dispatcher.cpp:24-25): the action kept by the caller is invoked on the bytes of the payload. The action is a
parameter of the model (in the test, it is a global variable, assigned before). -/
def replyFn (P : Platform) (a : Action σ) : List Val → Eff σ (Option Val) := fun args w =>
  match args with
  | [.arr vs] =>
    match a.invoke1 P ⟨fun st => st.2, fun w st => (st.1, w)⟩ arraySrc (vs.map Val.byte, w) with
    | .ret _ st => .ret none st.2
    | .threw st => .threw st.2
    | .fault f => .fault f
  | _ => .fault .illTyped

/-- Two devices which both have a buffered dispatcher, and the link between them. -/
structure Duo (σ : Type) where
  caller : Buf (Link σ)
  callee : Buf (Link σ)
  link : Link σ

/-- The dispatcher of the callee, and the link. -/
def Duo.atCallee : Lens (Duo σ) (BState (Link σ)) := ⟨fun d => (d.callee, d.link), fun st d => { d with callee := st.1, link := st.2 }⟩

/-- The dispatcher of the caller, and the link. -/
def Duo.atCaller : Lens (Duo σ) (BState (Link σ)) := ⟨fun d => (d.caller, d.link), fun st d => { d with caller := st.1, link := st.2 }⟩

/-- The link. -/
def Duo.onLink : Lens (Duo σ) (Link σ) := ⟨fun d => d.link, fun l d => { d with link := l }⟩

/-- `buffered_dispatcher_DO_reply` (test/buffered_dispatcher.cpp:248-262): the request is sent, the callee receives it and replies with the
key `kR`, whose parameter is an array of `n` bytes, and the caller receives the reply. Yields what `reply` returned. -/
def repliedCall (P Q : Platform) (k : Key) (args : List Val) (kR : Key) (n : Nat) : Eff (Duo σ) Bool := do
  Eff.zoom Duo.onLink (k.writeTo P args Link.writeToSlave)
  let _ ← Eff.zoom Duo.atCallee (Buf.readFrom Q Link.readFromMaster)
  let ok ← Eff.zoom Duo.atCallee (Buf.reply Q kR n Link.writeToMaster)
  let _ ← Eff.zoom Duo.atCaller (Buf.readFrom P Link.readFromSlave)
  pure ok

end Upd
