import Verif.Spec.Decode
import Verif.Spec.History

/-!
# Bytes which cannot be decoded

`undecodable P e s t bs` tells whether reading the bytes `bs` as a value of type `t` is undefined, and why. It refers only to positional notation and to
the configuration of the platform. If several elements cannot be decoded, the first one is reported (in C++, the behaviour is undefined
whichever comes first).
-/

namespace Upd.Spec

mutual
/-- Why a byte sequence cannot be decoded, if it cannot. -/
def undecodable (P : Platform) (e : Endian) (s : Mode) : Ty → List Byte → Option Fault
  | .bool, bs => if P.endianMacro = some e ∧ 1 < wireValue e bs then some .badBool else none
  | .uint _, _ => none
  | .sint k, bs =>
    if P.signedMacro ≠ some s ∧ s = .twosComplement ∧ wireValue e bs = 2 ^ (8 * k - 1) ∧ P.intBytes ≤ k then some .signedOverflow else none
  | .arr t n, bs => (List.range n).findSome? fun i => undecodable P e s t (slice bs (i * wireSize t) (wireSize t))
  | .user _ fs, bs => undecodables P e s fs bs

/-- Why a byte sequence cannot be decoded as a list of values, if it cannot. -/
def undecodables (P : Platform) (e : Endian) (s : Mode) : List Ty → List Byte → Option Fault
  | [], _ => none
  | t :: ts, bs => (undecodable P e s t (bs.take (wireSize t))).or (undecodables P e s ts (bs.drop (wireSize t)))
end

variable {σ : Type}

/-- What processing packets does, whatever the bytes and the returned values, with an output buffer of `room` bytes. As `serveAll`, except that
arguments may be impossible to decode, in which case the callback is not called, and that a returned value may be larger than the output buffer,
in which case the callback has been called. -/
def serveExact (P : Platform) (p : Proto σ) (room : Nat) (rest : List Byte) : List (Packet σ) → Eff σ (List Status)
  | [] => pure (List.replicate rest.length .loading)
  | .invalid index :: ps => do
    let sts ← serveExact P p room rest ps
    pure (List.replicate (index.length - 1) .loading ++ .dropped :: sts)
  | .call cb index args :: ps =>
    match undecodables P p.e p.s cb.sig.params args with
    | some f => Eff.lift (.error f)
    | none => do
      let _ ← cb.fn (unwires p.e p.s cb.sig.params args)
      if room < retSize cb.sig.ret then Eff.lift (.error .obufOverrun)
      else do
        let sts ← serveExact P p room rest ps
        pure (List.replicate (index.length + args.length - 1) .loading ++ .resolved :: sts)

/-- `Machine.put`, whatever the bytes and the returned values, with an output queue of at most `room` bytes. Arguments may be impossible to decode, in
which case the callback is not called, and a returned value may be larger than the queue, in which case the callback has been called. -/
def Machine.putExact (P : Platform) (p : Proto σ) (room : Nat) (x : Byte) : Eff (Machine × σ) Status := fun st =>
  match p.classify (st.1.pending ++ [x]) with
  | .request cb args =>
    match undecodables P p.e p.s cb.sig.params args, cb.fn (unwires p.e p.s cb.sig.params args) st.2 with
    | some f, _ => .fault f
    | none, .ret r w => if room < retSize cb.sig.ret then .fault .obufOverrun else .ret .resolved (⟨[], response p.e p.s cb.sig.ret r⟩, w)
    | none, .threw w => .threw (⟨[], []⟩, w)
    | none, .fault f => .fault f
  | _ => Machine.put p x st

/-- An elementary call on this machine. -/
def Io.runExact (P : Platform) (p : Proto σ) (room : Nat) : Io → Eff (Machine × σ) Obs
  | .put x => Machine.putExact P p room x >>= fun st => pure (.status st)
  | op => op.runM p

end Upd.Spec
