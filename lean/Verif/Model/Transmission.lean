import Verif.Model.Session

/-!
# The programs of the front page

The handler of README.md:144-149, which is called once per transmission on the bus, and the caller of README.md:77-114.
-/

namespace Upd

variable {σ : Type}

/-- `Wire.read()` converted to `byte_t` (README.md:147). The Arduino library is not part of the repository: according to its documentation, the
next byte of the transmission is returned, or -1 if there is none left. -/
def wireRead : Eff (Link σ) Byte := fun l =>
  match l.up with
  | [] => .ret 255#8 l
  | x :: up => .ret x { l with up := up }

/-- `m` executions of the body of the loop (README.md:146-148), unless a packet is dropped; then, `last`. -/
def receiveLoop (Q : Platform) (last : Eff (BState (Link σ)) Unit) : Nat → Eff (BState (Link σ)) Unit
  | 0 => last
  | m + 1 => do
    let x ← onWorld wireRead
    let status ← Buf.put Q x
    match status with
    | .dropped => pure ()
    | _ => receiveLoop Q last m

/-- The handler given to `Wire.onReceive` (README.md:144-149), for `n` bytes received. Since `n` is decremented before it is tested, `n == 0` leads
to negative values; decrementing the smallest value of type `int` is undefined. -/
def onReceive (Q : Platform) (n : Nat) : Eff (BState (Link σ)) Unit :=
  if n = 0 then receiveLoop Q (Eff.lift (.error .signedOverflow)) (2 ^ (8 * Q.intBytes - 1) + 1) else receiveLoop Q (pure ()) n

/-- Successive transmissions: each of them replaces what may remain of the previous one. -/
def receiveTransmissions (Q : Platform) : List (List Byte) → Eff (BState (Link σ)) Unit
  | [] => pure ()
  | t :: ts => do
    onWorld (fun l : Link σ => .ret () { l with up := t })
    onReceive Q t.length
    receiveTransmissions Q ts

/-- The caller (README.md:77-114): each request is sent in a transmission of its own. The bytes given to `Wire.write` since `Wire.beginTransmission`
are those of the transmission; the bus neither loses nor alters bytes, and the handler of the callee is called before the next transmission. -/
def transmitAll (P Q : Platform) (K : Keyring) : List (Nat × List Val) → Eff (BState (Link σ)) Unit
  | [] => pure ()
  | (name, args) :: calls =>
    match K.get11 name with
    | none => Eff.lift (.error .illTyped)
    | some k => do
      onWorld (fun l : Link σ => .ret () { l with up := [] })
      onWorld (k.writeTo P args Link.writeToSlave)
      (fun st => onReceive Q st.2.up.length st)
      transmitAll P Q K calls

end Upd
