import Verif.Model.Session

/-!
# A program which calls the functions of several devices

Each device has its own keyring, platform and link.
-/

namespace Upd

variable {σ α : Type}

/-- A device and its link: its dispatcher (buffered or not), and the bytes on their way to it and from it. -/
inductive Dev (σ : Type) where
  | buffered (b : Buf (Link σ)) (up down : List Byte)
  | unbuffered (D : Dispatcher (Link σ)) (up down : List Byte)

/-- A call in blocking mode (test/snippet/caller4:7-14) by a caller of platform `P` to a device of platform `Q`, which serves the request (test/snippet/callee2:11-16). The other
devices, which share the rest of the world only, do nothing meanwhile. -/
def Dev.call (P Q : Platform) (k : Key) (args : List Val) : Dev σ → σ → Res (Dev σ × σ) (Option Val)
  | .buffered b up down, w =>
    match blockingCall P Link.beside (serveBuffered Q) k args (b, ⟨up, down, w⟩) with
    | .ret r (b, l) => .ret r (.buffered b l.up l.down, l.world)
    | .threw (b, l) => .threw (.buffered b l.up l.down, l.world)
    | .fault f => .fault f
  | .unbuffered D up down, w =>
    match blockingCall P (Lens.whole _) (serveUnbuffered Q D) k args ⟨up, down, w⟩ with
    | .ret r l => .ret r (.unbuffered D l.up l.down, l.world)
    | .threw l => .threw (.unbuffered D l.up l.down, l.world)
    | .fault f => .fault f

/-- A program: it calls functions of the devices, and does other things; what it does next depends on the results. -/
inductive HubProg (σ α : Type) where
  | done (a : α)
  | call (dev name : Nat) (args : List Val) (next : Option Val → HubProg σ α)
  | act (x : Eff σ (Option Val)) (next : Option Val → HubProg σ α)

/-- The platform of a device and the keyring which it shares with the caller. -/
structure Site where
  Q : Platform
  K : Keyring

/-- Executes a program: calls are made through the keys of the keyring of the device (test/snippet/caller4:4). -/
def HubProg.remote (P : Platform) (sites : List Site) : HubProg σ α → Eff (List (Dev σ) × σ) α
  | .done a => pure a
  | .call dev name args next => fun st =>
    match sites[dev]?, st.1[dev]? with
    | some s, some d =>
      match s.K.get11 name with
      | none => .fault .illTyped
      | some k =>
        match d.call P s.Q k args st.2 with
        | .ret r (d, w) => HubProg.remote P sites (next r) (st.1.set dev d, w)
        | .threw (d, w) => .threw (st.1.set dev d, w)
        | .fault f => .fault f
    | _, _ => .fault .illTyped
  | .act x next => fun st =>
    match x st.2 with
    | .ret r w => HubProg.remote P sites (next r) (st.1, w)
    | .threw w => .threw (st.1, w)
    | .fault f => .fault f

end Upd
