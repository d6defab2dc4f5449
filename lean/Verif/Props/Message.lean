import Verif.Lemmas.Message
import Verif.Props.Buffered

/-!
# Messages kept by the program

C108: a program which keeps messages in variables, modifies their elements, moves them and sends them any number of times behaves as if messages were records made of the index of a function and of a
list of arguments.
-/

namespace Upd
open Spec TypeList

variable {σ α : Type} {P : Platform}

/-- C108. The program and its meaning have the same outcome: same result, same effects on the rest of the world (in particular the same bytes given to the same destinations in the same order), same
exceptions. Messages which have been moved keep their values. -/
theorem C108_messages (hP : P.Valid) (prog : Mail σ α) (hok : MailOk P [] prog) (w : σ) :
    match meaning prog ([], w) with
    | .ret a (_, w') => ∃ ms, prog.run P [] ([], w) = .ret a (ms, w')
    | .threw (_, w') => ∃ ms, prog.run P [] ([], w) = .threw (ms, w')
    | .fault f => prog.run P [] ([], w) = .fault f := by
  have h := mail_run hP prog [] hok [] [] w ⟨rfl, rfl, fun m c hc => by simp at hc⟩
  cases hm : meaning prog ([], w) with
  | ret a d => rw [hm] at h; exact h
  | threw d => rw [hm] at h; exact h
  | fault f => rw [hm] at h; exact h

/-- C108, destinations which modify the messages, including the one which is being sent. If the bytes of the message which are still to be sent are left alone, what is sent is the message as it was when
`write_to` was called. -/
theorem C108_live {m : Nat} {dest : Byte → Eff (Desk σ) Unit} {d : Desk σ} {bytes : Mem} (hm : d.1[m]? = some bytes)
    (hkeep : ∀ (k : Nat) (b : Byte) (d d' : Desk σ), bytes[k]? = some b → dest b d = .ret () d' →
      (d'.1[m]?).map (·.drop (k + 1)) = (d.1[m]?).map (·.drop (k + 1))) :
    writeMessage m dest d = putAll dest bytes d := by
  unfold writeMessage
  rw [Eff.bind_ret (show Desk.content m d = .ret bytes d by simp only [Desk.content, hm]), sendLive_eq hkeep bytes.length 0 d (by omega) (by simp [hm]), List.drop_zero]

/-- C108, the condition is needed: a destination which sets the last byte of the message to 9 when it receives the first one. -/
theorem C108_live_condition :
    let dest : Byte → Eff (Desk (List Byte)) Unit := fun b d => .ret () (d.1.map fun bs => bs.set 1 9#8, d.2 ++ [b])
    writeMessage 0 dest ([[1#8, 2#8]], []) = .ret () ([[1#8, 9#8]], [1#8, 9#8]) ∧
    putAll dest [1#8, 2#8] ([[1#8, 2#8]], []) = .ret () ([[1#8, 9#8]], [1#8, 2#8]) := ⟨rfl, rfl⟩

/-! Examples. -/

/-- Two keys whose messages have the same class. -/
def putKey : Key := ⟨.little, .twosComplement, 1, 4, ⟨[.uint 2, .sint 1], none⟩⟩
def logKey : Key := ⟨.little, .twosComplement, 1, 5, ⟨[.uint 2, .sint 1], none⟩⟩

/-- The bytes which are sent. -/
def wireTap : Byte → Eff (List Byte) Unit := fun b w => .ret () (w ++ [b])

/-- A program which sends a message twice, modifies it, sends it again, moves the message of another key into it, sends it, and sends the message which has been moved with a modified argument; the result
is the second argument of the first message. -/
def letters : Mail (List Byte) Val :=
  .make putKey [.int 258, .int (-1)] <| .make logKey [.int 7, .int 8] <|
  .send 0 wireTap <| .send 0 wireTap <| .edit 0 2 (.int 3) <| .send 0 wireTap <| .peek 0 2 fun v =>
  .move 0 1 <| .edit 0 1 (.int 1) <| .send 0 wireTap <| .take 1 <| .send 2 wireTap <| .done v

theorem letters_ok : MailOk pc [] letters := by
  have h1 : SigOk putKey.sig := by simp [putKey, SigOk, Ty.WFs, Ty.WF, PackedAll, Packed]
  refine ⟨pc_supported _ _, by decide, by decide, h1, by simp [putKey, Val.FitsAll, Val.Fits, Safe, MinSafe, Representable, InRange],
    pc_supported _ _, by decide, by decide, h1, by simp [logKey, Val.FitsAll, Val.Fits, Safe, MinSafe, Representable, InRange], ⟨_, rfl⟩, ⟨_, rfl⟩,
    ⟨_, _, rfl, rfl, ?_⟩, ⟨_, rfl⟩, ⟨_, rfl, by decide⟩, fun v => ⟨⟨_, rfl, rfl⟩, ⟨_, _, rfl, rfl, ?_⟩, ⟨_, rfl⟩, _, rfl, ⟨_, rfl⟩, trivial⟩⟩
  · simp [putKey, Key.msgClass, Val.Fits, Safe, MinSafe, Representable, InRange]
  · simp [Val.Fits]

example : ∃ ms, letters.run pc [] ([], []) = .ret (.int 3) (ms, [4#8, 2#8, 1#8, 255#8, 4#8, 2#8, 1#8, 255#8, 4#8, 2#8, 1#8, 3#8, 5#8, 1#8, 0#8, 8#8, 5#8, 7#8, 0#8, 8#8]) := by
  have h := C108_messages pc_valid letters letters_ok []
  exact h

/-- A destination which counts in the first byte of the message how many bytes have been sent. -/
def counting : Byte → Eff (Desk (List Byte)) Unit := fun b d => .ret () (d.1.map fun bs => bs.set 0 (BitVec.ofNat 8 (d.2.length + 1)), d.2 ++ [b])

example (bytes : Mem) (w : List Byte) : writeMessage 0 counting ([bytes], w) = putAll counting bytes ([bytes], w) := by
  refine C108_live rfl ?_
  intro k b d d' _ h
  injection h with _ h
  subst h
  simp only [List.getElem?_map, Option.map_map]
  congr 1
  funext bs
  simp [Function.comp_def, List.drop_set]

end Upd
