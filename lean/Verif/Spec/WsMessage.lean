import Verif.Spec.Ws
/-!
# Specification of WebSocket messages (RFC 6455, sections 5.4, 5.5 and 7.1)
-/
namespace Verif.Spec

/-- What is handed to the application: a whole message with its opcode (text, binary, ping, pong), or a close. -/
inductive Delivered
  | message (opcode : Nat) (bytes : Bytes)
  | close (status : Nat) (reason : Bytes)
deriving Repr, DecidableEq

/-- Between messages; inside a fragmented message with the bytes so far; after a CLOSE frame. -/
inductive MsgState
  | idle
  | inside (opcode : Nat) (bytes : Bytes)
  | closed
deriving Repr, DecidableEq

/-- The data frame `payload` (last one if `fin`) is added to the message `opcode` with `bytes` so far. -/
def extend (opcode : Nat) (bytes payload : Bytes) (fin : Bool) : MsgState × List Delivered :=
  if fin then (.idle, [.message opcode (bytes ++ payload)]) else (.inside opcode (bytes ++ payload), [])

/-- One frame with its payload. -/
def assemble1 : MsgState → WsFrame × Bytes → MsgState × List Delivered
  | .closed, _ => (.closed, [])
  | st, (f, payload) =>
    if f.opcode = 1 ∨ f.opcode = 2 then extend f.opcode [] payload f.fin
    else if f.opcode = 0 then
      match st with
      | .inside opcode bytes => extend opcode bytes payload f.fin
      | st => (st, [])
    else if f.opcode = 8 then
      (.closed, [.close (if payload.isEmpty then 1005 else beNat (payload.take 2)) (payload.drop 2)])
    else (st, [.message f.opcode payload])

/-- A sequence of frames. -/
def assemble : MsgState → List (WsFrame × Bytes) → MsgState × List Delivered
  | st, [] => (st, [])
  | st, x :: t => ((assemble (assemble1 st x).1 t).1, (assemble1 st x).2 ++ (assemble (assemble1 st x).1 t).2)

/-- The frame is not longer than `max`, nor is the message with it. -/
def Room (max : Nat) : MsgState → WsFrame × Bytes → Prop
  | .inside _ bytes, (f, payload) => (if f.opcode = 0 then bytes.length else 0) + payload.length ≤ max
  | _, (_, payload) => payload.length ≤ max

/-- No message, and no frame, is longer than `max`. -/
def WithinLimit (max : Nat) : MsgState → List (WsFrame × Bytes) → Prop
  | _, [] => True
  | st, x :: t => Room max st x ∧ WithinLimit max (assemble1 st x).1 t

instance (max : Nat) (st : MsgState) (x : WsFrame × Bytes) : Decidable (Room max st x) := by
  cases st <;> (unfold Room; infer_instance)

instance decWithinLimit (max : Nat) : (st : MsgState) → (fs : List (WsFrame × Bytes)) → Decidable (WithinLimit max st fs)
  | _, [] => .isTrue trivial
  | st, x :: t =>
    have := decWithinLimit max (assemble1 st x).1 t
    inferInstanceAs (Decidable (Room max st x ∧ WithinLimit max (assemble1 st x).1 t))

end Verif.Spec
