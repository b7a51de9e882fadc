import Verif.Spec.WsMessage
/-!
# Specification of frames with compressed messages (RFC 7692, section 7.2.2)
-/
namespace Verif.Spec

/-- A frame, its payload as it is on the wire before masking, and what the payload stands for. -/
structure Sent where
  frame : WsFrame
  payload : Bytes
  text : Bytes
deriving Repr, DecidableEq

/-- As it is on the wire. -/
def Sent.raw (x : Sent) : WsFrame × Bytes := (x.frame, x.payload)

/-- As it is meant. -/
def Sent.meant (x : Sent) : WsFrame × Bytes := (x.frame, x.text)

/-- What a decompressor in state `z` makes of the payload of a whole message, unless it reports an error: first of the payload, if it is not empty, and then of the empty block which the sender has taken off.  (`stream` and `finish`
return the next state, the output, and whether there was an error.) -/
def unpackMessage {Z : Type} (stream : Z → Bytes → Z × Bytes × Bool) (finish : Z → Z × Bytes × Bool) (z : Z) (payload : Bytes) : Option (Z × Bytes) :=
  match (if payload = [] then (z, [], false) else stream z payload) with
  | (_, _, true) => none
  | (z1, a, false) => match finish z1 with
    | (_, _, true) => none
    | (z2, b, false) => some (z2, a ++ b)

/-- Frames can be put into the wire format; a CLOSE payload has no status, or a whole one; a compressed message is one frame whose payload is no longer than `max` and is decompressed to its text, where the decompressor goes on from one compressed message
to the next one; and other payloads stand for themselves. -/
def Readable {Z : Type} (max : Nat) (unpack : Z → Bytes → Option (Z × Bytes)) : Z → List Sent → Prop
  | _, [] => True
  | z, x :: t => x.frame.Fits ∧ x.payload.length = x.frame.len ∧ (x.frame.opcode = 8 → x.payload.length ≠ 1) ∧
      if x.frame.rsv1 then x.frame.fin = true ∧ x.payload.length ≤ max ∧ ∃ z', unpack z x.payload = some (z', x.text) ∧ Readable max unpack z' t
      else x.text = x.payload ∧ Readable max unpack z t

end Verif.Spec
