import Verif.Props.WsSession
/-!
# Reads that end inside a WebSocket frame
-/
namespace Verif.Props
open Verif Verif.Spec Verif.Ws

/-- What may have been received of the first of the frames that are still to come: nothing; or its whole header and part of its payload, but none of the payload if it is the first frame
of a data message, which then is not compressed. -/
def Begun (pre : Bytes) (frames : List (WsFrame × Bytes)) : Prop :=
  pre = [] ∨ ∃ x more, frames = x :: more ∧ ∃ k, k < x.2.length ∧ pre = encode (toHeader x.1) ++ (x.1.transform x.2).take k ∧
    (x.1.opcode = 1 ∨ x.1.opcode = 2 → k = 0 ∧ x.1.rsv1 = false)

/-- `bytes` is what has been read of the frames when a read ends: whole frames, and what `Begun` allows of the next. -/
def MayEnd (frames : List (WsFrame × Bytes)) (bytes : Bytes) : Prop :=
  ∃ done more pre, frames = done ++ more ∧ bytes = wire done ++ pre ∧ Begun pre more

end Verif.Props
