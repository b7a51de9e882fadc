import Verif.Spec.EasyNet
import Verif.Spec.WsMessage
import Verif.Model.EasyWs
/-! # What the user of `Easy_WS_Server` or `Easy_WS_Client` is expected to see -/
namespace Verif.EasyWs
open Verif.Easy Verif.EasyNet Verif.Spec

/-- A session has been opened. -/
def opened (addr : Bytes) : Event WMsg := { ty := .other, data := addr, msg := some .open }

/-- The end of a session, with the status as a decimal number, and the reason. -/
def ended (status : Nat) (reason : Bytes) : Event WMsg := { ty := .close, data := (Nat.toDigits 10 status).map chr ++ b! ": " ++ reason }

/-- What the user sees of messages and closes: nothing of a PING. -/
def shown : Delivered → List (Event WMsg)
  | .message op bytes =>
    match op with
    | 1 => [{ ty := .other, data := bytes, msg := some .text }]
    | 2 => [{ ty := .other, data := bytes, msg := some .binary }]
    | 10 => [{ ty := .other, data := bytes, msg := some .pong }]
    | _ => []
  | .close status reason => [ended status reason]

/-- A close that is reported if the peer has not sent a CLOSE frame -/
def lost (ds : List Delivered) : List (Event WMsg) :=
  if ds.any (fun | .close _ _ => true | _ => false) then [] else [ended 1006 (b! "no CLOSE frame received")]

/-- Whether an event is the opening, or a message -/
def isOpen (e : Event WMsg) : Bool := e.msg == some .open
def isMessage (e : Event WMsg) : Bool := e.msg == some .text || e.msg == some .binary || e.msg == some .pong

end Verif.EasyWs
