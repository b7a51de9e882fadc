import Verif.Spec.WsMixed
import Verif.Model.WsSession
/-!
# Specification of the answers to control frames (RFC 6455, sections 5.5.1 to 5.5.3)
-/
namespace Verif.Spec
open Verif.Ws

/-- The payloads of the PING frames that come before a CLOSE frame. -/
def pingsOf (frames : List Sent) : List Bytes := ((frames.takeWhile fun x => x.frame.opcode != 8).filter fun x => x.frame.opcode == 9).map Sent.text

/-- The PINGs that the application has heard of. -/
def pingsHeard (trace : List Ev) : List Bytes := trace.filterMap fun e => match e with
  | .finish 9 p => some p
  | _ => none

/-- What has been sent until the close was reported. -/
def sentBeforeClose : List Ev → List Bytes
  | [] => []
  | .close _ _ :: _ => []
  | .sent bytes :: t => bytes :: sentBeforeClose t
  | _ :: t => sentBeforeClose t

end Verif.Spec
