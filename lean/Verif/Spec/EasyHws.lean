import Verif.Spec.EasyWs
import Verif.Spec.Http
import Verif.Model.EasyHws
/-! # What the user of `Easy_HWS_Server` is expected to see -/
namespace Verif.EasyHws
open Verif.Easy Verif.EasyNet Verif.EasyWs Verif.Spec

/-- A plain request: HEAD, or GET without a header `Upgrade`, which is not to a proxy -/
def IsPlain (h : HttpRequest.Headers) : Prop :=
  h.is_proxy = false ∧ (h.method = b! "HEAD" ∨ (h.method = b! "GET" ∧ ∀ r ∈ h.headers, ¬ SameButCase r.1 (b! "Upgrade")))

/-- Its event, with the address in the request. -/
def asked (h : HttpRequest.Headers) : Event HMsg :=
  { ty := .other, data := h.raw_host ++ h.raw_path ++ b! "?" ++ h.raw_query, msg := some (if h.method = b! "HEAD" then .head else .get) }

/-- An event of a WebSocket session, as the callback sees it: its type, its error code, its data and the kind of message are those of `Spec/EasyWs.lean`. -/
def seenWs (e : Event WMsg) : Event HMsg := { ty := e.ty, error := e.error, data := e.data, msg := e.msg.map .ws }

/-- Whether an event is a plain request, the opening of a WebSocket session, or a message -/
def isRequest (e : Event HMsg) : Bool := e.msg == some .get || e.msg == some .head
def isOpen (e : Event HMsg) : Bool := e.msg == some (.ws .open)
def isMessage (e : Event HMsg) : Bool := e.msg == some (.ws .text) || e.msg == some (.ws .binary) || e.msg == some (.ws .pong)

end Verif.EasyHws
