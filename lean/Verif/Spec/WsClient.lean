import Verif.Spec.WsServer
/-! # Specification of responses to requests for WebSocket connections (RFC 6455, section 4.1) -/
namespace Verif.Spec

/-- The value of a `Sec-WebSocket-Extensions` header that has nothing but `permessage-deflate`, maybe with parameters, whose values are sizes of windows. -/
def OnlyDeflate (v : Bytes) : Prop :=
  ∃ (t : AttrText) (ts : List AttrText), v = elementText (t :: ts) ∧ (∀ a ∈ t :: ts, a.Valid) ∧ t.value = none ∧ SameButCase t.name (b! "permessage-deflate") ∧
    ∀ a ∈ ts, ∀ b1 b2 raw text, a.value = some (b1, b2, raw, text) → raw ∈ [b! "9", b! "10", b! "11", b! "12", b! "13", b! "14", b! "15"]

/-- The header fields agree to a WebSocket connection: every answer to the key is the expected one, the connection is not to be closed, and there is no other extension. -/
structure AgreesToWebSocket (accept : Bytes) (fs : List (Bytes × Bytes)) : Prop where
  upgrade : ∃ n, (n, b! "websocket") ∈ fs ∧ SameButCase n (b! "Upgrade")
  key : ∃ n, (n, accept) ∈ fs ∧ SameButCase n (b! "Sec-WebSocket-Accept")
  keys : ∀ x ∈ fs, SameButCase x.1 (b! "Sec-WebSocket-Accept") → x.2 = accept
  connection : ∀ x ∈ fs, SameButCase x.1 (b! "Connection") → KeepsConnection x.2
  extension : ∀ x ∈ fs, SameButCase x.1 (b! "Sec-WebSocket-Extensions") → OnlyDeflate x.2

/-- The header fields that every response which agrees has. -/
structure AnswersWebSocket (accept : Bytes) (fs : List (Bytes × Bytes)) : Prop where
  upgrade : ∃ n, (n, b! "websocket") ∈ fs ∧ SameButCase n (b! "Upgrade")
  key : ∃ n, (n, accept) ∈ fs ∧ SameButCase n (b! "Sec-WebSocket-Accept")

end Verif.Spec
