import Verif.Spec.Http
import Verif.Spec.HttpValue
/-! # Specification of requests for WebSocket connections (RFC 6455, section 4.2.1) -/
namespace Verif.Spec

/-- The value of a `Connection` header: options with commas between them, none of which is `close`. -/
def KeepsConnection (v : Bytes) : Prop :=
  ∃ ts : List AttrText, ts ≠ [] ∧ v = headerText (ts.map fun t => [t]) ∧ ∀ t ∈ ts, t.Valid ∧ t.value = none ∧ ¬ SameButCase t.name (b! "close")

/-- The header fields ask for a WebSocket connection of version 13: every key has 24 characters, and the connection is not to be closed. -/
structure AsksForWebSocket (fs : List (Bytes × Bytes)) : Prop where
  upgrade : ∃ n, (n, b! "websocket") ∈ fs ∧ SameButCase n (b! "Upgrade")
  version : ∃ n, (n, b! "13") ∈ fs ∧ SameButCase n (b! "Sec-WebSocket-Version")
  key : ∃ n k, (n, k) ∈ fs ∧ SameButCase n (b! "Sec-WebSocket-Key")
  keys : ∀ x ∈ fs, SameButCase x.1 (b! "Sec-WebSocket-Key") → x.2.length = 24 ∧ x.2.headD 0 ≠ 0
  connection : ∀ x ∈ fs, SameButCase x.1 (b! "Connection") → KeepsConnection x.2

/-- The header fields that every request for a WebSocket connection of version 13 has. -/
structure OffersWebSocket (fs : List (Bytes × Bytes)) : Prop where
  upgrade : ∃ n, (n, b! "websocket") ∈ fs ∧ SameButCase n (b! "Upgrade")
  version : ∃ n, (n, b! "13") ∈ fs ∧ SameButCase n (b! "Sec-WebSocket-Version")
  key : ∃ n k, (n, k) ∈ fs ∧ SameButCase n (b! "Sec-WebSocket-Key") ∧ k.length = 24

end Verif.Spec
