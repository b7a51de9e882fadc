import Verif.Model.EasyConnect
import Verif.Spec.HttpRequest
/-! # Specification vocabulary for the addresses of easy clients -/
namespace Verif.Spec
open Verif.EasyConnect (Kind)

/-- The port that is documented for addresses without one; TCP and SSL clients require a port. -/
def documentedPort : Kind → Option Nat
  | .tcp => none
  | .ssl => none
  | .http => some 80
  | .ws => some 80
  | .https => some 443
  | .wss => some 443

/-- The port that an address means: the one in it, or the documented one. -/
def meantPort (k : Kind) (p : RefParts) : Option Nat :=
  match p.port with
  | some (_, n) => some n
  | none => documentedPort k

/-- The addresses that the documentation of `connect()` allows: a host and a port, for WebSocket clients also a path and a query.  A fragment is never allowed. -/
structure AllowedAddress (k : Kind) (p : RefParts) : Prop where
  port : meantPort k p ≠ none
  path : k = .ws ∨ k = .wss ∨ p.path = none
  query : k = .ws ∨ k = .wss ∨ p.query = none
  fragment : p.fragment = none

/-- The text `host:port`, which a client sends as `Host` -/
def HostText (host : Bytes) (port : Nat) (s : Bytes) : Prop := ∃ d, d ≠ [] ∧ DecNum d port ∧ s = host ++ b! ":" ++ d

end Verif.Spec
