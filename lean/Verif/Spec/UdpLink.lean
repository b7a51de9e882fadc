import Verif.Model.UdpLink
import Verif.Spec.Listen
import Verif.Spec.EasyQueue
/-!
# What happens to packets on a network

Functions of what can be seen.  Logs have the newest event first.
-/
namespace Verif.UdpLink
open Verif.Listen

/-- What the network has brought to a socket, in the order of time: where it comes from, and the data. -/
def brought (log : List Ev) (i q : Nat) : List (Address × Bytes) :=
  match log with
  | [] => []
  | .delivered j p src data :: log => if j = i ∧ p = q then brought log i q ++ [(sourceOf src, data)] else brought log i q
  | _ :: log => brought log i q

/-- What the callback of a server or client has got since one of its starts, in the order of time. -/
def got (w : World) (i q : Nat) : List (Address × Bytes) := EasyQueue.calls (w.ends i).trace q

/-- What has been sent through one socket to an address with success, in the order of time. -/
def sentBy (log : List Ev) (i q : Nat) (to : Address) : List Bytes :=
  match log with
  | [] => []
  | .sent j p a data true :: log => if j = i ∧ p = q ∧ a = to then sentBy log i q to ++ [data] else sentBy log i q to
  | _ :: log => sentBy log i q to

end Verif.UdpLink
