import Verif.Model.WsPeers
import Verif.Spec.WsMessage
/-!
# What the other end of a WebSocket connection should be told
-/
namespace Verif.Spec.WsPeers
open Verif.WsPeers

/-- Of a call, by a thread: a message as it is; a close with its status, which is 1008 (`ws_status_policy_violation`) if it is out of range, and as much of its reason as fits a control frame. -/
def told : Event → Option (Nat × Delivered)
  | .send t opcode data => some (t, .message opcode data)
  | .shutDown t status reason => some (t, .close (if 1000 ≤ status ∧ status ≤ 4999 then status.toNat else 1008) (reason.take 123))
  | .returned _ _ => none

/-- Calls of thread `t` that have returned after they have been accepted, in their order; and the one that has not returned. -/
def progress (t : Nat) : List Delivered × Option Delivered → Event → List Delivered × Option Delivered
  | (done, current), .returned u ok => if u = t then (if ok then done ++ current.toList else done, none) else (done, current)
  | (done, current), e => match told e with
    | some (u, m) => if u = t then (done, some m) else (done, current)
    | none => (done, current)

def accepted (t : Nat) (h : List Event) : List Delivered := (h.foldl (progress t) ([], none)).1
def current (t : Nat) (h : List Event) : Option Delivered := (h.foldl (progress t) ([], none)).2

/-- `all` is made of the calls of all threads: for each thread, all that have returned after they have been accepted, in their order, and maybe the one that has not returned. -/
def Interleaves (h : List Event) (all : List (Nat × Delivered)) : Prop :=
  ∀ t, (all.filter (·.1 = t)).map (·.2) = accepted t h ∨ ∃ m, current t h = some m ∧ (all.filter (·.1 = t)).map (·.2) = accepted t h ++ [m]

/-- Nothing follows a close. -/
def untilClose : List Delivered → List Delivered
  | [] => []
  | .close status reason :: _ => [.close status reason]
  | .message opcode data :: r => .message opcode data :: untilClose r

/-- RSV1 is set, so the payload is compressed. -/
def compressed (frame : Bytes) : Bool := frame.head?.any fun b => b.toNat.testBit 6

end Verif.Spec.WsPeers
