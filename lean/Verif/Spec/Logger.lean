import Verif.Model.Logger
/-!
# Specification of the logger, in terms of the history
-/
namespace Verif.Logger

/-- The messages that have been enqueued, oldest first. -/
def enqueued : List Ev → List Nat
  | [] => []
  | .enqueued id _ :: tr => enqueued tr ++ [id]
  | _ :: tr => enqueued tr

/-- The messages that have been written or ignored, in that order. -/
def handled : List Ev → List Nat
  | [] => []
  | .written id :: tr => handled tr ++ [id]
  | .dropped id _ :: tr => handled tr ++ [id]
  | _ :: tr => handled tr

/-- The messages that have been written, in that order. -/
def written : List Ev → List Nat
  | [] => []
  | .written id :: tr => written tr ++ [id]
  | _ :: tr => written tr

/-- What had been enqueued when thread `t` called `synchronize()` most recently. -/
def before (t : Nat) : List Ev → List Nat
  | [] => []
  | .called u :: tr => if u = t then enqueued tr else before t tr
  | _ :: tr => before t tr

/-- Whenever `synchronize()` returns, all messages that had been enqueued when it was called have been written or ignored. -/
def syncsOk : List Ev → Prop
  | [] => True
  | .returned t :: tr => (∀ id ∈ before t tr, id ∈ handled tr) ∧ syncsOk tr
  | _ :: tr => syncsOk tr

end Verif.Logger
