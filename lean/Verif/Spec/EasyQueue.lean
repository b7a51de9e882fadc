import Verif.Model.EasyQueue
/-!
# What happens to packets

Functions of what can be seen.  Traces have the newest event first.
-/
namespace Verif.EasyQueue

/-- What has arrived for a queue, in the order of time. -/
def arrivals (t : List (Ev α)) (q : Nat) : List α :=
  match t with
  | [] => []
  | .arrived i x :: t => if i = q then arrivals t q ++ [x] else arrivals t q
  | _ :: t => arrivals t q

/-- What has been passed to the callback, in the order of time. -/
def calls (t : List (Ev α)) (q : Nat) : List α :=
  match t with
  | [] => []
  | .called _ i x :: t => if i = q then calls t q ++ [x] else calls t q
  | _ :: t => calls t q

/-- The fiber that is in the callback. -/
def running (t : List (Ev α)) (q : Nat) : Option Nat :=
  match t with
  | [] => none
  | .called f i _ :: t => if i = q then some f else running t q
  | .returned _ i :: t => if i = q then none else running t q
  | _ :: t => running t q

/-- What may happen, given what has happened before. -/
def Lawful (t : List (Ev α)) : Ev α → Prop
  | .ignored q _ => .stopped q ∈ t
  | .called _ q x => running t q = none ∧ calls t q ++ [x] <+: arrivals t q
  | .returned f q => running t q = some f
  | _ => True

end Verif.EasyQueue
