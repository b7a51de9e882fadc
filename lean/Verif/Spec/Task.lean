import Verif.Model.Task
/-!
# What is expected of the task scheduler, in terms of its history (latest event first)
-/
namespace Verif.Task

/-- The calls of `launch()` whose elements have been taken out of the queue. -/
def poppedIds (tr : List Ev) : List Nat := tr.filterMap fun | .popped id _ _ => some id | _ => none

/-- The calls of `launch()` whose tasks have begun to execute. -/
def beganIds (tr : List Ev) : List Nat := tr.filterMap fun | .began id _ => some id | _ => none

/-- The calls of `launch()` whose tasks were found abandoned. -/
def skippedIds (tr : List Ev) : List Nat := tr.filterMap fun | .skipped id _ => some id | _ => none

/-- The batches of the elements that have been taken out of the queue. -/
def poppedBatches (tr : List Ev) : List Nat := tr.filterMap fun | .popped _ _ b => some b | _ => none

end Verif.Task
