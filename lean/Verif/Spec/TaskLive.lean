import Verif.Spec.Live
import Verif.Spec.Task
/-!
# Executions of the task scheduler
-/
namespace Verif.Task
open Verif.Live

/-- An execution in which all threads are scheduled fairly, mutexes are fair, and the execution of a task always ends.  There is at least one thread, and no task
launches another one while a thread waits to execute the same task once more (if one does so, there can be a deadlock: see `C33_deadlock`). -/
structure Live (e : Exec step) : Prop where
  start : Reachable (e.st 0)
  threads : 0 < (e.st 0).threads
  /-- A thread takes an element out of the queue if it can do so again and again. -/
  pop : ∀ t, e.Fair (· = .pop t)
  /-- A thread gets the mutex of a task if it can. -/
  enter : ∀ t, e.Fair (· = .enter t)
  /-- A task that launches another one gets the mutex of the queue if it can. -/
  push : ∀ t, e.Fair (· = .push t)
  /-- A task returns or throws, unless it waits for a mutex for ever. -/
  leave : ∀ t, e.Fair (· = .leave t)
  apart : ∀ n t u e1 e2 k, (e.st n).pc t = .waiting e1 → (e.st n).pc u = .launching e2 k → e1.task ≠ e2.task

end Verif.Task
