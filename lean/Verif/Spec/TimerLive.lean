import Verif.Spec.Live
import Verif.Spec.Timer
/-!
# Executions of the timer scheduler
-/
namespace Verif.Timer
open Verif.Live

/-- The timer thread looks at the queue. -/
def Loops (a : Act) : Prop := ∃ k, a = .loop k

/-- An execution in which time goes on, and so does the timer thread, in particular because callbacks return.  No call of `insert_weak()` waits for ever after it has read the
clock. -/
structure Live (e : Exec step) : Prop where
  start : Reachable (e.st 0)
  clock : ∀ t, ∃ n, t ≤ (e.st n).clock
  loop : e.Fair Loops
  call : e.Fair (· = .call)
  prompt : ∀ t, ∃ n, ∀ m, n ≤ m → ∀ timer delay period ago, e.act m = some (.insert timer delay period ago) → t < (e.st m).clock - ago

end Verif.Timer
