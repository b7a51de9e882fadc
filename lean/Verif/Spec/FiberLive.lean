import Verif.Spec.Live
import Verif.Spec.Fiber
/-!
# Executions of the fiber scheduler
-/
namespace Verif.Fiber
open Verif.Live

/-- The fiber thread goes on, outside of fibers. -/
def Sched (a : Act) : Prop := a = .enter ∨ a = .scan ∨ a = .endScan ∨ (∃ k, a = .pick k) ∨ a = .look ∨ a = .register

/-- The initializer that thread `t` runs exits. -/
def Exits (t : Nat) (a : Act) : Prop := ∃ x, a = .exit t x

/-- An execution in which time goes on, and so does the fiber thread.  The time limits in the configuration are positive (see `C65_starved` for what happens otherwise); no call of
`launch()` waits for ever after it has read the clock; initializers of futures exit; and no fiber keeps the fiber thread for ever, except by waiting for a mutex in `yield()`. -/
structure Live (e : Exec step) : Prop where
  start : Reachable (e.st 0)
  warn : 0 < (e.st 0).warn
  fail : 0 < (e.st 0).fail
  clock : ∀ t, ∃ n, t ≤ (e.st n).clock
  sched : e.Fair Sched
  exit : ∀ t, e.Fair (Exits t)
  prompt : ∀ t, ∃ n, ∀ m, n ≤ m → ∀ v, e.act m = some (.launch v) → t < v
  body : ∀ n k, (∀ m, n ≤ m → (e.st m).pc = .running k ∨ ∃ f, (e.st m).pc = .yielding k f) → ∃ m f, n ≤ m ∧ ∀ j, m ≤ j → (e.st j).pc = .yielding k f

end Verif.Fiber
