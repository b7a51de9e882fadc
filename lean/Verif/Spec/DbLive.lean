import Verif.Spec.FiberLive
import Verif.Spec.DbAsk
/-!
# Executions of fibers and queries
-/
namespace Verif.DbAsk
open Verif.Live
variable {D : Driver} {cmd : Nat → D.Cmd}

/-- Thread `t` goes on with the query that it executes: in particular, calls to the server and to the pool return, or throw. -/
def Works (t : Nat) (a : Act D) : Prop :=
  (∃ e, a = .fiber (.exit t e)) ∨ (∃ v, a = .fiber (.notify t v)) ∨ a = .fiber (.finalize t) ∨ a = .readConf t ∨ a = .allocate t ∨ (∃ net, a = .execute t net) ∨
  (∃ net, a = .fetch t net) ∨ (∃ ok, a = .reset t ok) ∨ a = .rereadConf t ∨ a = .giveBack t

/-- What is done to fibers and futures. -/
def fiberAct : Option (Act D) → Option Fiber.Act
  | some (.fiber a) => some a
  | _ => none

/-- An execution in which threads that execute queries go on. -/
structure Live (e : Exec (step cmd)) : Prop where
  start : Reachable cmd (e.st 0)
  works : ∀ t, e.Fair (Works t)

/-- An execution in which, in addition, time goes on, and so does the fiber thread; see `Fiber.Live`. -/
structure FiberLive (e : Exec (step cmd)) : Prop extends Live e where
  warn : 0 < (e.st 0).fib.warn
  fail : 0 < (e.st 0).fib.fail
  clock : ∀ t, ∃ n, t ≤ (e.st n).fib.clock
  sched : ∀ n, (∀ m, n ≤ m → ∃ k, m ≤ k ∧ Enabled Fiber.step Fiber.Sched (e.st k).fib) → ∃ m a, n ≤ m ∧ e.act m = some (.fiber a) ∧ Fiber.Sched a
  prompt : ∀ t, ∃ n, ∀ m, n ≤ m → ∀ v, e.act m = some (.fiber (.launch v)) → t < v
  body : ∀ n k, (∀ m, n ≤ m → (e.st m).fib.pc = .running k ∨ ∃ f, (e.st m).fib.pc = .yielding k f) → ∃ m f, n ≤ m ∧ ∀ j, m ≤ j → (e.st j).fib.pc = .yielding k f

/-- The connection that future `f` had has been dealt with: it has been returned to the pool; or it could not be reset; or the pool has refused it, and then a configuration had been loaded
with which nothing is pooled. -/
def Dealt (s : Sys D) (f : Nat) : Prop :=
  ∃ id uri, ConnOf s f id uri ∧
    (Pool.Ev.pooled (future f) id ∈ s.pool.trace ∨ Pool.Ev.reset id false ∈ s.pool.trace ∨ (Pool.Ev.refused (future f) id ∈ s.pool.trace ∧ ∃ c ∈ s.confs, c.size = 0))

end Verif.DbAsk
