import Verif.Spec.Live
import Verif.Spec.Logger
/-!
# Executions of the logger
-/
namespace Verif.Logger
open Verif.Live

/-- Thread `t` goes on. -/
def Goes (t : Nat) (a : Act) : Prop := a = .go t

/-- An execution in which all threads are scheduled fairly, mutexes are fair, and thread `l` calls `thread_loop()` again and again, as the thread that is started by `main()` does. -/
structure Live (e : Exec step) (l : Nat) : Prop where
  start : Reachable (e.st 0)
  fair : ∀ t, e.Fair (Goes t)
  loop : ∀ n, (e.st n).pc l = .idle → ∃ m, n ≤ m ∧ e.act m = some (.call l .loop)

end Verif.Logger
