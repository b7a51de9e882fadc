import Verif.Spec.Live
import Verif.Spec.Easy
import Verif.Spec.EasyNet
import Verif.Spec.EasyQueue
/-!
# Executions of easy UDP sockets and timers
-/
namespace Verif.EasyQueue
open Verif.Live

/-- Fiber `f`, which is running, goes on; in particular, the callback returns, or throws. -/
def Goes (f : Nat) (a : Act α) : Prop := a = .enter f ∨ a = .pop f ∨ a = .back f

/-- An execution in which no fiber keeps the fiber thread for ever, every fiber that can be resumed again and again is resumed, and callbacks return. -/
structure Fairly (e : Exec (step (α := α))) : Prop where
  start : Reachable (e.st 0)
  turns : ∀ n, ∃ m, n ≤ m ∧ (e.st m).cur = none
  resumes : ∀ f, e.Fair (· = .resume f)
  goes : ∀ f, e.Fair (Goes f)

end Verif.EasyQueue

namespace Verif.Easy
open Verif.Live

variable {M : Type} [DecidableEq M]

/-- Fiber `f`, which is running, goes on; in particular, the callback returns, or throws. -/
def Goes (f : Nat) (a : Act M) : Prop := a = .loop f ∨ ∃ n, a = .back f n

/-- An execution in which no fiber keeps the fiber thread for ever, every fiber that can be resumed again and again is resumed, and callbacks return. -/
structure Fairly (e : Exec (step (M := M))) : Prop where
  start : Reachable (e.st 0)
  turns : ∀ n, ∃ m, n ≤ m ∧ (e.st m).cur = none
  resumes : ∀ f, e.Fair (· = .resume f)
  goes : ∀ f, e.Fair (Goes f)

end Verif.Easy

namespace Verif.EasyNet
open Verif.Live

variable {M : Type} [DecidableEq M] {C : Class M}

/-- An execution in which, in addition, the network thread goes on: what a session has to push is pushed. -/
structure Fairly (e : Exec (step (C := C))) : Prop where
  start : Reachable (e.st 0)
  turns : ∀ n, ∃ m, n ≤ m ∧ (e.st m).easy.cur = none
  resumes : ∀ f, e.Fair (· = .easy (.resume f))
  goes : ∀ f, e.Fair fun a => ∃ b, a = .easy b ∧ Easy.Goes f b
  pushes : e.Fair fun a => ∃ fail, a = .push fail

end Verif.EasyNet
