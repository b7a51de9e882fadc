import Verif.Model.EasyTimer
import Verif.Spec.EasyQueue
import Verif.Spec.Timer
import Verif.Spec.Heap
/-!
# What is expected of easy timers

Functions of what can be seen.
-/
namespace Verif.EasyTimer

/-- The times that the callback of an easy timer has been called with since one of its starts, in order. -/
def heard (w : World) (i q : Nat) : List Int := EasyQueue.calls (w.ends i).trace q

/-- The start number `q` of the object `i`, with the timer `2 * n`, has been made at the time `now`; it is the insertion `id` of the scheduler. -/
def Started (w : World) (i q n id : Nat) (now delay period : Int) : Prop := w.links[n]? = some (id, i, q) ∧ Timer.Ev.inserted id (2 * n) now delay period ∈ w.sched.trace

/-- There was enough memory for everything, and neither `stop()` nor another `start()` has been called. -/
def Undisturbed (w : World) (i q : Nat) : Prop := .stopped q ∉ (w.ends i).trace ∧ ∀ x, .failed q x ∉ (w.ends i).trace

/-- The timer thread is not in a callback of the object, and all its fibers have returned. -/
def Settled (w : World) (i : Nat) : Prop := (w.ends i).net = none ∧ ∀ x ∈ (w.ends i).fibs, x.st = .done

end Verif.EasyTimer
