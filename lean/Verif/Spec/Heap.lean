import Verif.Model.TimerHeap
/-!
# What it means that nothing is overslept
-/
namespace Verif.Heap

/-- No element is less than the one at index `(i - 1) / 2`. -/
def Ordered (key : α → Int) (l : List α) : Prop := ∀ i x y, l[(i - 1) / 2]? = some x → l[i]? = some y → key x ≤ key y

end Verif.Heap

namespace Verif.TimerHeap
open Verif.Timer

/-- Nothing takes time but sleep, and sleep ends in time: the clock is read and used at the same moment, callbacks and all else are instantaneous, and the timer thread wakes up no later than it has asked to be
woken. -/
def Punctual (s : Sys) : List Act → Prop
  | [] => True
  | a :: as =>
    (match a with
      | .pass d => ∃ u late, s.thread = .asleep u late ∧ ∀ t, u = some t → s.clock + d ≤ t
      | .insert _ _ _ ago _ => ago = 0
      | .loop _ _ late => late = 0
      | _ => True) ∧
    ∀ s', step s a = .ok s' → Punctual s' as

end Verif.TimerHeap
