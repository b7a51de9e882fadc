import Verif.Model.Timer
/-!
# What is expected of timers
-/
namespace Verif.Timer

/-- The scheduled times with which the callback for one insertion was called, in order of time. -/
def ticks (id : Nat) : List Ev → List Int
  | [] => []
  | .tick i _ sch _ :: t => if i = id then ticks id t ++ [sch] else ticks id t
  | _ :: t => ticks id t

/-- `start, start + period, …`: `n` times. -/
def schedule (start period : Int) (n : Nat) : List Int := (List.range n).map fun k : Nat => start + (k : Int) * period

end Verif.Timer
