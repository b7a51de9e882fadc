import Verif.Model.Shutdown
/-!
# Specification of stopping
-/
namespace Verif.Shutdown

/-- `SIGHUP`, `SIGINT`, `SIGALRM` and `SIGTERM` ask the process to stop. -/
def StopSignal (n : Nat) : Prop := n = 1 ∨ n = 2 ∨ n = 14 ∨ n = 15

/-- The rounds of the fiber scheduler that begin, newest first: a sleep, or a fiber that is taken and may be run -/
def rounds : List Ev → List Ev
  | [] => []
  | .slept d :: tr => .slept d :: rounds tr
  | .took i :: tr => .took i :: rounds tr
  | _ :: tr => rounds tr

/-- What only the main thread does -/
def ofMain : Act → Bool
  | .main | .say | .fail _ | .throw | .loop .. => true
  | _ => false

end Verif.Shutdown
