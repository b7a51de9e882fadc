import Verif.Model.Appointment
/-!
# What an appointment is

The place of an object is given by the last thing that has happened to it.  Traces have the newest event first.
-/
namespace Verif.Appoint

/-- Who does it. -/
def Ev.who : Ev → Nat
  | .calls i _ => i
  | .busy i _ _ => i
  | .enrolls i _ _ => i
  | .throws i => i
  | .leaves i => i

/-- The object that an action is on. -/
def Act.who : Act → Nat
  | .enroll i _ => i
  | .lock i => i
  | .error i => i
  | .withdraw i => i
  | .die i => i

/-- The file and the index that an object has after the events in a trace, if it has any. -/
def place (t : List Ev) (i : Nat) : Option (Nat × Nat) :=
  match t.find? (fun e => e.who = i) with
  | some (.enrolls _ f b) => some (f, b)
  | _ => none

/-- An index is taken. -/
def Taken (t : List Ev) (f b : Nat) : Prop := ∃ j, place t j = some (f, b)

end Verif.Appoint
