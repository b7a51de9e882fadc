import Verif.Model.Pool
/-!
# Who has a connection

Functions of what can be seen.  Traces have the newest event first.
-/
namespace Verif.Pool

/-- Where a connection is. -/
inductive Place where
  | nowhere
  | with (owner : Nat)
  | pool
  | closed
deriving DecidableEq, Repr

/-- The place that an event puts a connection in. -/
def Ev.place (id : Nat) : Ev → Option Place
  | .given h i _ _ _ => if i = id then some (.with h) else none
  | .moved _ h i => if i = id then some (.with h) else none
  | .pooled _ i => if i = id then some .pool else none
  | .closed i => if i = id then some .closed else none
  | _ => none

/-- Where a connection is after the events in a trace. -/
def place (t : List Ev) (id : Nat) : Place := (t.findSome? (Ev.place id)).getD .nowhere

/-- Whether a command has been sent since the last time that the connection has been reset successfully. -/
def dirty (t : List Ev) (id : Nat) : Bool :=
  match t.find? (fun e => e = .executed id ∨ e = .reset id true) with
  | some (.executed _) => true
  | _ => false

/-- The sizes that have been configured; the first one is zero. -/
def sizes : List Ev → List Nat
  | [] => [0]
  | .reload n :: t => n :: sizes t
  | _ :: t => sizes t

/-- What may happen to connections, given what has happened before. -/
def Lawful (t : List Ev) : Ev → Prop
  | .reload _ => True
  | .given _ id _ _ true => place t id = .nowhere
  | .given _ id uri _ false => place t id = .pool ∧ dirty t id = false ∧ ∃ h pw, Ev.given h id uri pw true ∈ t
  | .moved h _ id => place t id = .with h
  | .executed id => ∃ h, place t id = .with h
  | .reset id _ => ∃ h, place t id = .with h
  | .pooled h id => place t id = .with h ∧ dirty t id = false
  | .refused h id => place t id = .with h
  | .closed id => place t id = .pool ∨ ∃ h, place t id = .with h

end Verif.Pool
