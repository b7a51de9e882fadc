import Verif.Model.Easy
/-!
# What happens to the events of a session

Functions of what can be seen.  Traces have the newest event first.
-/
namespace Verif.Easy

variable {M : Type} [DecidableEq M]

/-- What has arrived for a session, in the order of time. -/
def arrivals (t : List (Ev M)) (sid : Nat) : List (Event M) :=
  match t with
  | [] => []
  | .arrived i ev :: t => if i = sid then arrivals t sid ++ [ev] else arrivals t sid
  | _ :: t => arrivals t sid

/-- What has been handled for a session, by the callback or with a response, in the order of time. -/
def handled (t : List (Ev M)) (sid : Nat) : List (Event M) :=
  match t with
  | [] => []
  | .called _ i ev _ :: t => if i = sid then handled t sid ++ [ev] else handled t sid
  | .responded _ i ev :: t => if i = sid then handled t sid ++ [ev] else handled t sid
  | _ :: t => handled t sid

/-- The fiber that is in the callback for a session, after the last call or return. -/
def running (t : List (Ev M)) (sid : Nat) : Option Nat :=
  match t with
  | [] => none
  | .called f i _ _ :: t => if i = sid then some f else running t sid
  | .responded f i _ :: t => if i = sid then some f else running t sid
  | .returned _ i _ :: t => if i = sid then none else running t sid
  | _ :: t => running t sid

/-- Data of a stream that have been handed to the callback, in the order of time. -/
def received (t : List (Ev M)) (sid : Nat) : Bytes := ((handled t sid).filter (·.ty = .data)).flatMap (·.data)

/-- What has been consumed by the callback, in the order of time. -/
def consumed (t : List (Ev M)) (sid : Nat) : Bytes :=
  match t with
  | [] => []
  | .returned _ i b :: t => if i = sid then consumed t sid ++ b else consumed t sid
  | _ :: t => consumed t sid

/-- What arrives up to the first one that is, or is taken for, a closure notification. -/
def upToClose : List (Event M) → List (Event M)
  | [] => []
  | e :: r => if e.ty = .close then [e] else e :: upToClose r

/-- Whether a closure notification has been handled. -/
def Closed (t : List (Ev M)) (sid : Nat) : Prop := ∃ e ∈ handled t sid, e.ty = .close

/-- Whether memory has run out for a session, or the server has been stopped. -/
def Lost (t : List (Ev M)) (sid : Nat) : Prop := .stopped ∈ t ∨ ∃ e, .failed sid e ∈ t

/-- What may happen, given what has happened before. -/
def Lawful (t : List (Ev M)) : Ev M → Prop
  | .ignored i _ => Closed t i ∨ Lost t i
  | .called _ i ev d =>
    running t i = none ∧ ¬ Closed t i ∧ handled t i ++ [ev] <+: arrivals t i ∧ if ev.ty = .data then consumed t i ++ d = received t i ++ ev.data else d = ev.data
  | .responded _ i ev => running t i = none ∧ ¬ Closed t i ∧ handled t i ++ [ev] <+: arrivals t i
  | .returned f i _ => running t i = some f
  | _ => True

end Verif.Easy
