import Verif.Model.Fiber
/-!
# What is expected of fibers and futures, in terms of their history (latest event first)
-/
namespace Verif.Fiber

/-- How far a suspended fiber is on its way to be resumed. -/
inductive Phase where
  /-- it has not been notified since it was suspended, or since the scheduler last looked at it -/
  | asleep
  /-- it has been notified -/
  | notified
  /-- it has been notified, and a scan has found out about it -/
  | found
deriving DecidableEq, Repr

def phase (k : Nat) : List Ev → Phase
  | [] => .asleep
  | .suspended i _ _ :: tr => if i = k then .asleep else phase k tr
  | .picked i :: tr => if i = k then .asleep else phase k tr
  | .notified _ i :: tr => if i = k then (if phase k tr = .asleep then .notified else phase k tr) else phase k tr
  | .scanned i :: tr => if i = k then (if phase k tr = .notified then .found else phase k tr) else phase k tr
  | _ :: tr => phase k tr

/-- When, and for what future, the fiber was last suspended. -/
def lastSuspended (k : Nat) : List Ev → Option (Option Nat × Nat)
  | [] => none
  | .suspended i f y :: tr => if i = k then some (f, y) else lastSuspended k tr
  | _ :: tr => lastSuspended k tr

/-- Every time a fiber is resumed in `yield(f)`, it was waiting for `f`, and `f` had completed or the time limit had been reached; and `yield(f)`
returns normally only if `f` had completed. -/
def resumesOk (fail : Nat) : List Ev → Prop
  | [] => True
  | .resumed k fo now ok :: tr =>
    resumesOk fail tr ∧ ∃ y, lastSuspended k tr = some (fo, y) ∧
      ∀ f, fo = some f → (Ev.completed f ∈ tr ∨ y + fail ≤ now) ∧ (ok = true → Ev.completed f ∈ tr)
  | _ :: tr => resumesOk fail tr

/-- The initializer of a future begins only if all runs before it exited with foreign exceptions, and never after the future has completed. -/
def initsOk : List Ev → Prop
  | [] => True
  | .initBegan f :: tr => initsOk tr ∧ Ev.completed f ∉ tr ∧ tr.count (.initBegan f) = tr.count (.initEnded f .foreign)
  | _ :: tr => initsOk tr

/-- No fiber becomes a waiter of a future that has completed, and waiters are notified only after completion. -/
def waitsOk : List Ev → Prop
  | [] => True
  | .waits f _ :: tr => waitsOk tr ∧ Ev.completed f ∉ tr
  | .notified f k :: tr => waitsOk tr ∧ Ev.completed f ∈ tr ∧ Ev.waits f k ∈ tr
  | .returned _ f :: tr => waitsOk tr ∧ Ev.completed f ∈ tr
  | _ :: tr => waitsOk tr

/-- A fiber begins once, after `launch()`; only what has begun is suspended and resumed, and in alternation; it is dropped after it has finished, or
without having begun if it was abandoned; and nothing happens to it afterwards. -/
inductive Life where
  | none | launched | running | suspended | finished | dropped | wrong
deriving DecidableEq, Repr

def life (k : Nat) : List Ev → Life
  | [] => .none
  | .launched i :: tr => if i = k then (if life k tr = .none then .launched else .wrong) else life k tr
  | .began i :: tr => if i = k then (if life k tr = .launched then .running else .wrong) else life k tr
  | .suspended i _ _ :: tr => if i = k then (if life k tr = .running then .suspended else .wrong) else life k tr
  | .resumed i _ _ _ :: tr => if i = k then (if life k tr = .suspended then .running else .wrong) else life k tr
  | .finished i :: tr => if i = k then (if life k tr = .running then .finished else .wrong) else life k tr
  | .removed i :: tr =>
    if i = k then (if life k tr = .finished ∨ (life k tr = .launched ∧ Ev.abandoned k ∈ tr) then .dropped else .wrong) else life k tr
  | _ :: tr => life k tr

/-- Fiber `k` has been looked at since the last scan began. -/
def isScanned (k : Nat) : List Ev → Bool
  | .scanned i :: tr => if i = k then true else isScanned k tr
  | .scanBegan :: _ => false
  | _ :: tr => isScanned k tr
  | [] => false

/-- The scheduler takes a fiber. -/
def Ev.isChoice : Ev → Bool
  | .picked _ | .removed _ => true
  | _ => false

/-- A bound on how many times the scheduler takes a fiber before it takes one whose check time is `c`. -/
def backlog (s : Sys) (c : Nat) : Nat :=
  (s.pq.map fun j => if c < (s.fib j).check then 0 else (c - min (s.fib j).check ((s.fib j).yield + s.fail)) / s.warn + 4).sum

end Verif.Fiber
