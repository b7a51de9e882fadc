/-!
# Appointments

Models `Appointment` (appointment.hpp, appointment.cpp).  Objects may be in one process or in many.  The kernel's locks are open file description locks of one byte each: an
attempt to set one fails with `EAGAIN` if and only if another description has the same byte of the same file locked, and all locks of a description vanish when it is closed.
An object has at most one description at any time, so locks are recorded with the object.  Descriptions that are inherited by `fork()` without `exec()`, and indices of 2^31 and
greater, are not modelled.
-/
namespace Verif.Appoint

/-- What can be seen, in the order of time. -/
inductive Ev
  /-- `enroll()` is called on an object, with a file. -/
  | calls (i f : Nat)
  /-- It finds that a byte has been locked by somebody else. -/
  | busy (i f b : Nat)
  /-- It locks a byte, and returns. -/
  | enrolls (i f b : Nat)
  /-- It throws an exception. -/
  | throws (i : Nat)
  /-- `withdraw()` or the destructor has been called, or the process has died. -/
  | leaves (i : Nat)
deriving DecidableEq, Repr

/-- An object, and the local variables of `enroll()`.  (appointment.hpp:12-15) -/
structure Obj where
  /-- `m_fd` -/
  fd : Option Nat := none
  /-- `m_index` -/
  index : Int := -1
  /-- The file and `lck.l_start` in a call to `enroll()`. -/
  probe : Option (Nat × Nat) := none
deriving DecidableEq

structure Sys where
  obj : Nat → Obj := fun _ => {}
  /-- file, byte, object -/
  locks : List (Nat × Nat × Nat) := []
  trace : List Ev := []

/-- `close()`, which removes all locks. -/
def close (i : Nat) (locks : List (Nat × Nat × Nat)) : List (Nat × Nat × Nat) := locks.filter (fun l => l.2.2 ≠ i)

def put (s : Sys) (i : Nat) (o : Obj) : Nat → Obj := fun j => if j = i then o else s.obj j

inductive Act
  | enroll (i f : Nat)
  | lock (i : Nat)
  | error (i : Nat)
  | withdraw (i : Nat)
  | die (i : Nat)

def step (s : Sys) : Act → Option Sys
  /- `this->m_fd.reset(); this->m_index = -1;`, then the file is opened.  (appointment.cpp:25-36) -/
  | .enroll i f =>
    if (s.obj i).probe ≠ none then none
    else some { obj := put s i { probe := some (f, 0) }, locks := close i s.locks, trace := .calls i f :: s.trace }
  /- One iteration of the loop around `fcntl()`.  (appointment.cpp:38-52) -/
  | .lock i =>
    match (s.obj i).probe with
    | none => none
    | some (f, b) =>
      if s.locks.any (fun l => l.1 = f ∧ l.2.1 = b ∧ l.2.2 ≠ i) then
        some { s with obj := put s i { s.obj i with probe := some (f, b + 1) }, trace := .busy i f b :: s.trace }
      else
        some { obj := put s i { fd := some f, index := b }, locks := (f, b, i) :: s.locks, trace := .enrolls i f b :: s.trace }
  /- `open()` or `fcntl()` fails; the destructor of `fd` closes the file.  (appointment.cpp:31-36, 44-48) -/
  | .error i =>
    if (s.obj i).probe = none then none
    else some { obj := put s i {}, locks := close i s.locks, trace := .throws i :: s.trace }
  /- (appointment.cpp:16-19, 55-62) -/
  | .withdraw i =>
    if (s.obj i).probe ≠ none then none
    else some { obj := put s i {}, locks := close i s.locks, trace := .leaves i :: s.trace }
  /- The kernel closes all files when a process dies, maybe in the middle of `enroll()`. -/
  | .die i => some { obj := put s i {}, locks := close i s.locks, trace := .leaves i :: s.trace }

def run : Sys → List Act → Option Sys
  | s, [] => some s
  | s, a :: as => match step s a with
    | none => none
    | some s' => run s' as

inductive Reachable : Sys → Prop
  | init : Reachable {}
  | step {s s' : Sys} {a : Act} : Reachable s → step s a = some s' → Reachable s'

end Verif.Appoint
