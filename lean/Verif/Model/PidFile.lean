import Verif.Base.Bytes
/-!
# The PID file

Models `do_write_pid_file()` of `poseidon/src/main.cpp` (406-440), and what becomes of the file when the process ends, for any number of processes which are started with the same configuration.
Each system call is a step of its own.  `flock()` is that of Linux: a lock belongs to the open file, an exclusive lock excludes all others, and the change of a lock to another kind is not
atomic: the old one is removed first (flock(2)).
-/
namespace Verif.PidFile

/-- What a process has done. -/
inductive St where
  | fresh
  /-- after `creat()` -/
  | opened
  /-- after `flock(LOCK_EX | LOCK_NB)` -/
  | locked
  /-- after `dprintf()` and `at_quick_exit()` -/
  | written
  /-- in `flock(LOCK_SH)`; the old lock has been removed -/
  | changing
  /-- after `do_write_pid_file()` -/
  | running
  /-- It has ended. -/
  | over
deriving DecidableEq, Repr

inductive Act where
  | creat (p : Nat)
  | lock (p : Nat)
  | write (p : Nat)
  | unlock (p : Nat)
  | share (p : Nat)
  /-- `quick_exit()`, for whatever reason -/
  | exit (p : Nat)
  /-- The process is killed. -/
  | kill (p : Nat)
deriving DecidableEq, Repr

/-- Processes are numbered in the order in which they are started; the number is the process ID.  `file` is the process ID in the file, if there is any. -/
structure Sys where
  /-- whether `flock()` changes a lock at once, contrary to its manual -/
  atomic : Bool
  st : Nat → St := fun _ => .fresh
  file : Option Nat := none
  /-- newest first -/
  trace : List Act := []

def Sys.set (s : Sys) (p : Nat) (x : St) : Sys := { s with st := fun q => if q = p then x else s.st q }

def exclusive : St → Bool
  | .locked | .written => true
  | _ => false

/-- Whether a process in this state has a lock. -/
def holds : St → Bool
  | .locked | .written | .running => true
  | _ => false

/-- Whether no process but `p` among the first `n` has a lock of this kind. -/
def free (f : St → Bool) (s : Sys) (p : Nat) : Nat → Bool
  | 0 => true
  | n + 1 => free f s p n && (n == p || !f (s.st n))

/-- A step; `n` is a number that is larger than that of any process. -/
def step (n : Nat) (s : Sys) (a : Act) : Option Sys :=
  let s' := { s with trace := a :: s.trace }
  match a with
  | .creat p => if p < n ∧ s.st p = .fresh then some { s'.set p .opened with file := none } else none
  | .lock p => if p < n ∧ s.st p = .opened then (if free holds s p n then some (s'.set p .locked) else some (s'.set p .over)) else none
  | .write p => if p < n ∧ s.st p = .locked then some { s'.set p .written with file := some p } else none
  | .unlock p => if p < n ∧ s.st p = .written then some (s'.set p (if s.atomic then .running else .changing)) else none
  | .share p => if p < n ∧ s.st p = .changing ∧ free exclusive s p n then some (s'.set p .running) else none
  | .exit p =>
    if p < n ∧ s.st p ≠ .over then
      some { s'.set p .over with file := if s.st p = .written ∨ s.st p = .changing ∨ s.st p = .running then none else s.file }
    else none
  | .kill p => if p < n ∧ s.st p ≠ .over then some (s'.set p .over) else none

def run (n : Nat) (s : Sys) : List Act → Option Sys
  | [] => some s
  | a :: as => match step n s a with
    | none => none
    | some s' => run n s' as

inductive Reachable (n : Nat) (atomic : Bool) : Sys → Prop
  | init : Reachable n atomic { atomic := atomic }
  | step {s s' : Sys} {a : Act} : Reachable n atomic s → step n s a = some s' → Reachable n atomic s'

end Verif.PidFile
