/-!
# The task scheduler

Models `poseidon/src/static/task_scheduler.cpp` with any number of task threads and other threads.  Accesses to the queues are made under
`m_queue_mutex`, so each critical section is one transition; but `thread_loop()` waits for the mutex of the task while it holds
`m_queue_mutex`, so this waiting is a state of its own.

Simplification: allocation failures are left out; a task body does nothing but launch tasks.
-/
namespace Verif.Task

/-- An element of a queue.  `id` identifies the call of `launch()`; `batch` is how many times the queues had been swapped then. -/
structure Entry where
  id : Nat
  task : Nat
  batch : Nat
deriving DecidableEq, Repr

inductive Ev where
  /-- `launch(task)` -/
  | launched (id task batch : Nat)
  /-- a thread takes an element out of the queue -/
  | popped (id task batch : Nat)
  /-- and finds it abandoned -/
  | skipped (id task : Nat)
  /-- and begins to execute it -/
  | began (id task : Nat)
  /-- execution returns or throws -/
  | ended (id task : Nat)
  /-- `abandon()` -/
  | abandoned (task : Nat)
deriving DecidableEq, Repr

/-- Where a task thread is. -/
inductive Pc where
  | idle
  /-- waiting for the mutex of the task, with `m_queue_mutex` locked -/
  | waiting (e : Entry)
  | running (e : Entry)
  /-- the task has called `launch()`, which waits for `m_queue_mutex` -/
  | launching (e : Entry) (task : Nat)
deriving DecidableEq, Repr

structure Sys where
  threads : Nat
  /-- `m_queue_front`; the last element is taken first -/
  front : List Entry := []
  /-- `m_queue_back` -/
  back : List Entry := []
  dead : List Nat := []
  pc : Nat → Pc := fun _ => .idle
  ids : Nat := 0
  batch : Nat := 0
  /-- history, latest event first -/
  trace : List Ev := []

inductive Act where
  /-- another thread calls `launch()` -/
  | launch (task : Nat)
  | abandon (task : Nat)
  /-- thread `t` is in `thread_loop()` -/
  | pop (t : Nat)
  /-- thread `t` gets the mutex of the task -/
  | enter (t : Nat)
  /-- the task that thread `t` runs calls `launch()` -/
  | call (t : Nat) (task : Nat)
  /-- this call gets `m_queue_mutex` -/
  | push (t : Nat)
  /-- the task that thread `t` runs returns or throws -/
  | leave (t : Nat)
deriving DecidableEq, Repr

def Sys.go (s : Sys) (t : Nat) (p : Pc) : Sys := { s with pc := fun u => if u = t then p else s.pc u }

def Pc.holdsQueue : Pc → Bool
  | .waiting _ => true
  | _ => false

/-- The task whose mutex the thread has. -/
def Pc.task : Pc → Option Nat
  | .running e | .launching e _ => some e.task
  | _ => none

/-- `m_queue_mutex` is not locked. -/
def queueFree (s : Sys) : Bool := (List.range s.threads).all fun t => !(s.pc t).holdsQueue

/-- The mutex of the task is not locked by another thread. -/
def taskFree (s : Sys) (t task : Nat) : Bool := (List.range s.threads).all fun u => u == t || (s.pc u).task != some task

/-- The critical section of `launch()`.  (task_scheduler.cpp:54-57) -/
def push (s : Sys) (task : Nat) : Sys :=
  { s with
    back := s.back ++ [{ id := s.ids, task := task, batch := s.batch }]
    ids := s.ids + 1
    trace := .launched s.ids task s.batch :: s.trace }

/-- Swap the queues if the front one is empty.  (task_scheduler.cpp:29-30) -/
def swap (s : Sys) : Sys := if s.front = [] then { s with front := s.back, back := [], batch := s.batch + 1 } else s

/-- Take the last element of the front queue.  (task_scheduler.cpp:32-35) -/
def take (s : Sys) (t : Nat) : Option Sys :=
  match s.front.getLast? with
  | none => none
  | some e =>
    let s' := { s with front := s.front.dropLast, trace := .popped e.id e.task e.batch :: s.trace }
    if e.task ∈ s.dead then some { s' with trace := .skipped e.id e.task :: s'.trace } else some (s'.go t (.waiting e))

def step (s : Sys) : Act → Option Sys
  /- (task_scheduler.cpp:47-58) -/
  | .launch task => if queueFree s then some (push s task) else none
  /- (abstract_task.hpp:44-46) -/
  | .abandon task => some { s with dead := task :: s.dead, trace := .abandoned task :: s.trace }
  /- (task_scheduler.cpp:23-35) -/
  | .pop t =>
    if t < s.threads ∧ s.pc t = .idle ∧ queueFree s = true ∧ ¬ (s.front = [] ∧ s.back = []) then take (swap s) t else none
  /- (task_scheduler.cpp:37-43) -/
  | .enter t =>
    if t < s.threads then
      match s.pc t with
      | .waiting e => if taskFree s t e.task then some { s.go t (.running e) with trace := .began e.id e.task :: s.trace } else none
      | _ => none
    else none
  | .call t task =>
    if t < s.threads then
      match s.pc t with
      | .running e => some (s.go t (.launching e task))
      | _ => none
    else none
  | .push t =>
    if t < s.threads then
      match s.pc t with
      | .launching e task => if queueFree s then some ((push s task).go t (.running e)) else none
      | _ => none
    else none
  /- (task_scheduler.cpp:43-44) -/
  | .leave t =>
    if t < s.threads then
      match s.pc t with
      | .running e => some { s.go t .idle with trace := .ended e.id e.task :: s.trace }
      | _ => none
    else none

def run (s : Sys) : List Act → Option Sys
  | [] => some s
  | a :: as => (step s a).bind fun s' => run s' as

inductive Reachable : Sys → Prop
  | init (n : Nat) : Reachable { threads := n }
  | step {s s' : Sys} (a : Act) : Reachable s → step s a = some s' → Reachable s'

end Verif.Task
