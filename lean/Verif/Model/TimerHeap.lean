import Verif.Model.Heap
import Verif.Model.Timer
/-!
# The queue of timers, and the sleep of the timer thread

Models `poseidon/src/static/timer_scheduler.cpp` again, with the array that is kept as a heap, and with the condition variable.  All accesses to the queue are made under its mutex, so that an insertion and
the part of `thread_loop()` before it sleeps or runs a callback are one transition each.  `std::condition_variable` is a contract: `notify_one()` wakes a thread that waits; a thread that waits may wake up at any
time.  There is one timer thread (main.cpp:378).
-/
namespace Verif.TimerHeap
open Verif.Heap Verif.Timer

/-- Where the timer thread is. -/
inductive Thread where
  /-- about to lock the mutex, in `thread_loop()` -/
  | entering
  /-- in `wait()`, or in `wait_for()` until a time; in the latter case the clock has advanced by `late` after it was read in line 63 -/
  | asleep (until? : Option Int) (late : Int)
  /-- about to run the callback for an element -/
  | calling (e : Entry)
deriving DecidableEq, Repr

structure Sys where
  /-- the steady clock -/
  clock : Int
  /-- `m_pq` -/
  pq : List Entry := []
  /-- timers that have been destroyed or abandoned -/
  dead : List Nat := []
  thread : Thread := .entering
  /-- calls of `insert_weak` so far -/
  ids : Nat := 0
  /-- history, latest event first -/
  trace : List Ev := []

inductive Act where
  /-- time passes -/
  | pass (d : Int)
  /-- `insert_weak()`, `ago` after it has read the clock; `l` is what `push_heap()` makes of the array -/
  | insert (timer : Nat) (delay period ago : Int) (l : List Entry)
  | release (timer : Nat)
  /-- `thread_loop()`; `l` is what `pop_heap()` makes of the array, `l'` what `push_heap()` makes of it after that, and `late` is how long it takes to go to sleep -/
  | loop (l l' : List Entry) (late : Int)
  /-- the timer thread wakes up, after its timeout or without a reason -/
  | wake
  /-- `thread_loop()` goes on with the callback -/
  | call
deriving DecidableEq, Repr

/-- What an action leads to. -/
inductive Out where
  /-- it is not possible -/
  | no
  /-- a function is called when it may not be, or an element of an empty array is accessed -/
  | undefined
  | ok (s : Sys)

/-- `push_heap()` -/
def push (s : Sys) (arr l : List Entry) : Out :=
  if mayPush Entry.next arr = false then .undefined
  else if arranged Entry.next arr l then .ok { s with pq := l }
  else .no

/-- `insert_weak()`.  (timer_scheduler.cpp:97-118) -/
def insert (s : Sys) (timer : Nat) (delay period ago : Int) (l : List Entry) : Out :=
  if ago < 0 then .no
  else if timer ∈ s.dead then .no
  else if delay < 0 ∨ delay > limit then .ok s
  else if period < 0 ∨ period > limit then .ok s
  else
    let e : Entry := { id := s.ids, timer := timer, next := s.clock - ago + delay, period := period }
    let s' := { s with
      ids := s.ids + 1
      -- `notify_one()`
      thread := match s.thread with | .asleep _ _ => .entering | t => t
      trace := .inserted s.ids timer (s.clock - ago) delay period :: s.trace }
    push s' (s.pq ++ [e]) l

/-- `thread_loop()` up to the callback.  (timer_scheduler.cpp:57-88) -/
def loop (s : Sys) (l l' : List Entry) (late : Int) : Out :=
  match s.pq with
  -- `while(this->m_pq.empty()) this->m_pq_avail.wait(lock);`
  | [] => .ok { s with thread := .asleep none 0 }
  | front :: _ =>
    if s.clock < front.next then
      -- `wait_for(lock, front().next - now)`
      if late < 0 then .no else .ok { s with clock := s.clock + late, thread := .asleep (some (front.next - s.clock + (s.clock + late))) late }
    else if mayPop Entry.next s.pq = false then .undefined
    else if popped Entry.next s.pq l = false then .no
    else match l.getLast? with
      | none => .undefined
      | some e =>
        if e.timer ∈ s.dead then .ok { s with pq := l.dropLast }
        else
          let s' := { s with thread := .calling e, trace := .taken e.id e.timer e.next s.clock :: s.trace }
          if e.period ≠ 0 then push s' (l.dropLast ++ [{ e with next := e.next + e.period }]) l'
          else .ok { s' with pq := l.dropLast }

def step (s : Sys) : Act → Out
  | .pass d => if d ≥ 0 then .ok { s with clock := s.clock + d } else .no
  | .insert timer delay period ago l => insert s timer delay period ago l
  | .release timer => .ok { s with dead := timer :: s.dead, trace := .released timer :: s.trace }
  | .loop l l' late => match s.thread with
    | .entering => loop s l l' late
    | _ => .no
  | .wake => match s.thread with
    | .asleep _ _ => .ok { s with thread := .entering }
    | _ => .no
  /- (timer_scheduler.cpp:90-93) -/
  | .call => match s.thread with
    | .calling e => .ok { s with thread := .entering, trace := .tick e.id e.timer e.next s.clock :: s.trace }
    | _ => .no

def run (s : Sys) : List Act → Out
  | [] => .ok s
  | a :: as => match step s a with
    | .ok s' => run s' as
    | o => o

end Verif.TimerHeap
