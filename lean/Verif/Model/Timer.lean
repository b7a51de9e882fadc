/-!
# The timer scheduler

Models `poseidon/src/static/timer_scheduler.cpp`.  All accesses to the queue are made under its mutex, so that an insertion and
the part of `thread_loop()` before the callback are one transition each.

Times are integers (nanoseconds of the steady clock).  Simplifications: the queue is a list of which `front()` is some
element with the least time, which is what `std::push_heap` and `std::pop_heap` guarantee for a comparator of this kind; which one
it is among several with the same time is left open.  `steady_time` does not overflow: delays and periods are at most 24000 h.
-/
namespace Verif.Timer

/-- `Queued_Timer`.  `id` identifies the call of `insert_weak` that made the element.  (timer_scheduler.cpp:12-17) -/
structure Entry where
  id : Nat
  timer : Nat
  next : Int
  period : Int
deriving DecidableEq, Repr

/-- What happens. -/
inductive Ev where
  /-- `insert_weak(timer, delay, period)` reads the clock as `now` and puts the timer into the queue -/
  | inserted (id timer : Nat) (now delay period : Int)
  /-- the timer thread finds that the element is due at the time `now` and that the timer is alive -/
  | taken (id timer : Nat) (scheduled now : Int)
  /-- the callback begins -/
  | tick (id timer : Nat) (scheduled now : Int)
  /-- the last reference is dropped, or `abandon()` is called -/
  | released (timer : Nat)
deriving DecidableEq, Repr

structure Sys where
  /-- the steady clock -/
  clock : Int
  /-- `m_pq` -/
  pq : List Entry := []
  /-- timers that have been destroyed or abandoned -/
  dead : List Nat := []
  /-- the element for which the timer thread is about to run the callback -/
  current : Option Entry := none
  /-- calls of `insert_weak` so far -/
  ids : Nat := 0
  /-- history, latest event first -/
  trace : List Ev := []

inductive Act where
  /-- time passes -/
  | pass (d : Int)
  /-- `insert_weak()`, `ago` after it has read the clock -/
  | insert (timer : Nat) (delay period ago : Int)
  | release (timer : Nat)
  /-- `thread_loop()`; `k` is the index of the element that is `front()` -/
  | loop (k : Nat)
  /-- `thread_loop()` goes on with the callback -/
  | call
deriving DecidableEq, Repr

/-- 24000 hours, and one millisecond, in nanoseconds.  (timer_scheduler.cpp:103-107) -/
def limit : Int := 24000 * 3600 * 1000 * 1000000

/-- Whether the element may be `m_pq.front()`. -/
def least (pq : List Entry) (e : Entry) : Bool := pq.all fun x => decide (e.next ≤ x.next)

def step (s : Sys) : Act → Option Sys
  | .pass d => if d ≥ 0 then some { s with clock := s.clock + d } else none
  /- `insert_weak`.  (timer_scheduler.cpp:97-118) -/
  | .insert timer delay period ago =>
    if ago < 0 then none
    else if timer ∈ s.dead then none
    else if delay < 0 ∨ delay > limit then some s
    else if period < 0 ∨ period > limit then some s
    else some { s with
      pq := s.pq ++ [{ id := s.ids, timer := timer, next := s.clock - ago + delay, period := period }]
      ids := s.ids + 1
      trace := .inserted s.ids timer (s.clock - ago) delay period :: s.trace }
  | .release timer => some { s with dead := timer :: s.dead, trace := .released timer :: s.trace }
  /- `thread_loop`.  (timer_scheduler.cpp:57-84) -/
  | .loop k =>
    if s.current.isSome then none
    else match s.pq[k]? with
      | none => none
      | some e =>
        if least s.pq e then
          if s.clock < e.next then some s
          else if e.timer ∈ s.dead then some { s with pq := s.pq.eraseIdx k }
          else if e.period ≠ 0 then some { s with
            pq := s.pq.eraseIdx k ++ [{ e with next := e.next + e.period }], current := some e, trace := .taken e.id e.timer e.next s.clock :: s.trace }
          else some { s with pq := s.pq.eraseIdx k, current := some e, trace := .taken e.id e.timer e.next s.clock :: s.trace }
        else none
  /- (timer_scheduler.cpp:86-92) -/
  | .call =>
    match s.current with
    | none => none
    | some e => some { s with current := none, trace := .tick e.id e.timer e.next s.clock :: s.trace }

def run (s : Sys) : List Act → Option Sys
  | [] => some s
  | a :: as => (step s a).bind fun s' => run s' as

inductive Reachable : Sys → Prop
  | init (t : Int) : Reachable { clock := t }
  | step {s s' : Sys} (a : Act) : Reachable s → step s a = some s' → Reachable s'

end Verif.Timer
