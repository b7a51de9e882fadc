import Verif.Model.TimerHeap
import Verif.Model.EasyQueue
/-!
# Easy timers and the timer thread

Models any number of `Easy_Timer`s (`Model/EasyQueue.lean`, where what arrives are the times of ticks), together with the queue of the timer scheduler and the timer thread
(`Model/TimerHeap.lean`).  Lines are those in src/easy/easy_timer.cpp.  Timers that belong to easy timers have even numbers, and other timers have odd ones.  Each call of `start()` makes a new
timer, which is a number of an object and a number of a queue of it.  A user who keeps the pointer that `start()` returns may abandon the timer at any time, and may keep it alive after `stop()`; but
they do not insert it into the scheduler again.
-/
namespace Verif.EasyTimer

structure World where
  sched : TimerHeap.Sys
  ends : Nat → EasyQueue.Sys Int := fun _ => {}
  /-- For the timer with the number `2 * n`, the `n`th element is: which insertion it is in the scheduler, and the object and its queue. -/
  links : List (Nat × Nat × Nat) := []
  /-- what has happened to the scheduler, latest first -/
  done : List TimerHeap.Act := []

def setEnd (w : World) (i : Nat) (s : EasyQueue.Sys Int) : Nat → EasyQueue.Sys Int := fun k => if k = i then s else w.ends k

inductive Act where
  /-- `start()`, up to the insertion.  It takes `ago` to get from the clock to the queue, and `l` is what `push_heap()` makes of that.  (140-152) -/
  | start (i : Nat) (delay period ago : Int) (l : List Timer.Entry)
  /-- The scheduler, or another thread which uses it, goes on. -/
  | sched (a : TimerHeap.Act)
  /-- The timer thread calls `do_abstract_timer_on_tick()`.  (97-119; timer_scheduler.cpp 85-93) -/
  | call
  /-- An easy timer, one of its fibers, or the timer thread in `do_abstract_timer_on_tick()` goes on. -/
  | easy (i : Nat) (a : EasyQueue.Act Int)

/-- Whether others may do this to the scheduler. -/
def foreign : TimerHeap.Act → Bool
  | .insert t _ _ _ _ => t % 2 == 1
  | .call => false
  | _ => true

/-- Whether this is neither part of `start()` before the insertion, nor the beginning of a tick. -/
def inside : EasyQueue.Act Int → Bool
  | .packet _ _ => false
  | .create => false
  | _ => true

def step (w : World) : Act → Option World
  | .start i delay period ago l =>
    let a : TimerHeap.Act := .insert (2 * w.links.length) delay period ago l
    match TimerHeap.step w.sched a with
    | .ok s =>
      -- If an exception is thrown then nothing has been changed.
      if s.ids = w.sched.ids then some w
      else match EasyQueue.step (w.ends i) .create with
        | some e => some { sched := s, ends := setEnd w i e, links := w.links ++ [(w.sched.ids, i, (w.ends i).queues.length)], done := a :: w.done }
        | none => none
    | _ => none
  | .sched a =>
    if foreign a then
      match TimerHeap.step w.sched a with
      | .ok s => some { w with sched := s, done := a :: w.done }
      | _ => none
    else none
  | .call => match w.sched.thread with
    | .calling e => match TimerHeap.step w.sched .call with
      | .ok s =>
        if e.timer % 2 = 0 then
          match w.links[e.timer / 2]? with
          | some (_, i, q) => match EasyQueue.step (w.ends i) (.packet q e.next) with
            | some x => some { w with sched := s, ends := setEnd w i x, done := .call :: w.done }
            | none => none
          | none => none
        else some { w with sched := s, done := .call :: w.done }
      | _ => none
    | _ => none
  | .easy i a =>
    if inside a then
      match EasyQueue.step (w.ends i) a with
      | some x => some { w with ends := setEnd w i x }
      | none => none
    else none

def run : World → List Act → Option World
  | w, [] => some w
  | w, a :: as => match step w a with
    | none => none
    | some w' => run w' as

/-- What can be reached, when the clock shows `t0` at first. -/
inductive Reachable (t0 : Int) : World → Prop
  | init : Reachable t0 { sched := { clock := t0 } }
  | step {w w' : World} (a : Act) : Reachable t0 w → step w a = some w' → Reachable t0 w'

end Verif.EasyTimer
