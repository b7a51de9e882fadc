import Verif.Model.Heap
/-!
# The queue of fibers

Models the queue of `poseidon/src/static/fiber_scheduler.cpp` again, with the array that is kept as a heap.  `m_pq_mutex` is locked whenever the queue is accessed, so that `launch()` and the part of
`thread_loop()` up to line 347 are one transition each.  What decides about the fate of a fiber that has been taken, and the times that other threads store, are modelled in `Verif/Model/Fiber.lean`; here
they are arbitrary.  Times are integers (nanoseconds).
-/
namespace Verif.FiberHeap
open Verif.Heap

/-- An element of `m_pq`, with `check_time`.  (fiber_scheduler.cpp:111-120) -/
structure Item where
  id : Nat
  check : Int
deriving DecidableEq, Repr

structure Sys where
  /-- `m_pq` -/
  pq : List Item := []
  /-- `m_pq_wait` -/
  wait : Int := 0
deriving DecidableEq, Repr

/-- What a call of `thread_loop()` does with the queue. -/
inductive Did where
  | slept (d : Int)
  /-- the element at the end has been taken; `pq` is the array before that -/
  | took (e : Item) (pq : List Item)
deriving DecidableEq, Repr

/-- What an action leads to. -/
inductive Out (α : Type) where
  /-- it is not possible -/
  | no
  /-- a function is called when it may not be, or an element of an empty array is accessed -/
  | undefined
  | ok (x : α)

/-- `launch()`, where the clock reads `v`; `l` is what `push_heap()` makes of the array.  (fiber_scheduler.cpp:406-422) -/
def launch (s : Sys) (id : Nat) (v : Int) (l : List Item) : Out Sys :=
  let arr := s.pq ++ [⟨id, v⟩]
  if mayPush Item.check arr = false then .undefined
  else if arranged Item.check arr l then .ok { s with pq := l }
  else .no

/-- The end of a call: the first fiber is taken out of the heap.  Then it is dropped, or gets another time and is put back.  (fiber_scheduler.cpp:326-340) -/
def take (s : Sys) (fate : Item → Option Int) (l l' : List Item) : Out (Sys × Did) :=
  if mayPop Item.check s.pq = false then .undefined
  else if popped Item.check s.pq l = false then .no
  else match l.getLast? with
    | none => .undefined
    | some e => match fate e with
      | none => .ok ({ s with pq := l.dropLast }, .took e s.pq)
      | some next =>
        let arr := l.dropLast ++ [{ e with check := next }]
        if mayPush Item.check arr = false then .undefined
        else if arranged Item.check arr l' then .ok ({ s with pq := l' }, .took e s.pq)
        else .no

/-- `async_time` of each fiber is copied to `check_time`; the heap is remade if anything has changed, and then `l` is what `make_heap()` makes of the array.  (fiber_scheduler.cpp:300-313) -/
def scan (s : Sys) (async : Nat → Int) (l : List Item) : Option Sys :=
  let arr := s.pq.map fun x => { x with check := async x.id }
  if s.pq.any fun x => x.check ≠ async x.id then
    if arranged Item.check arr l then some { s with pq := l } else none
  else some { s with pq := arr }

/-- `time_to_wait`.  (fiber_scheduler.cpp:292-294, 312) -/
def timeToWait (pq : List Item) (now : Int) : Int :=
  match pq with
  | [] => 999000000
  | front :: _ => front.check - now

/-- `thread_loop()` as far as the queue is concerned.  `async` is what is loaded in line 302; `l0`, `l` and `l'` are what `make_heap()`, `pop_heap()` and `push_heap()` make of the array.
(fiber_scheduler.cpp:286-340) -/
def loop (s : Sys) (now : Int) (async : Nat → Int) (fate : Item → Option Int) (l0 l l' : List Item) : Out (Sys × Did) :=
  if timeToWait s.pq now > 0 then
    match scan s async l0 with
    | none => .no
    | some s1 =>
      let t := min (timeToWait s1.pq now) (s.wait * 2 + 1000)
      let w := if t < 0 then 0 else if t > 500000000 then 500000000 else t
      if w > 0 then .ok ({ s1 with wait := w }, .slept w) else take { s1 with wait := w } fate l l'
  else take s fate l l'

inductive Act where
  | launch (id : Nat) (v : Int) (l : List Item)
  | loop (now : Int) (async : Nat → Int) (fate : Item → Option Int) (l0 l l' : List Item)

def step (s : Sys) : Act → Out Sys
  | .launch id v l => launch s id v l
  | .loop now async fate l0 l l' => match loop s now async fate l0 l l' with
    | .ok (s', _) => .ok s'
    | .undefined => .undefined
    | .no => .no

def run (s : Sys) : List Act → Out Sys
  | [] => .ok s
  | a :: as => match step s a with
    | .ok s' => run s' as
    | o => o

end Verif.FiberHeap
