/-!
# Fibers and futures

Models `poseidon/src/static/fiber_scheduler.cpp` and `poseidon/src/fiber/abstract_future.cpp`: one fiber thread, any number of fibers, any number
of futures, and any number of threads that initialize futures.  Every access to memory that two threads share is a transition of its own: the
loads of `async_time` in the scan, the compare-and-exchange, the stores of notifications, the load of `m_init`.

Simplifications: interleavings are sequentially consistent; timeouts in the configuration do not change; allocation never fails; one
`Abstract_Fiber` object is launched once; a future is not destroyed while a fiber waits for it (the caller of `yield()` has a reference to it),
and a `wfutr` that has expired is treated like a future that has completed, which has the same effect.  A fiber body that initializes a future
itself is covered by another thread that does so.
-/
namespace Verif.Fiber

/-- `Fiber_State`.  (fiber_scheduler.cpp:103-109) -/
inductive St where
  | pending | suspended | running | terminated
deriving DecidableEq, Repr

/-- `Queued_Fiber`.  Times are in nanoseconds.  (fiber_scheduler.cpp:111-121) -/
structure Fib where
  /-- `async_time` -/
  async : Nat := 0
  /-- `check_time` -/
  check : Nat := 0
  /-- `yield_time` -/
  yield : Nat := 0
  /-- `wfutr` -/
  wfut : Option Nat := none
  state : St := .pending
deriving DecidableEq, Repr

/-- `Abstract_Future`.  (abstract_future.hpp:15-18) -/
structure Fut where
  /-- `m_init` -/
  init : Bool := false
  /-- `m_init_mutex` is locked by a thread that runs the initializer -/
  locked : Bool := false
  /-- `m_init_except` is not null -/
  failed : Bool := false
  /-- `m_waiters` -/
  waiters : List Nat := []
deriving DecidableEq, Repr

/-- How an initializer exits. -/
inductive Exit where
  | ok
  /-- an exception that is derived from `std::exception` -/
  | threw
  /-- another exception -/
  | foreign
deriving DecidableEq, Repr

/-- Where a thread is in `do_abstract_future_initialize_once()`. -/
inductive Thr where
  | idle
  /-- in the initializer of future `f` -/
  | initing (f : Nat)
  /-- notifying waiters; `since` is when `m_init` was set -/
  | notifying (f since : Nat) (todo : List Nat)
deriving DecidableEq, Repr

/-- Where the fiber thread is. -/
inductive Pc where
  /-- outside `thread_loop()`, or asleep in it -/
  | idle
  /-- in the scan for changed times, about to load the `i`-th; `m_pq_mutex` is locked -/
  | scanning (i now : Nat)
  /-- about to take the first fiber; `m_pq_mutex` is locked -/
  | choosing (now : Nat)
  /-- about to load `m_init` of the future that fiber `k` waits for -/
  | looking (k now : Nat)
  /-- in fiber `k` -/
  | running (k : Nat)
  /-- in `yield()`, about to lock the mutex of future `f` -/
  | yielding (k f : Nat)
deriving DecidableEq, Repr

inductive Ev where
  | launched (k : Nat)
  | abandoned (k : Nat)
  /-- fiber `k` starts to execute -/
  | began (k : Nat)
  /-- `yield(f)` suspends fiber `k` at time `y` -/
  | suspended (k : Nat) (f : Option Nat) (y : Nat)
  /-- `yield(f)` returns without suspension, because the future has completed -/
  | returned (k f : Nat)
  /-- fiber `k` is resumed in `yield(f)`, on the decision that was made at time `now`; `ok` says whether `yield()` returns normally or throws -/
  | resumed (k : Nat) (f : Option Nat) (now : Nat) (ok : Bool)
  | finished (k : Nat)
  /-- the scheduler drops fiber `k` -/
  | removed (k : Nat)
  /-- `k` has been added to the waiters of `f` -/
  | waits (f k : Nat)
  | initBegan (f : Nat)
  | initEnded (f : Nat) (e : Exit)
  /-- the future is marked completed -/
  | completed (f : Nat)
  | notified (f k : Nat)
  /-- the fiber that is to be notified does not exist any more -/
  | gone (f k : Nat)
  /-- the thread that has completed `f` has notified all waiters, and finalizes it -/
  | finalized (f : Nat)
  | scanBegan
  /-- the scan looks at fiber `k` -/
  | scanned (k : Nat)
  | scanEnded
  /-- the scheduler goes to sleep for `d` nanoseconds -/
  | slept (d : Nat)
  /-- the scheduler has chosen fiber `k` -/
  | picked (k : Nat)
deriving DecidableEq, Repr

structure Sys where
  /-- `m_conf_warn_timeout`, `m_conf_fail_timeout` -/
  warn : Nat
  fail : Nat
  clock : Nat := 0
  /-- `m_pq`; the order does not matter in the model, because the fiber to take is any one with the least `check_time` -/
  pq : List Nat := []
  /-- `m_pq_wait` -/
  wait : Nat := 0
  fib : Nat → Fib := fun _ => {}
  fut : Nat → Fut := fun _ => {}
  thr : Nat → Thr := fun _ => .idle
  pc : Pc := .idle
  /-- fibers on which `abandon()` has been called -/
  dead : List Nat := []
  ids : Nat := 0
  /-- history, latest event first -/
  trace : List Ev := []

def upd {α : Type} (f : Nat → α) (k : Nat) (v : α) : Nat → α := fun i => if i = k then v else f i

def Sys.emit (s : Sys) (e : Ev) : Sys := { s with trace := e :: s.trace }

/-- The fiber thread has `m_pq_mutex`. -/
def Pc.locked : Pc → Bool
  | .scanning _ _ | .choosing _ => true
  | _ => false

/-- Some fiber is due: the least `check_time` is not after `now`. -/
def due (s : Sys) (now : Nat) : Bool := s.pq.any fun k => decide ((s.fib k).check ≤ now)

/-- The least `check_time`. -/
def least (s : Sys) : Option Nat := (s.pq.map fun k => (s.fib k).check).min?

/-- How long to sleep after a scan.  (fiber_scheduler.cpp:292-294, 308-315) -/
def sleepTime (s : Sys) (now : Nat) : Nat :=
  let t := match least s with
    | none => 999000000
    | some c => c - now
  min (min t (s.wait * 2 + 1000)) 500000000

inductive Act where
  /-- time passes -/
  | tick (d : Nat)
  /-- some thread calls `launch()`, in which the clock reads `v` -/
  | launch (v : Nat)
  /-- some thread calls `abandon()` -/
  | abandon (k : Nat)
  /-- thread `t` calls `do_abstract_future_initialize_once()` of future `f` -/
  | call (t f : Nat)
  /-- the initializer that thread `t` runs exits -/
  | exit (t : Nat) (e : Exit)
  /-- thread `t` notifies the next waiter, with a clock reading of `v` -/
  | notify (t v : Nat)
  /-- thread `t` has notified all waiters -/
  | finalize (t : Nat)
  /-- the fiber thread enters `thread_loop()` -/
  | enter
  | scan
  | endScan
  /-- fiber `k` is taken out of the heap -/
  | pick (k : Nat)
  | look
  /-- the running fiber calls `yield(f)` -/
  | yield (f : Option Nat)
  /-- `yield()` locks the mutex of the future -/
  | register
  /-- the running fiber returns or throws -/
  | finish
deriving DecidableEq, Repr

/-- `launch()`.  (fiber_scheduler.cpp:406-422) -/
def launch (s : Sys) (v : Nat) : Sys :=
  { s with
    fib := upd s.fib s.ids { async := v, check := v, yield := v }
    pq := s.pq ++ [s.ids]
    ids := s.ids + 1
    trace := .launched s.ids :: s.trace }

/-- The initializer returns or throws; if it does not throw a foreign exception, the future is completed and its waiters are taken.
(abstract_future.cpp:34-49) -/
def exit (s : Sys) (t f : Nat) (e : Exit) : Sys :=
  match e with
  | .foreign =>
    { s with
      fut := upd s.fut f { s.fut f with locked := false }
      thr := upd s.thr t .idle
      trace := .initEnded f e :: s.trace }
  | _ =>
    { s with
      fut := upd s.fut f { init := true, locked := false, failed := e == .threw, waiters := [] }
      thr := upd s.thr t (.notifying f s.clock (s.fut f).waiters)
      trace := .completed f :: .initEnded f e :: s.trace }

/-- Set `async_time` of a waiter, if it still exists.  (abstract_future.cpp:52-54) -/
def notify (s : Sys) (t f since k v : Nat) (todo : List Nat) : Sys :=
  if k ∈ s.pq then
    { s with
      fib := upd s.fib k { s.fib k with async := v }
      thr := upd s.thr t (.notifying f since todo)
      trace := .notified f k :: s.trace }
  else
    { s with
      thr := upd s.thr t (.notifying f since todo)
      trace := .gone f k :: s.trace }

/-- The fiber that has been taken out of the heap is dropped, or put back with a later time.  (fiber_scheduler.cpp:327-347) -/
def pick (s : Sys) (k now : Nat) : Sys :=
  let ep := s.fib k
  if (ep.state = .pending ∧ k ∈ s.dead) ∨ ep.state = .terminated then
    { s with
      pq := s.pq.filter fun i => i != k
      pc := .idle
      trace := .removed k :: s.trace }
  else
    let next := min (ep.check + s.warn) (ep.yield + s.fail)
    { s with
      fib := upd s.fib k { ep with async := if ep.async = ep.check then next else ep.async, check := next }
      pc := .looking k now
      trace := .picked k :: s.trace }

/-- Start or resume a fiber.  When it has been resumed, it forgets about the future, checks that the future has completed, and checks that it has not
been abandoned.  (fiber_scheduler.cpp:370-386, 190-192, 231-242; abstract_future.hpp:76-82) -/
def enterFiber (s : Sys) (k now : Nat) : Sys :=
  let ep := s.fib k
  match ep.state with
  | .pending =>
    { s with
      fib := upd s.fib k { ep with state := .running }
      pc := .running k
      trace := .began k :: s.trace }
  | _ =>
    let ok := (match ep.wfut with | none => true | some f => (s.fut f).init) && decide (k ∉ s.dead)
    { s with
      fib := upd s.fib k { ep with state := .running, wfut := none }
      pc := .running k
      trace := .resumed k ep.wfut now ok :: s.trace }

/-- Wait for the future, unless the fiber has timed out.  (fiber_scheduler.cpp:349-368) -/
def look (s : Sys) (k now : Nat) : Sys :=
  match (s.fib k).wfut with
  | none => enterFiber s k now
  | some f => if now < (s.fib k).yield + s.fail ∧ (s.fut f).init = false then { s with pc := .idle } else enterFiber s k now

/-- The first part of `yield()`, before the mutex of the future is locked; without a future there is nothing to wait for.
(fiber_scheduler.cpp:208-212, 223-228) -/
def yield (s : Sys) (k : Nat) (fo : Option Nat) : Sys :=
  match fo with
  | some f =>
    { s with
      fib := upd s.fib k { s.fib k with wfut := fo, yield := s.clock, async := s.clock }
      pc := .yielding k f }
  | none =>
    { s with
      fib := upd s.fib k { s.fib k with wfut := none, yield := s.clock, async := s.clock, state := .suspended }
      pc := .idle
      trace := .suspended k none s.clock :: s.trace }

/-- `yield()` with a future: return if it has completed, otherwise become a waiter and suspend.  (fiber_scheduler.cpp:212-228) -/
def register (s : Sys) (k f : Nat) : Sys :=
  if (s.fut f).init then { s with pc := .running k, trace := .returned k f :: s.trace }
  else
    { s with
      fut := upd s.fut f { s.fut f with waiters := (s.fut f).waiters ++ [k] }
      fib := upd s.fib k { s.fib k with state := .suspended }
      pc := .idle
      trace := .suspended k (some f) (s.fib k).yield :: .waits f k :: s.trace }

def step (s : Sys) : Act → Option Sys
  | .tick d => some { s with clock := s.clock + d }
  | .launch v => if s.pc.locked = false ∧ v ≤ s.clock then some (launch s v) else none
  | .abandon k => if k < s.ids then some { s with dead := k :: s.dead, trace := .abandoned k :: s.trace } else none
  /- (abstract_future.cpp:30-32) -/
  | .call t f =>
    if s.thr t = .idle ∧ (s.fut f).locked = false then
      if (s.fut f).init then some s
      else some { s with fut := upd s.fut f { s.fut f with locked := true }, thr := upd s.thr t (.initing f), trace := .initBegan f :: s.trace }
    else none
  | .exit t e =>
    match s.thr t with
    | .initing f => some (exit s t f e)
    | _ => none
  | .notify t v =>
    match s.thr t with
    | .notifying f since (k :: todo) => if since ≤ v ∧ v ≤ s.clock then some (notify s t f since k v todo) else none
    | _ => none
  /- (abstract_future.cpp:57-58) -/
  | .finalize t =>
    match s.thr t with
    | .notifying f _ [] => some { s with thr := upd s.thr t .idle, trace := .finalized f :: s.trace }
    | _ => none
  /- (fiber_scheduler.cpp:290-299) -/
  | .enter =>
    if s.pc = .idle then
      if due s s.clock then some { s with pc := .choosing s.clock }
      else some { s with pc := .scanning 0 s.clock, trace := .scanBegan :: s.trace }
    else none
  /- (fiber_scheduler.cpp:300-306) -/
  | .scan =>
    match s.pc with
    | .scanning i now =>
      match s.pq[i]? with
      | some k => some { s with fib := upd s.fib k { s.fib k with check := (s.fib k).async }, pc := .scanning (i + 1) now, trace := .scanned k :: s.trace }
      | none => none
    | _ => none
  /- (fiber_scheduler.cpp:308-325) -/
  | .endScan =>
    match s.pc with
    | .scanning i now =>
      if i = s.pq.length then
        if sleepTime s now = 0 then some { s with wait := 0, pc := .choosing now, trace := .scanEnded :: s.trace }
        else some { s with wait := sleepTime s now, pc := .idle, trace := .slept (sleepTime s now) :: .scanEnded :: s.trace }
      else none
    | _ => none
  /- (fiber_scheduler.cpp:327-328) -/
  | .pick k =>
    match s.pc with
    | .choosing now => if k ∈ s.pq ∧ (s.pq.all fun j => decide ((s.fib k).check ≤ (s.fib j).check)) = true then some (pick s k now) else none
    | _ => none
  | .look =>
    match s.pc with
    | .looking k now => some (look s k now)
    | _ => none
  | .yield f =>
    match s.pc with
    | .running k => some (yield s k f)
    | _ => none
  | .register =>
    match s.pc with
    | .yielding k f => if (s.fut f).locked then none else some (register s k f)
    | _ => none
  /- (fiber_scheduler.cpp:194-199) -/
  | .finish =>
    match s.pc with
    | .running k =>
      some { s with
        fib := upd s.fib k { s.fib k with state := .terminated, async := s.clock }
        pc := .idle
        trace := .finished k :: s.trace }
    | _ => none

def run (s : Sys) : List Act → Option Sys
  | [] => some s
  | a :: as => (step s a).bind fun s' => run s' as

inductive Reachable : Sys → Prop
  | init (warn fail : Nat) : Reachable { warn := warn, fail := fail }
  | step {s s' : Sys} (a : Act) : Reachable s → step s a = some s' → Reachable s'

/-- `successful()`.  (abstract_future.hpp:69-73) -/
def successful (s : Sys) (f : Nat) : Bool := (s.fut f).init && !(s.fut f).failed

/-- What `check_success()` does. -/
inductive Check where
  | returns
  | notInitialized
  | rethrows
deriving DecidableEq, Repr

/-- `check_success()`, with its two loads of `m_init` taken together.  (abstract_future.hpp:76-82, abstract_future.cpp:62-74) -/
def checkSuccess (s : Sys) (f : Nat) : Check :=
  if (s.fut f).init = false then
    if (s.fut f).init = false then .notInitialized
    else if (s.fut f).failed then .rethrows
    else .returns
  else .returns

end Verif.Fiber
