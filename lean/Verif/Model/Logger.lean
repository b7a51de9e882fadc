/-!
# The logger

Models `Logger::thread_loop()`, `enqueue()`, `synchronize()` and the effect of `reload()` (logger.cpp:230-365), called by any number of threads.  Messages
are identified by the order in which they are enqueued.  Simplification: `reload()` replaces the configuration at once, with both of its mutexes locked;
what is written by `do_write_nothrow()` is modelled in `Model/LogEntry.lean`.
-/
namespace Verif.Logger

inductive Mode where
  /-- `thread_loop()` -/
  | loop
  /-- `synchronize()` -/
  | sync
deriving DecidableEq, Repr

structure Msg where
  id : Nat
  level : Nat
deriving DecidableEq, Repr

/-- Where a thread is. -/
inductive Pc where
  | idle
  /-- before `m_queue_mutex` is locked; or waiting for messages -/
  | entering (m : Mode)
  /-- `m_queue_mutex` is locked, before `m_sched_mutex` is locked -/
  | locking (m : Mode)
  /-- the messages have been taken; `m_sched_mutex` is locked, before the configuration is read -/
  | reading (m : Mode) (size : Nat) (todo : List Msg)
  /-- `m_sched_mutex` is locked, messages are being written, with this configuration -/
  | writing (m : Mode) (size : Nat) (levels : List Bool) (todo : List Msg)
deriving DecidableEq, Repr

inductive Ev where
  | enqueued (id level : Nat)
  | written (id : Nat)
  /-- the message is ignored -/
  | dropped (id level : Nat)
  /-- a configuration is loaded; the elements tell which levels are expendable -/
  | loaded (levels : List Bool)
  /-- thread `t` calls `synchronize()` -/
  | called (t : Nat)
  /-- `synchronize()` returns to thread `t` -/
  | returned (t : Nat)
deriving DecidableEq, Repr

structure Sys where
  /-- `m_queue` -/
  queue : List Msg := []
  /-- who has locked `m_queue_mutex`, other than in a single step -/
  qlock : Option Nat := none
  /-- who has locked `m_sched_mutex` -/
  slock : Option Nat := none
  /-- `m_conf_levels` -/
  levels : List Bool := []
  pc : Nat → Pc := fun _ => .idle
  ids : Nat := 0
  /-- history, latest event first -/
  trace : List Ev := []

def upd {α : Type} (f : Nat → α) (k : Nat) (v : α) : Nat → α := fun i => if i = k then v else f i

inductive Act where
  /-- some thread calls `enqueue()` -/
  | enqueue (level : Nat)
  /-- thread `t` calls `thread_loop()` or `synchronize()` -/
  | call (t : Nat) (m : Mode)
  /-- thread `t` goes on -/
  | go (t : Nat)
  | reload (levels : List Bool)
deriving DecidableEq, Repr

/-- The message is written, or ignored.  (logger.cpp:288-296, 352-355) -/
def handle (m : Mode) (size : Nat) (levels : List Bool) (msg : Msg) : Ev :=
  match m with
  | .loop =>
    match levels[msg.level]? with
    | none => .dropped msg.id msg.level
    | some expendable => if size > 1000 ∧ expendable then .dropped msg.id msg.level else .written msg.id
  | .sync => if msg.level < levels.length then .written msg.id else .dropped msg.id msg.level

def ret (s : Sys) (t : Nat) (m : Mode) : List Ev := if m = .sync then .returned t :: s.trace else s.trace

def go (s : Sys) (t : Nat) : Option Sys :=
  match s.pc t with
  /- (logger.cpp:273-276, 332) -/
  | .entering m => if s.qlock = none ∧ (m = .loop → s.queue ≠ []) then some { s with qlock := some t, pc := upd s.pc t (.locking m) } else none
  /- (logger.cpp:277-281, 333-339) -/
  | .locking m =>
    if s.slock = none then
      if m = .sync ∧ s.queue = [] then some { s with qlock := none, pc := upd s.pc t .idle, trace := ret s t m }
      else some { s with qlock := none, slock := some t, queue := [], pc := upd s.pc t (.reading m s.queue.length s.queue) }
    else none
  /- (logger.cpp:283-286, 341-344) -/
  | .reading m n todo => some { s with pc := upd s.pc t (.writing m n s.levels todo) }
  | .writing m n levels (msg :: todo) => some { s with pc := upd s.pc t (.writing m n levels todo), trace := handle m n levels msg :: s.trace }
  /- (logger.cpp:298-301, 357-360) -/
  | .writing m _ _ [] => some { s with slock := none, pc := upd s.pc t .idle, trace := ret s t m }
  | .idle => none

def step (s : Sys) : Act → Option Sys
  /- (logger.cpp:305-325) -/
  | .enqueue level =>
    if s.qlock = none then
      some { s with queue := s.queue ++ [⟨s.ids, level⟩], ids := s.ids + 1, trace := .enqueued s.ids level :: s.trace }
    else none
  | .call t m =>
    if s.pc t = .idle then some { s with pc := upd s.pc t (.entering m), trace := if m = .sync then .called t :: s.trace else s.trace }
    else none
  | .go t => go s t
  /- (logger.cpp:230-267) -/
  | .reload levels => if s.slock = none then some { s with levels := levels, trace := .loaded levels :: s.trace } else none

def run (s : Sys) : List Act → Option Sys
  | [] => some s
  | a :: as => (step s a).bind fun s' => run s' as

/-- At the start, a configuration has been loaded; or none, which is the same as one without levels. -/
inductive Reachable : Sys → Prop
  | init (levels : List Bool) : Reachable { levels := levels, trace := [.loaded levels] }
  | step {s s' : Sys} (a : Act) : Reachable s → step s a = some s' → Reachable s'

end Verif.Logger
