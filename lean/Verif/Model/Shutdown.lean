import Verif.Model.Logger
import Verif.Model.PidFile
import Verif.Model.FiberHeap
/-!
# Stopping the program

Models how signals stop the program: `do_init_signal_handlers()`, `do_create_resident_thread()` (as far as signals are concerned), the loop in `main()` and `do_exit_printf()` of
`poseidon/src/main.cpp`, in composition with the models of the queue of fibers, the logger and the PID file.  The main thread, which is also the one that runs fibers, is thread 0 of the logger.
The steps between the installation of handlers and the loop are one phase, `starting`, in which messages may be logged and fibers may be launched; they are modelled in `Model/Startup.lean`.
Signals are numbered as on Linux.  A process which is suspended by a signal like `SIGSTOP` does nothing for some time, which need not be modelled.
-/
namespace Verif.Shutdown

/-- What a process does about a signal. -/
inductive Disposition where
  | default
  | ignore
  /-- the handler, which does `exit_signal.store(n)` -/
  | store
deriving DecidableEq, Repr

/-- `do_init_signal_handlers()`, main.cpp 387-404: calls of `sigaction()` for `SIGPIPE`, `SIGCHLD`, `SIGINT`, `SIGTERM`, `SIGHUP` and `SIGALRM` -/
def installs : List (Nat × Disposition) := [(13, .ignore), (17, .ignore), (2, .store), (15, .store), (1, .store), (14, .store)]

/-- The disposition of signal `n` after the first `k` calls -/
def disposition (k n : Nat) : Disposition := ((installs.take k).lookup n).getD .default

/-- Signals whose default action does not terminate the process, signal(7): `SIGCHLD`, `SIGCONT`, `SIGSTOP`, `SIGTSTP`, `SIGTTIN`, `SIGTTOU`, `SIGURG` and `SIGWINCH` -/
def harmless : List Nat := [17, 18, 19, 20, 21, 22, 23, 28]

inductive Final where
  | exited (code : Nat)
  | signaled (n : Nat)
deriving DecidableEq, Repr

/-- Where the main thread is. -/
inductive Pc where
  /-- `k` calls in `do_init_signal_handlers()` have been made; if none, then it may be anywhere before.  (main.cpp 509-526) -/
  | installing (k : Nat)
  /-- in `do_write_pid_file()`, main.cpp 527 -/
  | pidFile
  /-- main.cpp 528-543 -/
  | starting
  /-- before `exit_signal.load()`, main.cpp 547 -/
  | check
  /-- at the beginning of `thread_loop()`, main.cpp 548 -/
  | loop
  /-- in `nanosleep()`, fiber_scheduler.cpp:321-322 -/
  | asleep (until_ : Int)
  /-- a fiber has been taken, and may be run; fiber_scheduler.cpp:326-393 -/
  | fiber (id : Nat)
  /-- before the message of line 550, main.cpp -/
  | stopping
  /-- in `do_exit_printf()`, before `synchronize()`; main.cpp 119-125 -/
  | exiting (code : Nat)
  /-- in `synchronize()`, or thereafter; main.cpp 125-141 -/
  | syncing (code : Nat)
  | over (f : Final)
deriving DecidableEq, Repr

inductive Ev where
  /-- `do_init_signal_handlers()` has returned. -/
  | handlers
  /-- Startup is complete. -/
  | ready
  /-- `thread_loop()` falls asleep, or takes a fiber. -/
  | slept (d : Int)
  | took (id : Nat)
  /-- A signal is delivered, to the main thread or to another one. -/
  | signal (n : Nat) (main : Bool)
  /-- The loop in `main()` is left because of signal `n`, when this is the history of the logger. -/
  | stopping (n : Nat) (log : List Logger.Ev)
  /-- The message about that is logged. -/
  | said (id : Nat)
  /-- A step of startup has failed, or `thread_loop()` has thrown an exception. -/
  | failed
deriving DecidableEq

structure Sys where
  pc : Pc := .installing 0
  /-- `exit_signal`, main.cpp 106 -/
  sig : Nat := 0
  clock : Int
  fib : FiberHeap.Sys := {}
  log : Logger.Sys
  pid : PidFile.Sys
  /-- newest first -/
  trace : List Ev := []

/-- This process: its number, a number that is larger than that of all processes, and whether it has a PID file -/
structure Cfg where
  me : Nat
  n : Nat
  pidFile : Bool

inductive Act where
  /-- The main thread goes on. -/
  | main
  /-- The same, if it is about to log a message whose level is enabled -/
  | say
  /-- A step of startup fails. -/
  | fail (code : Nat)
  /-- `thread_loop()` throws an exception, for example if there is no memory for a stack. -/
  | throw
  /-- `thread_loop()` accesses the queue of fibers; see `Model/FiberHeap.lean`. -/
  | loop (async : Nat → Int) (fate : FiberHeap.Item → Option Int) (l0 l l' : List FiberHeap.Item)
  | signal (n : Nat) (main : Bool)
  | tick (d : Nat)
  | launch (id : Nat) (v : Int) (l : List FiberHeap.Item)
  /-- The logger is used, by any thread. -/
  | log (a : Logger.Act)
  /-- The PID file is used, by this or another process. -/
  | pid (a : PidFile.Act)

/-- The process that does it -/
def doer : PidFile.Act → Nat
  | .creat p | .lock p | .write p | .unlock p | .share p | .exit p | .kill p => p

def isEnd : PidFile.Act → Bool
  | .exit _ | .kill _ => true
  | _ => false

/-- The PID file when the process ends; nothing is done if it has ended for the file already, which means that it could not be locked. -/
def endPid (c : Cfg) (s : Sys) (a : PidFile.Act) : PidFile.Sys := (PidFile.step c.n s.pid a).getD s.pid

/-- Whether code of users is running in the main thread -/
def user : Pc → Bool
  | .starting | .fiber _ => true
  | _ => false

/-- Actions of the logger that are possible: only in code of users, and in `do_exit_printf()`, does the main thread call `synchronize()`. -/
def mayLog (s : Sys) : Logger.Act → Bool
  | .call t m => t != 0 || (m = .sync && user s.pc)
  | _ => true

/-- The main thread goes on, main.cpp 387-404, 527-552, 119-141. -/
def main (c : Cfg) (s : Sys) : Option Sys :=
  match s.pc with
  | .installing k => if k < installs.length then some { s with pc := .installing (k + 1) } else some { s with pc := .pidFile, trace := .handlers :: s.trace }
  | .pidFile => if s.pid.st c.me = (if c.pidFile then .running else .fresh) then some { s with pc := .starting } else none
  | .starting => if s.log.pc 0 = .idle then some { s with pc := .check, trace := .ready :: s.trace } else none
  | .check => if s.sig = 0 then some { s with pc := .loop } else some { s with pc := .stopping, trace := .stopping s.sig s.log.trace :: s.trace }
  | .loop => none
  | .asleep u => if u ≤ s.clock then some { s with pc := .check } else none
  | .fiber _ => if s.log.pc 0 = .idle then some { s with pc := .check } else none
  | .stopping => some { s with pc := .exiting 0 }
  | .exiting code => (Logger.step s.log (.call 0 .sync)).map fun l => { s with pc := .syncing code, log := l }
  | .syncing code => if s.log.pc 0 = .idle then some { s with pc := .over (.exited code), pid := endPid c s (.exit c.me) } else none
  | .over _ => none

/-- How many calls of `sigaction()` have been made -/
def calls : Pc → Nat
  | .installing k => k
  | _ => installs.length

/-- A signal is delivered.  Threads of the library other than the main one block those that are handled (main.cpp 326-372), but others may not.  The handler is installed without `SA_RESTART`, so
that it interrupts `nanosleep()`. -/
def signal (c : Cfg) (s : Sys) (n : Nat) (inMain : Bool) : Sys :=
  let s' := { s with trace := .signal n inMain :: s.trace }
  match disposition (calls s.pc) n with
  | .default => if n ∈ harmless then s' else { s' with pc := .over (.signaled n), pid := endPid c s (.kill c.me) }
  | .ignore => s'
  | .store =>
    let s'' := { s' with sig := n }
    match s.pc with
    | .asleep _ => if inMain then { s'' with pc := .check } else s''
    | _ => s''

def running : Pc → Bool
  | .over _ => false
  | _ => true

def step (c : Cfg) (s : Sys) : Act → Option Sys
  | .main => main c s
  | .say => match s.pc with
    | .stopping => (Logger.step s.log (.enqueue 3)).map fun l => { s with pc := .exiting 0, log := l, trace := .said s.log.ids :: s.trace }
    | _ => none
  /- Startup fails, main.cpp 555-559 and wherever `do_exit_printf()` is called.  The message at level 0 may have been logged before. -/
  | .fail code => match s.pc with
    | .installing _ | .pidFile | .starting => if code ≠ 0 ∧ s.log.pc 0 = .idle then some { s with pc := .exiting code, trace := .failed :: s.trace } else none
    | _ => none
  /- main.cpp 555-559 -/
  | .throw => match s.pc with
    | .loop | .fiber _ => if s.log.pc 0 = .idle then some { s with pc := .exiting 1, trace := .failed :: s.trace } else none
    | _ => none
  | .loop async fate l0 l l' => match s.pc with
    | .loop => match FiberHeap.loop s.fib s.clock async fate l0 l l' with
      | .ok (f, .slept d) => some { s with pc := .asleep (s.clock + d), fib := f, trace := .slept d :: s.trace }
      | .ok (f, .took e _) => some { s with pc := .fiber e.id, fib := f, trace := .took e.id :: s.trace }
      | _ => none
    | _ => none
  | .signal n inMain => if running s.pc then some (signal c s n inMain) else none
  | .tick d => some { s with clock := s.clock + d }
  | .launch id v l => if running s.pc then
      match FiberHeap.launch s.fib id v l with
      | .ok f => some { s with fib := f }
      | _ => none
    else none
  | .log a => if running s.pc && mayLog s a then (Logger.step s.log a).map fun l => { s with log := l } else none
  | .pid a =>
    if doer a ≠ c.me ∨ (s.pc = .pidFile ∧ c.pidFile = true ∧ isEnd a = false) then (PidFile.step c.n s.pid a).map fun p => { s with pid := p } else none

def run (c : Cfg) (s : Sys) : List Act → Option Sys
  | [] => some s
  | a :: as => match step c s a with
    | none => none
    | some s' => run c s' as

/-- When the program is started: `levels` is the configuration of the logger, and nothing is known about other processes but that they, too, act according to `Model/PidFile.lean`. -/
def start (levels : List Bool) (atomic : Bool) (t : Int) : Sys :=
  { clock := t, log := { levels := levels, trace := [.loaded levels] }, pid := { atomic := atomic } }

end Verif.Shutdown
