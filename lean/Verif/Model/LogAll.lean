import Verif.Model.Logger
import Verif.Model.LogFiles
/-!
# The logger and its files

Puts `Model/Logger.lean`, `Model/LogFiles.lean` and `Model/LogEntry.lean` together: any number of threads enqueue messages, call `thread_loop()` and `synchronize()`, and load configurations; messages are
written to files with the configuration that the writing thread has copied (`poseidon/src/static/logger.cpp`).  Simplified: a message is written to all files of its level in one step, with one reading of
the clock; nothing else can write to these files in between, as `m_sched_mutex` is locked.
-/
namespace Verif.LogAll
open Verif.LogFiles (Os St)

/-- `Level_Config`.  (logger.cpp:17-23) -/
structure Level where
  look : Log.Level
  files : List Bytes
  expendable : Bool

structure Sys where
  log : Logger.Sys
  /-- `m_sched_files`, and what the operating system has seen -/
  io : St := {}
  /-- `m_conf_levels` -/
  conf : List Level
  /-- `levels`, the copy of a thread -/
  held : Nat → List Level := fun _ => []
  /-- messages, in the order in which they were enqueued -/
  msgs : Nat → Log.Msg := fun _ => ⟨[], 0, [], [], [], 0⟩
  /-- all configurations that have been loaded -/
  loaded : List (List Level)

inductive Act where
  /-- some thread calls `enqueue()` -/
  | enqueue (level : Nat) (m : Log.Msg)
  /-- thread `t` calls `thread_loop()` or `synchronize()` -/
  | call (t : Nat) (m : Logger.Mode)
  /-- thread `t` goes on, at this time of the clock -/
  | go (t : Nat) (time : Log.Time)
  | reload (conf : List Level)

/-- Which levels are expendable. -/
def flags (conf : List Level) : List Bool := conf.map (·.expendable)

/-- What thread `t` does beside what is modelled in `Logger.go`.  (logger.cpp:283-300, 341-359) -/
def effect (os : Os) (s : Sys) (t : Nat) (time : Log.Time) : Sys :=
  match s.log.pc t with
  /- (logger.cpp:283-286, 341-344) -/
  | .reading _ _ _ => { s with held := Logger.upd s.held t s.conf }
  /- (logger.cpp:288-296, 346-349) -/
  | .writing m n lv (msg :: _) =>
    match Logger.handle m n lv msg, (s.held t)[msg.level]? with
    | .written _, some l => { s with io := LogFiles.writeAll os s.io ⟨l.files, Log.entry l.look time (s.msgs msg.id)⟩ }
    | _, _ => s
  /- (logger.cpp:298-300, 357-359) -/
  | .writing _ _ _ [] => { s with io := { s.io with files := [] } }
  | _ => s

def step (os : Os) (s : Sys) : Act → Option Sys
  | .enqueue level m => (Logger.step s.log (.enqueue level)).map fun l => { s with log := l, msgs := Logger.upd s.msgs s.log.ids m }
  | .call t m => (Logger.step s.log (.call t m)).map fun l => { s with log := l }
  | .go t time => (Logger.step s.log (.go t)).map fun l => { effect os s t time with log := l }
  | .reload conf => (Logger.step s.log (.reload (flags conf))).map fun l => { s with log := l, conf := conf, loaded := conf :: s.loaded }

def init (conf : List Level) : Sys := { log := { levels := flags conf, trace := [.loaded (flags conf)] }, conf := conf, loaded := [conf] }

def run (os : Os) (s : Sys) : List Act → Option Sys
  | [] => some s
  | a :: as => (step os s a).bind fun s' => run os s' as

inductive Reachable (os : Os) : Sys → Prop
  | init (conf : List Level) : Reachable os (init conf)
  | step {s s' : Sys} (a : Act) : Reachable os s → step os s a = some s' → Reachable os s'

end Verif.LogAll
