import Verif.Base.Bytes
/-!
# Starting the program

Models `main()` of `poseidon/src/main.cpp` (507-559) up to the point where fibers are scheduled: the command line, the order of the steps, daemonization, modules, and exit statuses.
What the steps do to the rest of the system is given by an environment.  `getopt()`, which is not part of the repository, is that of GNU, with `POSIXLY_CORRECT` not set: options are recognised
everywhere in front of `--`, and each letter of an argument is one option.  Messages are not modelled.
-/
namespace Verif.Startup

/-- `Command_Line_Options`, main.cpp 93-103, with `help` and `version` of `do_parse_command_line()` -/
structure Options where
  daemonize : Bool := false
  verbose : Bool := false
  help : Bool := false
  version : Bool := false
deriving DecidableEq, Repr

/-- The `switch` in `do_parse_command_line()`, main.cpp 157-181; `none`: `exit_invalid_argument` -/
def letter (o : Options) (c : Byte) : Option Options :=
  if c = chr 'd' then some { o with daemonize := true }
  else if c = chr 'h' then some { o with help := true }
  else if c = chr 'V' then some { o with version := true }
  else if c = chr 'v' then some { o with verbose := true }
  else none

def letters (o : Options) : Bytes → Option Options
  | [] => some o
  | c :: t => match letter o c with
    | none => none
    | some o' => letters o' t

/-- The loop with `getopt()`, main.cpp 155-181, and the arguments from `optind` on -/
def getopt (o : Options) : List Bytes → Option (Options × List Bytes)
  | [] => some (o, [])
  | a :: t =>
    if a = [chr '-', chr '-'] then some (o, t)
    else match a with
      | m :: c :: w =>
        if m = chr '-' then
          match letters o (c :: w) with
          | none => none
          | some o' => getopt o' t
        else (getopt o t).map fun r => (r.1, a :: r.2)
      | _ => (getopt o t).map fun r => (r.1, a :: r.2)

/-- How a step ends. -/
inductive Res where
  | ok
  /-- An exception is thrown. -/
  | throws
  /-- The process is terminated by something that has been called. -/
  | exits (n : Nat)
  /-- The process is terminated by a signal. -/
  | killed (n : Nat)
deriving DecidableEq, Repr

/-- Steps that do not depend on others. -/
inductive Part where
  | logger | pidFile | mysql | mongo | redis | network | fibers | threads
deriving DecidableEq, Repr

/-- A module that has been looked for -/
inductive Module where
  /-- `dlopen()` fails. -/
  | missing
  /-- It is loaded, without `poseidon_module_main()`. -/
  | plain
  /-- It is loaded, and `poseidon_module_main()` ends so. -/
  | main (r : Res)
deriving DecidableEq, Repr

/-- The environment -/
structure Env where
  /-- `realpath()` in the directory where the program is started -/
  realpath : Bytes → Option Bytes
  chdir : Bytes → Bool
  /-- `main.conf` in the working directory, which is that where the program is started if none is given: `none` if it cannot be loaded, otherwise its `modules`, `none` if they are not an array of
  strings -/
  config : Option Bytes → Option (Option (List Bytes))
  part : Part → Res
  module : Bytes → Module
  /-- The first `fork()`, `pipe()` and the second `fork()`, and `waitpid()` in the parent and in the child, succeed. -/
  fork1 : Bool := true
  pipe : Bool := true
  fork2 : Bool := true
  wait1 : Bool := true
  wait2 : Bool := true

inductive Event where
  | help
  | version
  | chdir (d : Bytes)
  | config
  | done (p : Part)
  /-- A module is loaded. -/
  | loaded (m : Bytes)
  /-- Its `poseidon_module_main()` is called, and it has returned. -/
  | called (m : Bytes)
  | returned (m : Bytes)
  /-- `do_daemonize_finish()`, main.cpp 313-323 -/
  | ready
deriving DecidableEq, Repr

/-- The state of a process -/
inductive Final where
  /-- It schedules fibers. -/
  | serving
  | exited (n : Nat)
  | signaled (n : Nat)
deriving DecidableEq, Repr

/-- `do_parse_command_line()`, main.cpp 183-202: arguments that are not options -/
def paths (env : Env) : List Bytes → Option (List Bytes)
  | [] => some []
  | a :: t => match env.realpath a with
    | none => none
    | some p => (paths env t).map (p :: ·)

/-- What is left of a process after a step that has not been completed; an exception makes `main()` return `exit_system_error`, main.cpp 555-559. -/
def stop : Res → Final
  | .ok => .serving
  | .throws => .exited 1
  | .exits n => .exited n
  | .killed n => .signaled n

/-- `do_load_modules()`, main.cpp 487-500, followed by `do_daemonize_finish()` -/
def loadModules (env : Env) : List Bytes → List Event × Final
  | [] => ([.ready], .serving)
  | m :: ms => match env.module m with
    | .missing => ([], .exited 1)
    | .plain => let r := loadModules env ms; (.loaded m :: r.1, r.2)
    | .main .ok => let r := loadModules env ms; (.loaded m :: .called m :: .returned m :: r.1, r.2)
    | .main x => ([.loaded m, .called m], stop x)

/-- Steps of `main()`, followed by `do_load_modules()` -/
def parts (env : Env) (mods : Option (List Bytes)) : List Part → List Event × Final
  | [] => match mods with
    | none => ([], .exited 1)
    | some ms => loadModules env ms
  | p :: ps => match env.part p with
    | .ok => let r := parts env mods ps; (.done p :: r.1, r.2)
    | x => ([], stop x)

/-- `main()`, main.cpp 525-541, after daemonization -/
def later : List Part := [.pidFile, .mysql, .mongo, .redis, .network, .fibers, .threads]

/-- `do_waitpid_and_exit()`, main.cpp 219-237 -/
def waitAndExit (ok : Bool) : Final → Final
  | .exited n => if ok then .exited n else .exited 1
  | .signaled n => if ok then .exited (128 + n) else .exited 1
  | .serving => .serving

/-- The processes after the program has been started: the one that has been started, and the one that is to serve, which is the same unless `-d` is given. -/
structure Outcome where
  /-- effects of the process that is to serve, and of the one that has been started before -/
  events : List Event
  started : Final
  serving : Final
deriving DecidableEq, Repr

/-- `do_daemonize_start()`, main.cpp 239-311, for a grandchild which does `r`: if it has written to the pipe the child exits with 0, otherwise the child waits for it, and exits with its status;
the parent waits for the child. -/
def daemonize (env : Env) (r : List Event × Final) : Outcome :=
  if !env.fork1 then { events := [], started := .exited 1, serving := .exited 1 }
  else if !env.pipe || !env.fork2 then { events := [], started := waitAndExit env.wait1 (.exited 1), serving := .exited 1 }
  else
    let child : Final := if .ready ∈ r.1 then .exited 0 else waitAndExit env.wait2 r.2
    { events := r.1, started := waitAndExit env.wait1 child, serving := r.2 }

/-- `main()` from `do_set_working_directory()` on, main.cpp 205-217, 519-544; modules from the command line take the place of those in `main.conf`, main.cpp 473-485. -/
def start (env : Env) (o : Options) (dir : Option Bytes) (mods : List Bytes) : Outcome :=
  match dir with
  | some d =>
    if env.chdir d then
      let r := configured (some d)
      { r with events := .chdir d :: r.events }
    else { events := [], started := .exited 1, serving := .exited 1 }
  | none => configured none
where
  configured (dir : Option Bytes) : Outcome :=
    match env.config dir with
    | none => { events := [], started := .exited 1, serving := .exited 1 }
    | some conf =>
      match env.part .logger with
      | .ok =>
        let r := parts env (if mods = [] then conf else some mods) later
        let out := if o.daemonize then daemonize env r else { events := r.1, started := r.2, serving := r.2 }
        { out with events := .config :: .done .logger :: out.events }
      | x => { events := [.config], started := stop x, serving := stop x }

/-- `main()`; `args` are the arguments behind the name of the program. -/
def main (env : Env) (args : List Bytes) : Outcome :=
  if args.head? = some (chrs ['-', '-', 'h', 'e', 'l', 'p']) then { events := [.help], started := .exited 0, serving := .exited 0 }
  else if args.head? = some (chrs ['-', '-', 'v', 'e', 'r', 's', 'i', 'o', 'n']) then { events := [.version], started := .exited 0, serving := .exited 0 }
  else match getopt {} args with
    | none => { events := [], started := .exited 2, serving := .exited 2 }
    | some (o, rest) =>
      if o.help then { events := [.help], started := .exited 0, serving := .exited 0 }
      else if o.version then { events := [.version], started := .exited 0, serving := .exited 0 }
      else match paths env rest with
        | none => { events := [], started := .exited 1, serving := .exited 1 }
        | some ps => start env o ps.head? (ps.drop 1)

end Verif.Startup
