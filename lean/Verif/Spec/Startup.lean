import Verif.Model.Startup
/-! # Specification: command lines, and what happens at startup -/
namespace Verif.Spec.Startup
open Verif.Startup

/-- An argument is an option if it begins with a dash and has something behind it. -/
def isOption (a : Bytes) : Bool := a.head? == some (chr '-') && decide (2 ≤ a.length)

/-- Arguments in front of, and behind, the first `--` -/
def front (args : List Bytes) : List Bytes := args.takeWhile (· ≠ [chr '-', chr '-'])
def back (args : List Bytes) : List Bytes := (args.dropWhile (· ≠ [chr '-', chr '-'])).drop 1

/-- `[OPTIONS] [[--] DIRECTORY [MODULE]...]`: letters of options, and the directory followed by modules -/
def optionLetters (args : List Bytes) : Bytes := ((front args).filter isOption).flatMap (·.drop 1)
def operands (args : List Bytes) : List Bytes := (front args).filter (!isOption ·) ++ back args

/-- A command line that is to start the service: no long option, and options `-d` and `-v` only -/
def Starts (args : List Bytes) : Prop :=
  args.head? ≠ some (chrs ['-', '-', 'h', 'e', 'l', 'p']) ∧ args.head? ≠ some (chrs ['-', '-', 'v', 'e', 'r', 's', 'i', 'o', 'n']) ∧
    ∀ c ∈ optionLetters args, c = chr 'd' ∨ c = chr 'v'

instance (args : List Bytes) : Decidable (Starts args) := by unfold Starts; infer_instance

/-- Operands, as absolute paths: `abs` if all of them exist -/
def Absolute (env : Env) (args abs : List Bytes) : Prop := (operands args).map env.realpath = abs.map some

/-- Modules to load: those on the command line, or if there is none, those in `main.conf` of the directory -/
def wanted (env : Env) (abs : List Bytes) : List Bytes :=
  if 2 ≤ abs.length then abs.drop 1
  else match env.config abs.head? with
    | some (some ms) => ms
    | _ => []

/-- What happens for a module that can be used -/
def moduleEvents (env : Env) (m : Bytes) : List Event :=
  match env.module m with
  | .main _ => [.loaded m, .called m, .returned m]
  | _ => [.loaded m]

/-- Everything that is to happen, in this order -/
def plan (env : Env) (abs : List Bytes) : List Event :=
  (match abs.head? with
    | some d => [.chdir d]
    | none => []) ++
  [.config, .done .logger, .done .pidFile, .done .mysql, .done .mongo, .done .redis, .done .network, .done .fibers, .done .threads] ++
  (wanted env abs).flatMap (moduleEvents env) ++ [.ready]

end Verif.Spec.Startup
