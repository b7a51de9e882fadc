import Verif.Model.LogAll
import Verif.Spec.Logger
import Verif.Spec.LogFiles
/-!
# What the logger writes to files
-/
namespace Verif.LogAll

/-- How a message has been written: with the properties of a level, and a time. -/
structure Out where
  id : Nat
  level : Level
  time : Log.Time

/-- The entry of the message. -/
def Out.text (msgs : Nat → Log.Msg) (o : Out) : Bytes := Log.entry o.level.look o.time (msgs o.id)

/-- What is meant for a file if these messages have been written: for each of them an entry, as often as the file is configured for the level. -/
def expected (msgs : Nat → Log.Msg) (file : Bytes) : List Out → List Bytes
  | [] => []
  | o :: os => List.replicate (o.level.files.count file) (o.text msgs) ++ expected msgs file os

/-- How many configurations have been loaded since the message was enqueued. -/
def since (id : Nat) : List Logger.Ev → Nat
  | [] => 0
  | .loaded _ :: tr => since id tr + 1
  | .enqueued i _ :: tr => if i = id then 0 else since id tr
  | _ :: tr => since id tr

/-- The level is that of the message, in the configuration that was in force when the message was enqueued, or in one that has been loaded since then.  (`s.loaded` has the latest one first.) -/
def Out.Ok (s : Sys) (o : Out) : Prop :=
  ∃ k conf, Logger.Ev.enqueued o.id k ∈ s.log.trace ∧ conf ∈ s.loaded.take (since o.id s.log.trace + 1) ∧ conf[k]? = some o.level

end Verif.LogAll
