import Verif.Model.LogFiles
/-!
# What is in log files
-/
namespace Verif.LogFiles

/-- What has been appended to a file. -/
def content (file : Bytes) : List Ev → Bytes
  | [] => []
  | .write f _ a :: t => if f = file then a ++ content file t else content file t
  | .open _ _ :: t => content file t

/-- The texts that `write()` has been called with, for a file. -/
def tried (file : Bytes) : List Ev → List Bytes
  | [] => []
  | .write f d _ :: t => if f = file then d :: tried file t else tried file t
  | .open _ _ :: t => tried file t

/-- How often a file has been opened, or tried to be opened. -/
def openings (file : Bytes) (t : List Ev) : Nat := t.count (.open file true) + t.count (.open file false)

/-- The texts which are meant for a file: as often as the file is configured for the level of the message. -/
def meant (file : Bytes) : List Msg → List Bytes
  | [] => []
  | m :: ms => List.replicate (m.files.count file) m.text ++ meant file ms

/-- Everything works. -/
def Works (os : Os) : Prop := (∀ t f, os.opens t f = true) ∧ ∀ t f d, d.length ≤ os.accepts t f d

end Verif.LogFiles
