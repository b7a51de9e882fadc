import Verif.Spec.Uri
import Verif.Model.Connection
/-! # Specification vocabulary for service URIs and Redis conversations -/
namespace Verif.Spec
open Verif.Connection Verif.Redis

/-- The text of a service URI: `user@host:port/database`, where all but the host are optional, or only the user, or nothing.  A
query or a fragment may follow, and is ignored. -/
structure ServiceText where
  user : Option Bytes
  ref : Option RefParts

def ServiceText.text (s : ServiceText) : Bytes :=
  (match s.user with | none => [] | some u => u ++ b! "@") ++ (match s.ref with | none => [] | some p => p.text)

/-- Users contain neither `@` nor `/`.  Without a user, there can be an `@` only after a `/`. -/
structure ServiceText.Valid (s : ServiceText) : Prop where
  user_chars : ∀ u, s.user = some u → chr '@' ∉ u ∧ chr '/' ∉ u
  ref_valid : ∀ p, s.ref = some p → p.Valid
  no_at : s.user = none → ∀ a b, s.text = a ++ b! "@" ++ b → chr '/' ∈ a

/-- What a service URI means. -/
def ServiceText.target (d : Target) (s : ServiceText) : Target where
  user := s.user.getD d.user
  host := (s.ref.map RefParts.host).getD d.host
  port := ((s.ref.bind RefParts.port).map Prod.snd).getD d.port
  database := ((s.ref.bind RefParts.path).map List.tail).getD d.database

/-- What has to be said after connecting, before anything else. -/
def greeting (t : Target) (password : Bytes) : List (List Bytes) :=
  (if password = [] then [] else [[b! "AUTH", t.user, password]]) ++ (if t.database = [] then [] else [[b! "SELECT", t.database]])

/-- The server accepts each of these commands. -/
inductive AllAccepted : List (List Bytes) → List Ev → Prop
  | nil : AllAccepted [] []
  | cons {args cmds evs r} : accepted r = true → AllAccepted cmds evs → AllAccepted (args :: cmds) (.command args r :: evs)

/-- An attempt to log in that fails: no connection, or one of the commands is refused, and nothing follows. -/
inductive FailedLogin (t : Target) (password : Bytes) : List Ev → Prop
  | connect {l} : l ≠ .ok → FailedLogin t password [.connect t.host t.port l]
  | refused {before args after evs r} : greeting t password = before ++ args :: after → AllAccepted before evs → accepted r = false →
      FailedLogin t password (.connect t.host t.port .ok :: (evs ++ [.command args r]))

/-- A login that succeeds. -/
inductive GoodLogin (t : Target) (password : Bytes) : List Ev → Prop
  | mk {evs} : AllAccepted (greeting t password) evs → GoodLogin t password (.connect t.host t.port .ok :: evs)

/-- The commands that have been sent, with their replies. -/
def sentCommands (rs : List (List Bytes × Res)) : List Ev :=
  rs.filterMap fun | (cmd, .sent r) => some (.command cmd r) | _ => none

/-- The reply to the last command that the server has been sent. -/
def lastReply (tr : List Ev) : Option Reply :=
  (tr.reverse.findSome? fun | .command _ r => some r | .connect _ _ _ => none).join

end Verif.Spec
