import Verif.Spec.Easy
import Verif.Model.EasyNet
/-! # What the sessions of easy servers and clients are expected to report -/
namespace Verif.EasyNet
open Verif.Easy

variable {M : Type} [DecidableEq M]

/-- What a session does by itself, when these things happen to its socket one after another: its state, and all that it pushes. -/
def outputs (C : Class M) : C.σ → List In → Option (C.σ × List (Event M))
  | x, [] => some (x, [])
  | x, i :: r => match C.on x i with
    | none => none
    | some (y, evs) => match outputs C y r with
      | none => none
      | some (z, more) => some (z, evs ++ more)

/-- What has been pushed for a session, whether or not it has been noted, in the order of time. -/
def pushed (t : List (Ev M)) (sid : Nat) : List (Event M) :=
  match t with
  | [] => []
  | .arrived i ev :: t => if i = sid then pushed t sid ++ [ev] else pushed t sid
  | .ignored i ev :: t => if i = sid then pushed t sid ++ [ev] else pushed t sid
  | .failed i ev :: t => if i = sid then pushed t sid ++ [ev] else pushed t sid
  | _ :: t => pushed t sid

/-- The bytes that have been read from a socket. -/
def bytes (h : List In) : Bytes := h.flatMap fun
  | .read d => d
  | _ => []

/-- What the callback of a stream is called for when something happens to the socket: an opening, data (with whether the stream has ended), or the closure with its reason. -/
def shown : In → Event Bool
  | .connected => { ty := .other, data := [], msg := none }
  | .read d => { ty := .data, data := d, msg := some false }
  | .eof => { ty := .data, data := [], msg := some true }
  | .closed r => { ty := .close, data := r, msg := none }

/-- The peer sends `w`, of which some part may not have arrived yet, and may end the stream after that. -/
def Sends (w : Bytes) (h : List In) : Prop := bytes h <+: w ∧ ∀ a b, h = a ++ .eof :: b → bytes a = w

end Verif.EasyNet
