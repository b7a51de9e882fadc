import Verif.Model.WsSession
/-! # Exceptions of the callbacks of WebSocket sessions, as seen by their users -/
namespace Verif.Spec

/-- Whether the callback for an event throws an exception, after the events `before`. -/
def callbackThrows {Z : Type} (env : Ws.Env Z) (before : List Ws.Ev) : Ws.Ev → Bool
  | .accepted => env.on_accepted before
  | .data op b => (env.on_data before op b).isNone
  | .finish op b => (env.on_finish before op b).isNone
  | .close n r => env.on_close before n r
  | _ => false

/-- No callback has thrown an exception in this history. -/
def NoneThrew {Z : Type} (env : Ws.Env Z) (history : List Ws.Ev) : Prop :=
  ∀ before e after, history = before ++ e :: after → callbackThrows env before e = false

/-- A callback has thrown an exception, and this is the last thing that has happened. -/
def LastThrew {Z : Type} (env : Ws.Env Z) (history : List Ws.Ev) : Prop :=
  ∃ before e, history = before ++ [e] ∧ callbackThrows env before e = true ∧ NoneThrew env before

end Verif.Spec
