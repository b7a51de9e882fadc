import Verif.Model.WsSession
/-! The state after one iteration of the WebSocket session model. -/
namespace Verif.Ws
variable {Z : Type}

/-- The state in an outcome. -/
def Iter.state : Iter Z → Session Z | .next s _ => s | .stop s _ => s | .throw s _ => s

theorem leave_state (r : Session Z × Bool) (d : Bytes) : (Iter.leave r d).state = r.1 := by
  unfold Iter.leave; split <;> rfl

end Verif.Ws
