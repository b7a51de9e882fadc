import Verif.Spec.EasyHttp
import Verif.Spec.HttpExchange
/-! # What the users of `Easy_HTTP_Client` and `Easy_HTTP_Server` tell each other -/
namespace Verif.Spec.Exchange
open Verif.Easy Verif.HttpExchange
open Verif.EasyHttp (SMsg CMsg)
open Verif.Http (SHeaders)

/-- The callback of a server is called for this request. -/
def Got.event (g : Got) : Event SMsg := { ty := .other, msg := some (.request g.headers g.payload g.close) }

/-- The callback of a client is called for this response. -/
def Answered.event (w : Answered) : Event CMsg := { ty := .other, msg := some (.response w.headers w.payload) }

/-- The requests for which the callback of a server has been called. -/
def requestsOf (evs : List (Event SMsg)) : List Got := evs.filterMap fun e => match e.msg with
  | some (.request h b c) => some ⟨h, b, c⟩
  | _ => none

/-- What a server has sent, if its callback has been called for these events, and answers each request as `reply` says. -/
def sentFor (V : Http.Lib) (status_str : Nat → Bytes) (reply : Got → Sending SHeaders) (evs : List (Event SMsg)) : Bytes :=
  (((requestsOf evs).flatMap fun g => answers false (reply g)).foldl (answer V status_str) {}).sent

/-- A callback has been called for the opening of a session, for some of the events from the first one on, and for the closure, as far as it has got; unless the socket has been closed before. -/
def Told {M : Type} (openEvent : Event M) (evs : List (Event M)) (input : List EasyNet.In) (seen : List (Event M)) : Prop :=
  ∃ k cl, (cl = [] ∨ ∃ reason, .closed reason ∈ input ∧ cl = [EasyHttp.ended reason]) ∧ (seen <+: openEvent :: evs.take k ++ cl ∨ seen <+: cl)

end Verif.Spec.Exchange
