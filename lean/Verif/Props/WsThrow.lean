import Verif.Proofs.WsThrow
import Verif.Props.WsClient
import Verif.Props.WsServer
/-! # Exceptions of the callbacks of WebSocket connections (C91) -/
namespace Verif.Props
open Verif.HttpLib Verif.Spec

/-- C91.  Whatever arrives at a server: if a callback of the application (for the connection, data, a message, or the close) throws an exception, then the exception leaves the session, and nothing
happens behind it: no other callback is called, and nothing is sent. -/
theorem C91_exception {Z : Type} (g : WsServer.Cfg Z) (c : HttpRequest.Cfg) (L : Lib) (reads : List HttpServer.Act) (w : WsServer.W Z) (h : WsServer.serve g c L reads = some w) :
    NoneThrew g.env w.ws.trace ∨ (w.threw = true ∧ LastThrew g.env w.ws.trace) := WsServer.leaves_serve g c L reads w h

/-- C91.  The same for clients. -/
theorem C91_exception_client {Z : Type} (g : WsClient.Cfg Z) (c : HttpRequest.Cfg) (L : Lib) (reads : List HttpClient.Act) (w : WsClient.W Z) (h : WsClient.connect g c L reads = some w) :
    NoneThrew g.env w.ws.trace ∨ (w.threw = true ∧ LastThrew g.env w.ws.trace) := WsClient.leaves_connect g c L reads w h

-- the callback for the close throws, when a handshake is rejected; or the callback for a message does
example : told { quietServer with env := { quietServer.env with on_close := fun _ _ _ => true } } bareCfg bareLib [.receive (b! "/x\n\n") false] = some ([.close 1006 (b! "handshake rejected by HTTP error")], [400], true) := by decide +kernel
example : toldClient { quietClient with env := { quietClient.env with on_close := fun _ _ _ => true } } replyCfg switchLib [⟨b! "1x\n\n" ++ hiFrame, false⟩] = some ([.close 1002 (b! "handshake response invalid")], [101], true) := by decide +kernel
example : toldClient { quietClient with env := { quietClient.env with on_finish := fun _ _ _ => none } } replyCfg switchLib [⟨answerText ++ b! "\n" ++ hiFrame ++ hiFrame, false⟩]
    = some ([.accepted, .data 1 [72, 105], .finish 1 [72, 105]], [101], true) := by decide +kernel

end Verif.Props
