import Verif.Model.EasyConnect
import Verif.Model.WsServer
import Verif.Model.WsClient
import Verif.Model.WsPeers
/-!
# The two ends of a WebSocket connection

Models the response that a server session sends to the request of a client session, as text (`accept_handshake_request()`, websocket_frame_parser.cpp:199-326), which `Model/WsServer.lean` leaves out, and what
both sessions then know about compression when they send messages.  The request of the client is `ws_request` of `Model/EasyConnect.lean`.
-/
namespace Verif.WsExchange
open Verif.HttpRequest (Headers)

/-- What does not belong to the sessions: how header values are parsed and printed; the answer to a key, which is the Base64 text of the SHA-1 digest of the key and a fixed text (websocket_frame_parser.cpp:38-60);
the current time as text; and the usual reasons for status codes. -/
structure World where
  values : Http.Lib
  digest : Bytes → Bytes
  date : Bytes
  status_str : Nat → Bytes

/-- `accept_handshake_request(resp, req)`: the parser and the whole response.  `none` is the exception.  (websocket_frame_parser.cpp:199-326) -/
def answer (w : World) (p : Ws.Parser) (h : Headers) : Option (Ws.Parser × Http.SHeaders) :=
  if h.method = b! "OPTIONS" then
    if p.wshs ≠ .pending then none
    else some (p, { status := 204, reason := [], headers :=
      [(b! "Connection", b! "close"), (b! "Allow", b! "GET"), (b! "Date", w.date), (b! "Access-Control-Allow-Origin", b! "*"), (b! "Access-Control-Allow-Methods", b! "GET"),
       (b! "Access-Control-Allow-Headers", b! "Upgrade, Origin, Sec-WebSocket-Version, Sec-WebSocket-Key, Sec-WebSocket-Extensions, Sec-WebSocket-Protocol")] })
  else match Ws.accept_handshake_request w.values p (WsServer.texts h) with
    | none => none
    | some (p', ext) =>
      match Ws.hs_headers w.values false p.default_compression_level (WsServer.texts h) {} with
      | none => some (p', { status := 400, reason := [], headers := [(b! "Connection", b! "close")] })
      | some st =>
        if p'.wshs = .s_accepted then some (p', { status := 101, reason := [], headers := Ws.handshake_response w.date (w.digest st.key) ext })
        else some (p', { status := 426, reason := [], headers := [(b! "Connection", b! "close"), (b! "Upgrade", b! "websocket"), (b! "Sec-WebSocket-Version", b! "13")] })

/-- The text of a response: `http_response_headers_only(resp)`.  (http_server_session.cpp:192-203) -/
def answer_text (w : World) (r : Http.SHeaders) : Bytes := Http.raw_response w.status_str r []

/-- What a session knows when it sends messages: it compresses them if `pmce_send_window_bits()` is not zero.  (ws_server_session.cpp:249-251, 281-289, ws_client_session.cpp:69-71, 253-261) -/
def sender {S : Type} (server : Bool) (p : Ws.Parser) (zs : Zlib.Zlib S) (grow : Bytes → Nat → Nat) : WsPeers.Sender S :=
  { server := server, pmce := p.pmce_send_window_bits != 0, noCtx := p.pmce_send_no_context_takeover, zs := zs, grow := grow }

end Verif.WsExchange
