import Verif.Model.HttpServer
import Verif.Model.WsHandshake
import Verif.Model.WsSession
/-!
# `WS_Server_Session` over `HTTP_Server_Session`

Models how `poseidon/src/socket/ws_server_session.cpp` (`wss_server_session.cpp` has the same code) fills in the functions that `HTTP_Server_Session` calls.  The state of the class is a function
of the calls that have been made.  The parser of frames, the messages and the callbacks of the user are those of `Model/WsSession.lean`, the handshake is that of `Model/WsHandshake.lean`, and the
HTTP session below is that of `Model/HttpServer.lean`.
-/
namespace Verif.WsServer
open Verif.HttpRequest (Headers)

/-- The parts of the environment that do not belong to a session of frames. -/
structure Cfg (Z : Type) where
  /-- how header values are parsed -/
  values : Http.Lib
  env : Ws.Env Z
  /-- the state of a new inflator -/
  inflator : Z
  /-- the parser at the beginning, with the limits of the configuration -/
  parser : Ws.Parser := {}
  /-- the alignment of the buffer in each call -/
  addr : Nat → Nat := fun _ => 0

/-- The session.  `heads` has the heads of requests, `responses` the status codes of HTTP responses and `addresses` the arguments of `do_on_ws_accepted()`.  `threw` tells that an exception has left the current call; then nothing is
done any more until the next one (tcp_socket.cpp:66-82).  (ws_server_session.hpp:13-21) -/
structure W (Z : Type) where
  ws : Ws.Session Z
  heads : List Headers := []
  responses : List Nat := []
  addresses : List Bytes := []
  threw : Bool := false
  calls : Nat := 0

variable {Z : Type}

/-- The headers of a request as texts; a header that has no value is empty there. -/
def texts (h : Headers) : List (Bytes × Bytes) := h.headers.map fun x => (x.1, HttpRequest.as_string x.2)

/-- `accept_handshake_request(resp, req)`: the parser and the status code of the response.  `none` is the exception.  (websocket_frame_parser.cpp:199-326) -/
def handshake (V : Http.Lib) (p : Ws.Parser) (h : Headers) : Option (Ws.Parser × Nat) :=
  if h.method = b! "OPTIONS" then (if p.wshs ≠ .pending then none else some (p, 204))
  else match Ws.accept_handshake_request V p (texts h) with
    | none => none
    | some (p', _) =>
      if p'.wshs = .s_accepted then some (p', 101)
      else if (Ws.hs_headers V false p.default_compression_level (texts h) {}).isNone then some (p', 400)
      else some (p', 426)

/-- `raw_host + raw_path + '?' + raw_query` (ws_server_session.cpp:254) -/
def caddr (h : Headers) : Bytes := h.raw_host ++ h.raw_path ++ [chr '?'] ++ h.raw_query

/-- `do_call_on_ws_close_once()` by a function that then returns. -/
def W.close (g : Cfg Z) (w : W Z) (status : Nat) (reason : Bytes) : W Z :=
  let r := w.ws.close_once g.env status reason
  { w with ws := r.1, threw := w.threw || r.2 }

/-- `do_ws_complete_handshake(req, eot)` for a request that is not to a proxy: the session, and whether a response with status 101 has been sent.  Simplified: sending the response does not
throw, except if the protocol has been switched.  (ws_server_session.cpp:223-255, http_server_session.cpp:192-203) -/
def W.complete (g : Cfg Z) (w : W Z) (h : Headers) (eot : Bool) : W Z × Bool :=
  match handshake g.values w.ws.parser h with
  | none => ({ w with threw := true }, false)
  | some (p, status) =>
    if w.ws.upgraded then ({ w with ws := { w.ws with parser := p }, threw := true }, false)
    else
      let w := { w with ws := { w.ws with parser := p, upgraded := decide (status = 101) }, responses := w.responses ++ [status] }
      if h.method = b! "OPTIONS" then (w, decide (status = 101))
      else if eot || p.wshs ≠ .s_accepted then (w.close g 1002 (Ws.descBytes p.error_desc), decide (status = 101))
      else
        let pmce := if p.pmce_send_window_bits ≠ 0 then some (g.inflator, []) else w.ws.pmce
        ({ w with ws := ({ w.ws with pmce := pmce } : Ws.Session Z).push .accepted, addresses := w.addresses ++ [caddr h], threw := g.env.on_accepted w.ws.trace }, decide (status = 101))

/-- `do_on_http_request_error()`.  `http_response()` throws if the protocol has been switched.  (ws_server_session.cpp:60-72, http_server_session.cpp:205-213) -/
def W.error (g : Cfg Z) (w : W Z) (status : Nat) : W Z :=
  if w.ws.upgraded then { w with threw := true }
  else ({ w with responses := w.responses ++ [status] } : W Z).close g 1006 (Ws.descBytes (some "handshake rejected by HTTP error"))

/-- A call by the HTTP session.  What is left in the buffer by a call is gone at the next one: see C28.  (tcp_socket.cpp:48, ws_server_session.cpp:40-198, 223-232) -/
def W.step (g : Cfg Z) (w : W Z) (e : HttpServer.Ev) : W Z :=
  if w.threw then w
  else
    let w := { w with calls := w.calls + 1 }
    match e with
    | .headers h eot =>
      let w := { w with heads := w.heads ++ [h] }
      if h.is_proxy then w else (w.complete g h eot).1
    | .stream _ => w
    | .finish _ _ _ => w
    | .error _ status => w.error g status
    | .reject _ status => w.error g status
    | .upgraded data _ =>
      let r := w.ws.stream g.env (g.addr w.calls) data
      { w with ws := r.1, threw := r.2.2 == some true }

/-- A new session. -/
def W.start (g : Cfg Z) : W Z := { ws := { parser := g.parser } }

/-- The session `w` after calls. -/
def W.of (g : Cfg Z) (w : W Z) (t : List HttpServer.Ev) : W Z := t.foldl (W.step g) w

/-- The functions that `HTTP_Server_Session` calls, for a session that is in the state `w0` before the calls.  A proxy request is rejected with status 403.  (ws_server_session.cpp:40-72, 226-230) -/
def app (g : Cfg Z) (w0 : W Z) : HttpServer.App where
  onHeaders := fun t h eot =>
    let w := W.of g w0 t
    if w.threw then {}
    else if h.is_proxy then { rejects := [(false, 403)] }
    else { switched := (({ w with calls := w.calls + 1, heads := w.heads ++ [h] } : W Z).complete g h eot).2 }
  onStream := fun _ _ => []
  onFinish := fun _ _ _ _ => false

/-- `do_abstract_socket_on_closed()`.  (ws_server_session.cpp:33-38) -/
def W.closed (g : Cfg Z) (w : W Z) : W Z := w.close g 1006 (Ws.descBytes (some "no CLOSE frame received"))

/-- Reads, by an HTTP session in the state `s`, until there is an exception: the rest is ignored.  An exception may leave the HTTP session, too.  `none` tells that a call does not return. -/
def W.reads (g : Cfg Z) (c : HttpRequest.Cfg) {L : HttpLib.Lib} (w : W Z) (s : HttpServer.Sess L) (reads : List HttpServer.Act) : Option (W Z) :=
  match HttpServer.run (app g w) c s [] reads with
  | none => none
  | some (s', _) => some { W.of g w s'.trace with threw := (W.of g w s'.trace).threw || s'.failed.isSome }

/-- A session until the first exception: the data arrive in these reads. -/
def serve (g : Cfg Z) (c : HttpRequest.Cfg) (L : HttpLib.Lib) (reads : List HttpServer.Act) : Option (W Z) := (W.start g).reads g c ({} : HttpServer.Sess L) reads

/-- What happens after an exception, until the next one.  The socket has been shut down, but data that had arrived before, and the end of the stream, are still passed to the session, which is
not in the state that the parser expects; here it is in any state.  (tcp_socket.cpp:66-82, abstract_socket.cpp:147-158) -/
structure Again (L : HttpLib.Lib) where
  p : HttpRequest.Parser
  st : L.σ
  reads : List HttpServer.Act

/-- The rest of a session, after exceptions.  There is none if there has been no exception. -/
def W.again (g : Cfg Z) (c : HttpRequest.Cfg) {L : HttpLib.Lib} (w : W Z) : List (Again L) → Option (W Z)
  | [] => some w
  | x :: rest =>
    if !w.threw then none
    else match ({ w with threw := false } : W Z).reads g c ({ p := x.p, st := x.st, ack := w.ws.upgraded } : HttpServer.Sess L) x.reads with
      | none => none
      | some w => w.again g c rest

/-- A whole session, which goes on after exceptions. -/
def serveAll (g : Cfg Z) (c : HttpRequest.Cfg) (L : HttpLib.Lib) (reads : List HttpServer.Act) (more : List (Again L)) : Option (W Z) :=
  match serve g c L reads with
  | none => none
  | some w => w.again g c more

end Verif.WsServer
