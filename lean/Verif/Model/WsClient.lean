import Verif.Model.HttpClient
import Verif.Model.WsHandshake
import Verif.Model.WsSession
/-!
# `WS_Client_Session` over `HTTP_Client_Session`

Models how `poseidon/src/socket/ws_client_session.cpp` (`wss_client_session.cpp` has the same code) fills in the functions that `HTTP_Client_Session` calls.  The state of the class is a function of
the calls that have been made.  The parser of frames, the messages and the callbacks of the user are those of `Model/WsSession.lean`, the handshake is that of `Model/WsHandshake.lean`, and the HTTP
session below is that of `Model/HttpClient.lean`.
-/
namespace Verif.WsClient
open Verif.HttpResponse (Headers)

/-- The parts of the environment that do not belong to a session of frames. -/
structure Cfg (Z : Type) where
  /-- how header values are parsed -/
  values : Http.Lib
  env : Ws.Env Z
  /-- the state of a new inflator -/
  inflator : Z
  /-- the parser after `create_handshake_request()` in the constructor, with the limits of the configuration (ws_client_session.cpp:13-20) -/
  parser : Ws.Parser := { wshs := .c_req_sent }
  /-- the answer to the key of the request (websocket_frame_parser.cpp:376-379) -/
  accept : Bytes
  /-- the alignment of the buffer in each call -/
  addr : Nat → Nat := fun _ => 0

/-- The session.  `heads` has the heads of the responses, and `statuses` their status codes.  `threw` tells that an exception has left the current call; then nothing is done any more until the next
one (tcp_socket.cpp:66-82).  (ws_client_session.hpp:13-21) -/
structure W (Z : Type) where
  ws : Ws.Session Z
  heads : List Headers := []
  statuses : List Nat := []
  threw : Bool := false
  calls : Nat := 0

variable {Z : Type}

/-- The headers of a response as texts; a header that has no value is empty there. -/
def texts (h : Headers) : List (Bytes × Bytes) := h.headers.map fun x => (x.1, HttpRequest.as_string x.2)

/-- `do_call_on_ws_close_once()` by a function that then returns. -/
def W.close (g : Cfg Z) (w : W Z) (status : Nat) (reason : Bytes) : W Z :=
  let r := w.ws.close_once g.env status reason
  { w with ws := r.1, threw := w.threw || r.2 }

/-- The part of `do_on_http_response_finish()` after `accept_handshake_response()`.  (ws_client_session.cpp:64-74) -/
def W.shaken (g : Cfg Z) (w : W Z) (p : Ws.Parser) : W Z :=
  let w := { w with ws := { w.ws with parser := p } }
  if p.wshs ≠ .c_accepted then w.close g 1002 (Ws.descBytes p.error_desc)
  else
    let pmce := if p.pmce_send_window_bits ≠ 0 then some (g.inflator, []) else w.ws.pmce
    { w with ws := ({ w.ws with pmce := pmce } : Ws.Session Z).push .accepted, threw := g.env.on_accepted w.ws.trace }

/-- `do_on_http_response_finish(resp, data)`, and then the check for status 101 by `HTTP_Client_Session`, which comes after it.  (ws_client_session.cpp:57-75, http_client_session.cpp:96-108) -/
def W.finish (g : Cfg Z) (w : W Z) (h : Headers) : W Z :=
  let w := { w with heads := w.heads ++ [h], statuses := w.statuses ++ [h.status] }
  match Ws.accept_handshake_response g.values g.accept w.ws.parser (texts h) with
  | none => { w with threw := true }
  | some p =>
    let w := w.shaken g p
    if w.threw then w else { w with ws := { w.ws with upgraded := w.ws.upgraded || h.status == 101 } }

/-- A call by the HTTP session.  What is left in the buffer by a call is gone at the next one: see C28.  (tcp_socket.cpp:48, ws_client_session.cpp:49-196, http_client_session.cpp:47-52, 101-102) -/
def W.step (g : Cfg Z) (w : W Z) (e : HttpClient.Ev) : W Z :=
  if w.threw then w
  else
    let w := { w with calls := w.calls + 1 }
    match e with
    | .headers _ => w
    | .stream _ => w
    | .finish h _ => w.finish g h
    | .shut => { w with ws := w.ws.push .shut_down }
    | .abort => w
    | .upgraded data _ =>
      let r := w.ws.stream g.env (g.addr w.calls) data
      { w with ws := r.1, threw := r.2.2 == some true }

/-- A new session. -/
def W.start (g : Cfg Z) : W Z := { ws := { parser := g.parser } }

/-- The session `w` after calls. -/
def W.of (g : Cfg Z) (w : W Z) (t : List HttpClient.Ev) : W Z := t.foldl (W.step g) w

/-- The functions that `HTTP_Client_Session` calls: the headers are left to the default function, and payloads are cleared.  (ws_client_session.cpp:49-55, http_client_session.cpp:116-128) -/
def app : HttpClient.App where
  onHeaders := fun _ _ => .normal
  onStream := fun _ _ => []

/-- `do_abstract_socket_on_closed()`.  (ws_client_session.cpp:42-47) -/
def W.closed (g : Cfg Z) (w : W Z) : W Z := w.close g 1006 (Ws.descBytes (some "no CLOSE frame received"))

/-- Reads, by an HTTP session in the state `s`, until there is an exception: the rest is ignored.  An exception may leave the HTTP session, too.  `none` tells that a call does not return. -/
def W.reads (g : Cfg Z) (c : HttpRequest.Cfg) {L : HttpLib.Lib} (w : W Z) (s : HttpClient.Sess L) (reads : List HttpClient.Act) : Option (W Z) :=
  match HttpClient.run app c s [] reads with
  | none => none
  | some (s', _) => some { W.of g w s'.trace with threw := (W.of g w s'.trace).threw || s'.failed.isSome }

/-- A session until the first exception: the data arrive in these reads. -/
def connect (g : Cfg Z) (c : HttpRequest.Cfg) (L : HttpLib.Lib) (reads : List HttpClient.Act) : Option (W Z) := (W.start g).reads g c ({} : HttpClient.Sess L) reads

/-- What happens after an exception, until the next one.  The socket has been shut down, but data that had arrived before, and the end of the stream, are still passed to the session, which is
not in the state that the parser expects; here it is in any state.  (tcp_socket.cpp:66-82, abstract_socket.cpp:147-158) -/
structure Again (L : HttpLib.Lib) where
  p : HttpResponse.Parser
  st : L.σ
  reads : List HttpClient.Act

/-- The rest of a session, after exceptions.  There is none if there has been no exception. -/
def W.again (g : Cfg Z) (c : HttpRequest.Cfg) {L : HttpLib.Lib} (w : W Z) : List (Again L) → Option (W Z)
  | [] => some w
  | x :: rest =>
    if !w.threw then none
    else match ({ w with threw := false } : W Z).reads g c ({ p := x.p, st := x.st, ack := w.ws.upgraded } : HttpClient.Sess L) x.reads with
      | none => none
      | some w => w.again g c rest

/-- A whole session, which goes on after exceptions. -/
def connectAll (g : Cfg Z) (c : HttpRequest.Cfg) (L : HttpLib.Lib) (reads : List HttpClient.Act) (more : List (Again L)) : Option (W Z) :=
  match connect g c L reads with
  | none => none
  | some w => w.again g c more

end Verif.WsClient
