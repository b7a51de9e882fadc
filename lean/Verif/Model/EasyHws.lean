import Verif.Model.EasyWs
/-!
# Sessions of `Easy_HWS_Server`

What the functions of `Final_Session` in easy/easy_hws_server.cpp push: they answer plain HTTP requests and WebSocket handshakes on the same socket.  easy_hwss_server.cpp has the same code.
-/
namespace Verif.EasyHws
open Verif.Easy Verif.EasyNet Verif.EasyWs
open Verif.HttpLib (Lib)
open Verif.HttpRequest (Headers)

/-- The type of an event that is not a closure: `easy_hws_get`, `easy_hws_head`, or one of those of a WebSocket session. -/
inductive HMsg where
  | get | head
  | ws (m : WMsg)
deriving DecidableEq, Repr

/-- An event of a WebSocket session.  (easy_hws_server.cpp:202-246) -/
def lift (e : Event WMsg) : Event HMsg := { ty := e.ty, error := e.error, data := e.data, msg := e.msg.map .ws }

inductive Route where
  | shake | get | head | other
deriving DecidableEq, Repr

/-- What is done with a request that is not to a proxy.  (easy_hws_server.cpp:162-191) -/
def route (h : Headers) : Route :=
  if h.method = b! "OPTIONS" then .shake
  else if h.method = b! "GET" then (if h.headers.any fun r => Http.name_eq r.1 (b! "Upgrade") then .shake else .get)
  else if h.method = b! "HEAD" then .head
  else .other

/-- What is pushed for a plain request.  (easy_hws_server.cpp:175-199) -/
def plain (h : Headers) : List (Event HMsg) :=
  let data := h.raw_host ++ h.raw_path ++ [chr '?'] ++ h.raw_query
  match route h with
  | .get => [{ ty := .other, data := data, msg := some .get }]
  | .head => [{ ty := .other, data := data, msg := some .head }]
  | _ => []

section
variable {Z : Type} {L : Lib}

/-- A session: that of `WS_Server_Session`, and what has been pushed. -/
structure H (Z : Type) where
  w : WsServer.W Z
  log : List (Event HMsg) := []

/-- What `WS_Server_Session` has done has been pushed. -/
def H.take (s : H Z) (w : WsServer.W Z) : H Z := { w := w, log := s.log ++ (events (w.addresses.getLastD []) s.w.ws.trace w.ws.trace).map lift }

/-- A call by the HTTP session.  `do_on_http_request_headers()` is overridden; a request with another method is rejected with status 405, see `app`.  (easy_hws_server.cpp:150-200) -/
def H.step (g : WsServer.Cfg Z) (s : H Z) (e : HttpServer.Ev) : H Z :=
  match e with
  | .headers h eot =>
    if s.w.threw then s
    else
      let w := { s.w with calls := s.w.calls + 1, heads := s.w.heads ++ [h] }
      if h.is_proxy then { s with w := w }
      else if route h = .shake then s.take (w.complete g h eot).1
      else { w := w, log := s.log ++ plain h }
  | e => s.take (s.w.step g e)

/-- A new session. -/
def H.start (g : WsServer.Cfg Z) : H Z := { w := .start g }

/-- The session `s` after calls. -/
def H.of (g : WsServer.Cfg Z) (s : H Z) (t : List HttpServer.Ev) : H Z := t.foldl (H.step g) s

/-- The functions that `HTTP_Server_Session` calls.  A proxy request is rejected with status 403, and a request with another method with status 405.  Simplified: `quick_shut_down()` is called after
that, but what has arrived before is still read.  (easy_hws_server.cpp:150-200, ws_server_session.cpp:40-72) -/
def app (g : WsServer.Cfg Z) (s0 : H Z) : HttpServer.App where
  onHeaders := fun t h eot =>
    let w := (H.of g s0 t).w
    if w.threw then {}
    else if h.is_proxy then { rejects := [(false, 403)] }
    else if route h = .shake then { switched := (({ w with calls := w.calls + 1, heads := w.heads ++ [h] } : WsServer.W Z).complete g h eot).2 }
    else if route h = .other then { rejects := [(false, 405)] }
    else {}
  onStream := fun _ _ => []
  onFinish := fun _ _ _ _ => false

/-- Reads until there is an exception, like `WsServer.W.reads`. -/
def H.reads (g : WsServer.Cfg Z) (c : HttpRequest.Cfg) (s : H Z) (x : HttpServer.Sess L) (reads : List HttpServer.Act) : Option (H Z) :=
  match HttpServer.run (app g s) c x [] reads with
  | none => none
  | some (x', _) => some { H.of g s x'.trace with w := { (H.of g s x'.trace).w with threw := (H.of g s x'.trace).w.threw || x'.failed.isSome } }

/-- A session, like `EasyWs.SNode`. -/
structure Node (Z : Type) (L : Lib) where
  base : H Z
  http : HttpServer.Sess L := {}
  acts : List HttpServer.Act := []
  s : H Z

/-- Data, or the end of the stream.  After an exception the HTTP parser is in some state: see `WsServer.Again`. -/
def Node.read (g : WsServer.Cfg Z) (c : HttpRequest.Cfg) (resume : H Z → HttpRequest.Parser × L.σ) (x : Node Z L) (data : Bytes) (eof : Bool) : Option (Node Z L × List (Event HMsg)) :=
  let x' : Node Z L :=
    if x.s.w.threw then
      { x with base := { x.s with w := { x.s.w with threw := false } }, http := { p := (resume x.s).1, st := (resume x.s).2, ack := x.s.w.ws.upgraded }, acts := [.receive data eof] }
    else { x with acts := x.acts ++ [.receive data eof] }
  match x'.base.reads g c x'.http x'.acts with
  | none => none
  | some s => some ({ x' with s := s }, s.log.drop x.s.log.length)

/-- `do_abstract_socket_on_closed()`.  (ws_server_session.cpp:33-38) -/
def H.closed (g : WsServer.Cfg Z) (s : H Z) : H Z := s.take (s.w.closed g)

/-- `Final_Session` of `Easy_HWS_Server`.  (easy_hws_server.cpp:108-247) -/
def server (g : WsServer.Cfg Z) (c : HttpRequest.Cfg) (L : Lib) (resume : H Z → HttpRequest.Parser × L.σ) : Class HMsg where
  σ := Node Z L
  init := { base := .start g, s := .start g }
  on := fun x i => match i with
    | .connected => some (x, [])
    | .read data => x.read g c resume data false
    | .eof => x.read g c resume [] true
    | .closed _ => some ({ x with s := x.s.closed g }, (x.s.closed g).log.drop x.s.log.length)

end

end Verif.EasyHws
