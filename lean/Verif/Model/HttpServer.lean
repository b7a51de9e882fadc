import Verif.Model.HttpRequest
/-!
# `HTTP_Server_Session`

Models `do_on_tcp_stream()` and the default `do_on_http_request_headers()` of `poseidon/src/socket/http_server_session.cpp`
(`https_server_session.cpp` has the same code).  The functions that a derived class overrides are parameters.
-/
namespace Verif.HttpServer
open Verif.HttpLib Verif.HttpRequest

/-- Calls of the functions which a derived class overrides.  `error` is a call of `do_on_http_request_error()` by
`do_on_tcp_stream()`, `reject` is one by `do_on_http_request_headers()`. -/
inductive Ev
  | headers (h : Headers) (eot : Bool)
  | stream (payload : Bytes)
  | finish (h : Headers) (payload : Bytes) (eot : Bool)
  | error (head : Bool) (status : Nat)
  | reject (head : Bool) (status : Nat)
  | upgraded (data : Bytes) (eof : Bool)
deriving DecidableEq, Repr

/-- `HTTP_Payload_Type`; `other` is any other number.  (socket/enums.hpp:30-35) -/
inductive Payload
  | normal
  | empty
  | connect
  | other
deriving DecidableEq, Repr

/-- The result of `do_on_http_request_headers()`: its calls of `do_on_http_request_error()`, whether a response with status 101
has been sent when it returns, and the type of the payload. -/
structure Reply where
  rejects : List (Bool × Nat) := []
  switched : Bool := false
  type : Payload := .normal
deriving DecidableEq, Repr

/-- A derived class.  Its behaviour may depend on all that has happened before.  Simplified: it does not change the headers, and
throws no exceptions.  `onStream` gives the payload that it leaves in the buffer.  `onFinish` tells whether a response with
status 101 has been sent, by any thread, when it returns. -/
structure App where
  onHeaders : List Ev → Headers → Bool → Reply
  onStream : List Ev → Bytes → Bytes
  onFinish : List Ev → Headers → Bytes → Bool → Bool

/-- The session.  `failed` tells that an exception has left `do_on_tcp_stream()`, or worse; then the socket is shut down.
Simplified: histories end there; see `Model/HttpAgain.lean` for what comes after it.  (http_server_session.hpp:13-21) -/
structure Sess (L : Lib) where
  p : Parser := {}
  st : L.σ := L.init
  ack : Bool := false
  failed : Option Fail := none
  trace : List Ev := []

/-- `m_req_parser.deallocate()`.  (http_request_parser.cpp:266-276) -/
def deallocate (p : Parser) : Parser :=
  { p with headers := { p.headers with raw_host := [], raw_userinfo := [], raw_path := [], raw_query := [], headers := [] }, payload := [] }

/-- A call of a function of the derived class. -/
def Sess.call {L : Lib} (s : Sess L) (e : Ev) : Sess L := { s with trace := s.trace ++ [e] }

/-- Either `return` with what is left in the buffer, or go on. -/
inductive Step (L : Lib)
  | ret (s : Sess L) (data : Bytes)
  | next (s : Sess L) (data : Bytes)

/-- After `do_on_http_request_headers()`.  (http_server_session.cpp:69-88) -/
def afterHeaders {L : Lib} (s : Sess L) (r : Reply) (rest : Bytes) (eof : Bool) : Step L :=
  let s := { s with trace := s.trace ++ r.rejects.map (fun e => .reject e.1 e.2), ack := s.ack || r.switched }
  match r.type with
  | .normal => .next s rest
  | .empty => .next s rest
  | .connect => .ret (({ s with ack := true, p := deallocate s.p } : Sess L).call (.upgraded rest eof)) []
  | .other => .ret { s with failed := some .exception } []

/-- Whether `method == http_HEAD`. -/
def isHead (h : Headers) : Bool := h.method == b! "HEAD"

/-- `headers.is_ssl = false` for requests that are not to proxies.  (http_server_session.cpp:58-61) -/
def plainHeaders (h : Headers) : Headers := if h.is_proxy then h else { h with is_ssl := false }

/-- After `parse_headers_from_stream()`.  (http_server_session.cpp:47-89) -/
def afterParse {L : Lib} (A : App) (s : Sess L) (p : Parser) (rest : Bytes) (eof : Bool) : Step L :=
  if p.errno ≠ .ok then .ret (({ s with p := p } : Sess L).call (.error (isHead p.headers) (http_status_from_error p.errno))) []
  else if ¬ 1 ≤ p.hreq then .ret { s with p := p } rest
  else
    let s : Sess L := { s with p := { p with headers := plainHeaders p.headers } }
    if s.p.headers.raw_host = [] then .ret (s.call (.error (isHead s.p.headers) 400)) []
    else afterHeaders (s.call (.headers s.p.headers p.close)) (A.onHeaders s.trace s.p.headers p.close) rest eof

/-- An exception leaves the function.  Simplified: the history ends here, and the parser is reset. -/
def Sess.fail {L : Lib} (s : Sess L) (e : Fail) : Sess L := { s with p := {}, st := L.init, failed := some e }

/-- Either an exception or the headers.  (http_server_session.cpp:45-89) -/
def onHead {L : Lib} (A : App) (s : Sess L) (eof : Bool) : Except Fail (Parser × L.σ × Bytes) → Step L
  | .error e => .ret (s.fail e) []
  | .ok r => afterParse A { s with st := r.2.1 } r.1 r.2.2 eof

/-- The headers.  (http_server_session.cpp:44-89) -/
def headersPhase {L : Lib} (A : App) (c : Cfg) (s : Sess L) (data : Bytes) (eof : Bool) : Step L :=
  if 1 ≤ s.p.hreq then .next s data else onHead A s eof (parse_headers c L s.p s.st data eof)

/-- After `parse_payload_from_stream()`.  (http_server_session.cpp:94-109) -/
def afterPayload {L : Lib} (A : App) (s : Sess L) (p : Parser) (rest : Bytes) : Step L :=
  if p.errno ≠ .ok then .ret (({ s with p := p } : Sess L).call (.error (isHead p.headers) (http_status_from_error p.errno))) []
  else
    let left := A.onStream s.trace p.payload
    let s : Sess L := ({ s with p := { p with payload := left } } : Sess L).call (.stream p.payload)
    if ¬ 2 ≤ p.hreq then .ret s rest
    else .next { s.call (.finish p.headers left p.close) with ack := s.ack || A.onFinish s.trace p.headers left p.close } rest

/-- Either an exception or the payload.  (http_server_session.cpp:92-109) -/
def onPayload {L : Lib} (A : App) (s : Sess L) : Except Fail (Parser × L.σ × Bytes) → Step L
  | .error e => .ret (s.fail e) []
  | .ok r => afterPayload A { s with st := r.2.1 } r.1 r.2.2

/-- The payload.  (http_server_session.cpp:91-110) -/
def payloadPhase {L : Lib} (A : App) (c : Cfg) (s : Sess L) (data : Bytes) (eof : Bool) : Step L :=
  if 2 ≤ s.p.hreq then .next s data else onPayload A s (parse_payload c L s.p s.st data eof)

/-- The loop.  `none` tells that it has not ended after so many iterations.  (http_server_session.cpp:29-114) -/
def loop {L : Lib} (A : App) (c : Cfg) (eof : Bool) : Nat → Sess L → Bytes → Option (Sess L × Bytes)
  | 0, _, _ => none
  | n + 1, s, data =>
    if s.ack then some (({ s with p := deallocate s.p } : Sess L).call (.upgraded data eof), [])
    else if s.p.errno ≠ .ok then some (s, [])
    else match headersPhase A c s data eof with
      | .ret s d => some (s, d)
      | .next s d => match payloadPhase A c s d eof with
        | .ret s d => some (s, d)
        | .next s d => loop A c eof n { s with p := next_message s.p } d

/-- `do_on_tcp_stream(data, eof)`; the result has what is left in the buffer.  Simplified: the upgraded stream takes all
data.  (http_server_session.cpp:20-115) -/
def do_on_tcp_stream {L : Lib} (A : App) (c : Cfg) (fuel : Nat) (s : Sess L) (data : Bytes) (eof : Bool) : Option (Sess L × Bytes) :=
  if s.ack then some (s.call (.upgraded data eof), [])
  else loop A c eof fuel s data

/-- What can happen to a session: data has been read from the socket and appended to the buffer, or a response with status 101
has been sent by another thread. -/
inductive Act
  | receive (data : Bytes) (eof : Bool)
  | switch
deriving DecidableEq, Repr

/-- If the session has failed, the history has ended.  `none` tells that a call does not return; the number of iterations is
limited by two more than there are bytes.  (tcp_socket.cpp:61-118, http_server_session.cpp:166-167) -/
def step {L : Lib} (A : App) (c : Cfg) (s : Sess L) (buf : Bytes) : Act → Option (Sess L × Bytes)
  | .receive data eof =>
    if s.failed.isSome then some (s, [])
    else do_on_tcp_stream A c ((buf ++ data).length + 2) s (buf ++ data) eof
  | .switch => some ({ s with ack := true }, buf)

/-- A history of a session. -/
def run {L : Lib} (A : App) (c : Cfg) (s : Sess L) (buf : Bytes) : List Act → Option (Sess L × Bytes)
  | [] => some (s, buf)
  | a :: as => match step A c s buf a with
    | none => none
    | some (s, buf) => run A c s buf as

/-- The default `do_on_http_request_headers()`, which rejects requests to proxies.  (http_server_session.cpp:117-134) -/
def default_on_headers (h : Headers) : Reply :=
  if h.is_proxy then { rejects := [(false, 403)], type := .normal } else { type := .normal }

/-- The default class: `do_on_http_request_payload_stream()` leaves the payload alone, and the rest does nothing.
(http_server_session.cpp:117-150) -/
def defaultApp : App where
  onHeaders := fun _ h _ => default_on_headers h
  onStream := fun _ b => b
  onFinish := fun _ _ _ _ => false

end Verif.HttpServer
