import Verif.Model.HttpResponse
/-!
# `HTTP_Client_Session`

Models `do_on_tcp_stream()` and the default functions of `poseidon/src/socket/http_client_session.cpp` (`https_client_session.cpp` has the
same code).  The functions that a derived class overrides are parameters.
-/
namespace Verif.HttpClient
open Verif.HttpLib Verif.HttpResponse
open Verif.HttpRequest (Cfg Fail)

/-- Calls of the functions which a derived class overrides.  `shut` is a call of `tcp_shut_down()`, `abort` is one of `quick_shut_down()`. -/
inductive Ev
  | headers (h : Headers)
  | stream (payload : Bytes)
  | finish (h : Headers) (payload : Bytes)
  | shut
  | abort
  | upgraded (data : Bytes) (eof : Bool)
deriving DecidableEq, Repr

/-- `HTTP_Payload_Type`; `other` is any other number.  (socket/enums.hpp:30-35) -/
inductive Payload
  | normal
  | empty
  | connect
  | other
deriving DecidableEq, Repr

/-- A derived class.  Its behaviour may depend on all that has happened before.  Simplified: it does not change the headers, and throws no exceptions.
`onStream` gives the payload that it leaves in the buffer. -/
structure App where
  onHeaders : List Ev → Headers → Payload
  onStream : List Ev → Bytes → Bytes

/-- The session.  `failed` tells that an exception has left `do_on_tcp_stream()`, or worse; then the socket is shut down.  Simplified: histories end there; see
`Model/HttpAgain.lean` for what comes after it.  (http_client_session.hpp:13-21) -/
structure Sess (L : Lib) where
  p : Parser := {}
  st : L.σ := L.init
  ack : Bool := false
  failed : Option Fail := none
  trace : List Ev := []

/-- A call. -/
def Sess.call {L : Lib} (s : Sess L) (e : Ev) : Sess L := { s with trace := s.trace ++ [e] }

/-- Either `return` with what is left in the buffer, or go on. -/
inductive Step (L : Lib)
  | ret (s : Sess L) (data : Bytes)
  | next (s : Sess L) (data : Bytes)

/-- After `do_on_http_response_headers()`.  (http_client_session.cpp:58-78) -/
def afterHeaders {L : Lib} (s : Sess L) (r : Payload) (rest : Bytes) (eof : Bool) : Step L :=
  match r with
  | .normal => .next s rest
  | .empty => .next { s with st := L.skip s.st } rest
  | .connect => .ret (({ s with ack := true, p := deallocate s.p } : Sess L).call (.upgraded rest eof)) []
  | .other => .ret { s with failed := some .exception } []

/-- After `parse_headers_from_stream()`.  (http_client_session.cpp:47-79) -/
def afterParse {L : Lib} (A : App) (s : Sess L) (p : Parser) (rest : Bytes) (eof : Bool) : Step L :=
  if p.errno ≠ .ok then .ret (({ s with p := p } : Sess L).call .abort) []
  else if ¬ 1 ≤ p.hresp then .ret { s with p := p } rest
  else afterHeaders (({ s with p := p } : Sess L).call (.headers p.headers)) (A.onHeaders s.trace p.headers) rest eof

/-- An exception leaves the function.  Simplified: the history ends here, and the parser is reset. -/
def Sess.fail {L : Lib} (s : Sess L) (e : Fail) : Sess L := { s with p := {}, st := L.init, failed := some e }

/-- Either an exception or the headers.  (http_client_session.cpp:45-79) -/
def onHead {L : Lib} (A : App) (s : Sess L) (eof : Bool) : Except Fail (Parser × L.σ × Bytes) → Step L
  | .error e => .ret (s.fail e) []
  | .ok r => afterParse A { s with st := r.2.1 } r.1 r.2.2 eof

/-- The headers.  (http_client_session.cpp:44-79) -/
def headersPhase {L : Lib} (A : App) (c : Cfg) (s : Sess L) (data : Bytes) (eof : Bool) : Step L :=
  if 1 ≤ s.p.hresp then .next s data else onHead A s eof (parse_headers c L s.p s.st data eof)

/-- `tcp_shut_down()`, if it is necessary.  (http_client_session.cpp:101-102) -/
def closing (close : Bool) : List Ev := if close then [.shut] else []

/-- After `parse_payload_from_stream()`.  (http_client_session.cpp:84-108) -/
def afterPayload {L : Lib} (A : App) (s : Sess L) (p : Parser) (rest : Bytes) : Step L :=
  if p.errno ≠ .ok then .ret (({ s with p := p } : Sess L).call .abort) []
  else
    let left := A.onStream s.trace p.payload
    let s : Sess L := ({ s with p := { p with payload := left } } : Sess L).call (.stream p.payload)
    if ¬ 2 ≤ p.hresp then .ret s rest
    else .next { s with trace := s.trace ++ .finish p.headers left :: closing p.close, ack := s.ack || p.headers.status == 101 } rest

/-- Either an exception or the payload.  (http_client_session.cpp:82-108) -/
def onPayload {L : Lib} (A : App) (s : Sess L) : Except Fail (Parser × L.σ × Bytes) → Step L
  | .error e => .ret (s.fail e) []
  | .ok r => afterPayload A { s with st := r.2.1 } r.1 r.2.2

/-- The payload.  (http_client_session.cpp:81-109) -/
def payloadPhase {L : Lib} (A : App) (c : Cfg) (s : Sess L) (data : Bytes) (eof : Bool) : Step L :=
  if 2 ≤ s.p.hresp then .next s data else onPayload A s (parse_payload c L s.p s.st data eof)

/-- The loop.  `none` tells that it has not ended after so many iterations.  (http_client_session.cpp:30-113) -/
def loop {L : Lib} (A : App) (c : Cfg) (eof : Bool) : Nat → Sess L → Bytes → Option (Sess L × Bytes)
  | 0, _, _ => none
  | n + 1, s, data =>
    if s.ack then some (({ s with p := deallocate s.p } : Sess L).call (.upgraded data eof), [])
    else if s.p.errno ≠ .ok then some (s, [])
    else match headersPhase A c s data eof with
      | .ret s d => some (s, d)
      | .next s d => match payloadPhase A c s d eof with
        | .ret s d => some (s, d)
        | .next s d => loop A c eof n { s with p := next_message s.p } d

/-- `do_on_tcp_stream(data, eof)`; the result has what is left in the buffer.  Simplified: the upgraded stream takes all data.
(http_client_session.cpp:21-114) -/
def do_on_tcp_stream {L : Lib} (A : App) (c : Cfg) (fuel : Nat) (s : Sess L) (data : Bytes) (eof : Bool) : Option (Sess L × Bytes) :=
  if s.ack then some (s.call (.upgraded data eof), [])
  else loop A c eof fuel s data

/-- Data has been read from the socket and appended to the buffer, or the end of the stream has been reached. -/
structure Act where
  data : Bytes
  eof : Bool
deriving DecidableEq, Repr

/-- If the session has failed, the history has ended.  `none` tells that a call does not return; the number of iterations is limited by two
more than there are bytes.  (tcp_socket.cpp:61-118) -/
def step {L : Lib} (A : App) (c : Cfg) (s : Sess L) (buf : Bytes) (a : Act) : Option (Sess L × Bytes) :=
  if s.failed.isSome then some (s, [])
  else do_on_tcp_stream A c ((buf ++ a.data).length + 2) s (buf ++ a.data) a.eof

/-- A history of a session. -/
def run {L : Lib} (A : App) (c : Cfg) (s : Sess L) (buf : Bytes) : List Act → Option (Sess L × Bytes)
  | [] => some (s, buf)
  | a :: as => match step A c s buf a with
    | none => none
    | some (s, buf) => run A c s buf as

/-- The default class: it takes all responses and leaves payloads alone.  Simplified: the default `do_on_http_response_payload_stream()` throws if
the payload is larger than the limit, which `on_body` has excluded, and the default `do_on_http_upgraded_stream()` throws.  (http_client_session.cpp:116-152) -/
def defaultApp : App where
  onHeaders := fun _ _ => .normal
  onStream := fun _ b => b

end Verif.HttpClient
