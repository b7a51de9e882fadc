import Verif.Model.HttpServer
import Verif.Model.HttpClient
/-!
# HTTP sessions after exceptions

An exception that leaves `do_on_tcp_stream()` is caught by the socket, which is shut down then; but data that had been received before that are still passed to the session.  The models in
`Model/HttpServer.lean` and `Model/HttpClient.lean` end at the exception; here is what comes after it.  `http_parser_execute()` stores its state before it calls a function, so it goes on behind the
piece for which an exception has been thrown; and the rest of the data of that read is gone (tcp_socket.cpp:47-83).
-/
namespace Verif.HttpServer
open Verif.HttpLib Verif.HttpRequest

/-- The parser when an exception leaves one of these callbacks.  (http_request_parser.cpp:13-202) -/
def datasThrew (c : Cfg) (p : Parser) : List Data → Parser
  | [] => p
  | d :: ds => match onData c p d with
    | .error _ => p
    | .ok p' => datasThrew c p' ds

/-- The parser and the library when an exception leaves `http_parser_execute()`. -/
def execThrew (c : Cfg) (L : Lib) (p : Parser) (st : L.σ) : Bytes → Parser × L.σ
  | [] => (p, st)
  | b :: t =>
    match onDatas c p (L.micro st b).2.1 with
    | .error _ => (datasThrew c p (L.micro st b).2.1, (L.micro st b).1)
    | .ok p' => execThrew c L p' (L.micro st b).1 t

/-- The session when an exception has left the loop.  (http_server_session.cpp:29-114) -/
def loopThrew {L : Lib} (A : App) (c : Cfg) (eof : Bool) : Nat → Sess L → Bytes → Sess L
  | 0, s, _ => s
  | n + 1, s, data =>
    match headersPhase A c s data eof with
    | .ret s' _ => { s' with p := (execThrew c L s.p s.st data).1, st := (execThrew c L s.p s.st data).2, failed := none }
    | .next s1 d => match payloadPhase A c s1 d eof with
      | .ret s' _ => { s' with p := (execThrew c L s1.p s1.st d).1, st := (execThrew c L s1.p s1.st d).2, failed := none }
      | .next s2 d => loopThrew A c eof n { s2 with p := next_message s2.p } d

/-- A read.  The flag tells that an exception has left the function for the limit of headers or payloads; other exceptions are not modelled.  (tcp_socket.cpp:47-83, http_server_session.cpp:20-115) -/
def readOn {L : Lib} (A : App) (c : Cfg) (s : Sess L) (data : Bytes) (eof : Bool) : Option (Sess L × Bool) :=
  match do_on_tcp_stream A c (data.length + 2) s data eof with
  | none => none
  | some (s', _) => if s'.failed.isSome then some (loopThrew A c eof (data.length + 2) s data, true) else some (s', false)

/-- Reads, with those that come after exceptions. -/
def readAll {L : Lib} (A : App) (c : Cfg) (s : Sess L) : List (Bytes × Bool) → Option (Sess L × List Bool)
  | [] => some (s, [])
  | x :: xs => match readOn A c s x.1 x.2 with
    | none => none
    | some (s, e) => match readAll A c s xs with
      | none => none
      | some (s, es) => some (s, e :: es)

end Verif.HttpServer

namespace Verif.HttpClient
open Verif.HttpLib Verif.HttpResponse
open Verif.HttpRequest (Cfg Fail)

/-- The parser when an exception leaves one of these callbacks.  (http_response_parser.cpp:13-131) -/
def datasThrew (c : Cfg) (p : Parser) : List Data → Parser
  | [] => p
  | d :: ds => match onData c p d with
    | .error _ => p
    | .ok p' => datasThrew c p' ds

/-- The parser and the library when an exception leaves `http_parser_execute()`. -/
def execThrew (c : Cfg) (L : Lib) (p : Parser) (st : L.σ) : Bytes → Parser × L.σ
  | [] => (p, st)
  | b :: t =>
    match onDatas c p (L.micro st b).2.1 with
    | .error _ => (datasThrew c p (L.micro st b).2.1, (L.micro st b).1)
    | .ok p' => execThrew c L p' (L.micro st b).1 t

/-- The session when an exception has left the loop.  (http_client_session.cpp:30-113) -/
def loopThrew {L : Lib} (A : App) (c : Cfg) (eof : Bool) : Nat → Sess L → Bytes → Sess L
  | 0, s, _ => s
  | n + 1, s, data =>
    match headersPhase A c s data eof with
    | .ret s' _ => { s' with p := (execThrew c L s.p s.st data).1, st := (execThrew c L s.p s.st data).2, failed := none }
    | .next s1 d => match payloadPhase A c s1 d eof with
      | .ret s' _ => { s' with p := (execThrew c L s1.p s1.st d).1, st := (execThrew c L s1.p s1.st d).2, failed := none }
      | .next s2 d => loopThrew A c eof n { s2 with p := next_message s2.p } d

/-- A read.  The flag tells that an exception has left the function for the limit of headers or payloads; other exceptions are not modelled.  (tcp_socket.cpp:47-83, http_client_session.cpp:21-114) -/
def readOn {L : Lib} (A : App) (c : Cfg) (s : Sess L) (data : Bytes) (eof : Bool) : Option (Sess L × Bool) :=
  match do_on_tcp_stream A c (data.length + 2) s data eof with
  | none => none
  | some (s', _) => if s'.failed.isSome then some (loopThrew A c eof (data.length + 2) s data, true) else some (s', false)

/-- Reads, with those that come after exceptions. -/
def readAll {L : Lib} (A : App) (c : Cfg) (s : Sess L) : List (Bytes × Bool) → Option (Sess L × List Bool)
  | [] => some (s, [])
  | x :: xs => match readOn A c s x.1 x.2 with
    | none => none
    | some (s, e) => match readAll A c s xs with
      | none => none
      | some (s, es) => some (s, e :: es)

end Verif.HttpClient
