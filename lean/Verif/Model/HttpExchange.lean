import Verif.Model.HttpRequest
import Verif.Model.WsHandshake
/-!
# The sending parts of HTTP sessions

Models `http_chunked_request_send()` and `http_chunked_request_finish()` of `poseidon/src/socket/http_client_session.cpp`, and what the functions of
`poseidon/src/socket/http_server_session.cpp:161-280` do with the connection.
-/
namespace Verif.HttpExchange
open Verif.HttpRequest (Headers)
open Verif.Http (SHeaders)

/-! ### Clients -/

/-- Calls of a client session by the user. -/
inductive Call
  | request (h : Headers) (data : Bytes)
  | chunked_start (h : Headers)
  | chunked_send (data : Bytes)
  | chunked_finish
deriving DecidableEq, Repr

/-- Bytes written by `http_chunked_request_send(data)`.  (http_client_session.cpp:213-237) -/
def http_chunked_request_send (data : Bytes) : Bytes :=
  if data.length = 0 then []
  else Http.hex_length data.length ++ b! "\r\n" ++ data ++ b! "\r\n"

/-- Bytes written by `http_chunked_request_finish()`.  (http_client_session.cpp:239-249) -/
def http_chunked_request_finish : Bytes := b! "0\r\n\r\n"

/-- What a call passes to `tcp_send()`, on a connection that has not been upgraded; `remote` is the text of the remote address.
(http_client_session.cpp:154-249) -/
def callText (remote default_host : Bytes) : Call → Bytes
  | .request h data => HttpRequest.http_request h remote default_host data
  | .chunked_start h => HttpRequest.http_chunked_request_start h remote default_host
  | .chunked_send data => http_chunked_request_send data
  | .chunked_finish => http_chunked_request_finish

/-! ### Servers -/

/-- Calls of a server session by the user. -/
inductive Answer
  | response (method_was_head : Bool) (r : SHeaders) (data : Bytes)
  | chunked_start (r : SHeaders)
  | chunked_send (data : Bytes)
  | chunked_finish
deriving DecidableEq, Repr

/-- The connection: the bytes which `tcp_send()` has taken, and whether it has been shut down.  Simplified: there are no errors. -/
structure Out where
  sent : Bytes := []
  shut : Bool := false
deriving DecidableEq, Repr

/-- `tcp_send(data)`: nothing is taken after `tcp_shut_down()`.  (tcp_socket.cpp:181-233; see `Verif.Socket` for the whole function) -/
def Out.tcp_send (o : Out) (data : Bytes) : Out := if o.shut then o else { o with sent := o.sent ++ data }

/-- Whether one of the `Connection` headers of a response contains `close`.  `V` reads values.  (http_server_session.cpp:175-183) -/
def closes (V : Http.Lib) (hs : List (Bytes × Bytes)) : Bool :=
  hs.any fun h => Http.name_eq h.1 (b! "Connection") && Ws.has_close (h.2.length + 2) (Http.HeaderParser.reload V h.2)

/-- A call of a server session, on a connection that has not been upgraded.  (http_server_session.cpp:161-280) -/
def answer (V : Http.Lib) (status_str : Nat → Bytes) (o : Out) : Answer → Out
  | .response head r data =>
    let o := o.tcp_send (Http.http_response status_str head r data)
    if closes V r.headers then { o with shut := true } else o
  | .chunked_start r =>
    let o := o.tcp_send (Http.chunked_start status_str r)
    if closes V r.headers then { o with shut := true } else o
  | .chunked_send data => o.tcp_send (Http.chunked_send data)
  | .chunked_finish => o.tcp_send Http.chunked_finish

end Verif.HttpExchange
