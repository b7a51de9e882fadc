import Verif.Model.HttpExchange
/-!
# The default page of an HTTP server session

Models `http_shut_down()` of `poseidon/src/socket/http_server_session.cpp`.  (`https_server_session.cpp` is the same.)
-/
namespace Verif.HttpExchange
open Verif.Http (SHeaders)

/-- `format(fmt, default_page, status, resp.reason)`: the template has `$1 $2` twice.  (http_server_session.cpp:299-306) -/
def default_page (status : Nat) (reason : Bytes) : Bytes :=
  b! "<html>" ++ (b! "<head><title>" ++ Http.decimal status ++ b! " " ++ reason ++ b! "</title></head>") ++ (b! "<body><h1>" ++ Http.decimal status ++ b! " " ++ reason ++ b! "</h1></body>") ++ b! "</html>"

/-- The headers of the page; `status_str` is `::http_status_str` of http-parser.  (http_server_session.cpp:292-297) -/
def page_headers (status_str : Nat → Bytes) (status : Nat) : SHeaders :=
  { status := status, reason := status_str status, headers := [(b! "Content-Type", b! "text/html"), (b! "Connection", b! "close")] }

/-- `http_shut_down(HTTP_Status)`; `upgraded` is `m_upgrade_ack`.  Simplified: memory does not run out, so nothing is thrown and caught; and what `quick_shut_down()` does to data that are still in
the queue is not part of `Out`.  (http_server_session.cpp:282-318) -/
def http_shut_down (V : Http.Lib) (status_str : Nat → Bytes) (upgraded : Bool) (o : Out) (status : Nat) : Out :=
  if upgraded then { o with shut := true }
  else
    let resp := page_headers status_str status
    let o := o.tcp_send (Http.raw_response status_str resp (default_page status resp.reason))
    let o := if closes V resp.headers then { o with shut := true } else o
    { o with shut := true }

/-- `http_shut_down(int)`.  (http_server_session.cpp:320-329) -/
def http_shut_down_int (V : Http.Lib) (status_str : Nat → Bytes) (upgraded : Bool) (o : Out) (status : Int) : Out :=
  let real_status := if status ≥ 200 ∧ status ≤ 599 then status.toNat else 400
  http_shut_down V status_str upgraded o real_status

end Verif.HttpExchange
