import Verif.Model.Uri
import Verif.Model.HttpRequest
import Verif.Model.WsHandshake
/-!
# Where easy clients connect to, and whom they accept there

Models `connect()` of easy clients for TCP, SSL, HTTP, HTTPS, WS and WSS (easy_tcp_client.cpp:214-254, easy_ssl_client.cpp:213-253, easy_http_client.cpp:203-242, easy_https_client.cpp:203-242,
easy_ws_client.cpp:227-264, easy_wss_client.cpp:227-264), up to the arguments that are given to `DNS_Connect_Task` (see DnsConnect) and to the constructor of the session; the constructor of HTTPS client
sessions, which tells OpenSSL the name of the host (https_client_session.cpp:9-25); the constructor of WS client sessions, which sends the request (ws_client_session.cpp:10-20); and how the
client's SSL context is configured (network_scheduler.cpp:175-204).  OpenSSL is a contract: `handshake` says which certificates it accepts.  Allocations and the table of sessions are left out.
-/
namespace Verif.EasyConnect
open Verif.Uri

/-- The classes of clients: `Easy_TCP_Client`, `Easy_SSL_Client`, … -/
inductive Kind where
  | tcp | ssl | http | https | ws | wss
deriving DecidableEq, Repr

/-- The parts of a reference whose pointers are not null.  (utils.hpp:160-169) -/
structure Present where
  path : Bool := false
  query : Bool := false
  fragment : Bool := false
deriving DecidableEq, Repr

/-- Which pointers `parse_network_reference()` sets in a reference where all are null: that of the path, the query and the fragment, when it meets a `/`, a `?` and a `#`.  (utils.cpp:367-431; the
model in Uri keeps only the bytes that the views cover, which are none for the query of `h?`.) -/
def present (s : Bytes) : Present :=
  match parse_host {} s with
  | none => {}
  | some (r1, s1) =>
    match parse_port r1 s1 with
    | none => {}
    | some (r2, s2) =>
      let s3 := (parse_path r2 s2).2
      let s4 := (parse_query (parse_path r2 s2).1 s3).2
      { path := s2.head? == some (chr '/'), query := s3.head? == some (chr '?'), fragment := s4.head? == some (chr '#') }

/-- The exceptions that `connect()` throws -/
inductive Refusal where
  | invalid | noPort | hasPath | hasQuery | hasFragment
deriving DecidableEq, Repr

/-- What `connect()` has got from an address: the arguments of `DNS_Connect_Task`, and the default host, the path and the query for the constructor of the session. -/
structure Plan where
  host : Bytes
  port : Nat
  default_host : Bytes := []
  path : Bytes := []
  query : Bytes := []
deriving DecidableEq, Repr

/-- The port number that is used if an address has none; `none` if it must have one.  (easy_tcp_client.cpp:225-226, easy_http_client.cpp:215-216, easy_https_client.cpp:215-216, …) -/
def implied_port : Kind → Option Nat
  | .tcp => none
  | .ssl => none
  | .http => some 80
  | .https => some 443
  | .ws => some 80
  | .wss => some 443

/-- `sformat("$1:$2", caddr.host, caddr.port_num)` (easy_http_client.cpp:229, easy_ws_client.cpp:243) -/
def host_text (host : Bytes) (port : Nat) : Bytes := host ++ b! ":" ++ Http.decimal port

/-- `connect(addr, callback)`.  (easy_tcp_client.cpp:217-254, easy_http_client.cpp:206-242, easy_ws_client.cpp:230-264, and their counterparts with SSL) -/
def connect (k : Kind) (addr : Bytes) : Except Refusal Plan :=
  let c := parse_network_reference {} addr
  let has := present addr
  if c.2 ≠ addr.length then .error .invalid
  else match (if c.1.port.length = 0 then implied_port k else some c.1.port_num) with
    | none => .error .noPort
    | some port =>
      match k with
      | .tcp | .ssl =>
        if has.path then .error .hasPath
        else if has.query then .error .hasQuery
        else if has.fragment then .error .hasFragment
        else .ok { host := c.1.host, port := port }
      | .http | .https =>
        if has.path then .error .hasPath
        else if has.query then .error .hasQuery
        else .ok { host := c.1.host, port := port, default_host := host_text c.1.host port }
      | .ws | .wss => .ok { host := c.1.host, port := port, default_host := host_text c.1.host port, path := c.1.path, query := c.1.query }

/-- The name that an HTTPS client session gives to `SSL_set1_host()` and `SSL_set_tlsext_host_name()`, if any.  The buffer has 256 bytes, so nothing is cut off; a host has no null character.
(https_client_session.cpp:14-21) -/
def session_name (default_host : Bytes) : Option Bytes :=
  let c := parse_network_reference {} default_host
  if c.2 ≠ 0 ∧ 1 ≤ c.1.host.length ∧ c.1.host.length ≤ 253 then some c.1.host else none

/-- The name that a client expects in the certificate of the server.  WSS client sessions are HTTPS client sessions; `SSL_Socket` itself does not set a name, and `m_ssl` is private to it and to the
HTTPS sessions.  (easy_wss_client.cpp:126, easy_ssl_client.cpp:128-133, ssl_socket.cpp:34-51) -/
def expected_name (k : Kind) (plan : Plan) : Option Bytes :=
  match k with
  | .https | .wss => session_name plan.default_host
  | _ => none

/-- `SSL_CTX_set_verify(client_ssl_ctx, SSL_VERIFY_PEER, nullptr)` is called only if `network.ssl.trusted_ca_path` is set; otherwise the mode is `SSL_VERIFY_NONE`.  (network_scheduler.cpp:186-204) -/
def verify_peer (trusted_ca_path : Bytes) : Bool := trusted_ca_path != []

/-- A certificate chain, as OpenSSL sees it: whether it leads to one of the trusted authorities, and which hosts it is issued for. -/
structure Cert where
  trusted : Bool
  issued : Bytes → Bool

/-- Contract for OpenSSL: a client completes the handshake with everyone if it does not verify; otherwise, only with those whose chain is trusted and, if a name has been set by `SSL_set1_host()`, is
issued for this name. -/
def handshake (verify : Bool) (name : Option Bytes) (cert : Cert) : Bool :=
  !verify || (cert.trusted && (match name with | none => true | some n => cert.issued n))

/-- The client completes the handshake: `connect(addr)` with the given setting, and a server with this certificate. -/
def accepts (k : Kind) (trusted_ca_path : Bytes) (plan : Plan) (cert : Cert) : Bool := handshake (verify_peer trusted_ca_path) (expected_name k plan) cert

/-- The request that the constructor of a WS client session sends: that of `create_handshake_request()`, with the path and the query of the address, and the default host; `remote` is the text of the
remote address, which is not known yet.  (ws_client_session.cpp:10-20, http_client_session.cpp:154-165) -/
def ws_request (plan : Plan) (remote key : Bytes) : Bytes :=
  HttpRequest.encode (HttpRequest.set_request_host { method := b! "GET", raw_path := plan.path, raw_query := plan.query, headers := (Ws.handshake_request key).map (fun x => (x.1, some x.2)) } remote plan.default_host)

end Verif.EasyConnect
