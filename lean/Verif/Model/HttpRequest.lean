import Verif.Model.Http
import Verif.Model.HttpLib
/-!
# `HTTP_Request_Parser` and `HTTP_C_Headers`

Models `poseidon/src/http/http_request_parser.cpp`, `poseidon/http/http_request_parser.hpp` and `estimate_size()`,
`set_request_host()`, `encode()` of `poseidon/src/http/http_c_headers.cpp`.
-/
namespace Verif.HttpRequest
open Verif.HttpLib

/-- `HTTP_C_Headers`.  A header value that is `none` is null.  (http_c_headers.hpp:13-33) -/
structure Headers where
  method : Bytes := []
  is_proxy : Bool := false
  is_ssl : Bool := false
  port : Nat := 0
  raw_host : Bytes := []
  raw_userinfo : Bytes := []
  raw_path : Bytes := []
  raw_query : Bytes := []
  headers : List (Bytes × Option Bytes) := []
deriving DecidableEq, Repr

/-- `as_string()`; that of a null value is empty.  (http_value.hpp:235-238) -/
def as_string (v : Option Bytes) : Bytes := v.getD []

/-- `HTTP_C_Headers::estimate_size()`.  (http_c_headers.cpp:15-25) -/
def estimate_size (h : Headers) : Nat :=
  h.raw_host.length + h.raw_userinfo.length + h.raw_path.length + h.raw_query.length
    + (h.headers.map (fun hr => 4 + hr.1.length + (as_string hr.2).length)).sum

/-- The limits.  (http_request_parser.cpp:214-217) -/
structure Cfg where
  max_header_length : Nat
  max_content_length : Nat

/-- `HTTP_Request_Parser` without the state of the library, but with `http_errno`.  `hreq` is 0 for `hreq_new`, 1 for
`hreq_headers_done` and 2 for `hreq_payload_done`.  (http_request_parser.hpp:15-32) -/
structure Parser where
  headers : Headers := {}
  payload : Bytes := []
  hreq : Nat := 0
  close : Bool := false
  errno : Errno := .ok
deriving DecidableEq, Repr

/-- How a callback can fail: with an exception, or by accessing the last element of an empty vector. -/
inductive Fail
  | exception
  | undefined
deriving DecidableEq, Repr

deriving instance DecidableEq for Except

/-- A change of the last element of a vector, `mut_back()`. -/
def onLast {α : Type} (f : α → α) : List α → List α
  | [] => []
  | [x] => [f x]
  | x :: y :: t => x :: onLast f (y :: t)

/-- `on_url`.  (http_request_parser.cpp:19-30) -/
def on_url (c : Cfg) (p : Parser) (s : Bytes) : Except Fail Parser :=
  if estimate_size p.headers + s.length > c.max_header_length then .error .exception
  else .ok { p with headers := { p.headers with raw_host := p.headers.raw_host ++ s } }

/-- Whether a field name starts a new header.  (http_request_parser.cpp:40) -/
def startsNew (hs : List (Bytes × Option Bytes)) : Bool :=
  match hs.getLast? with
  | none => true
  | some hr => hr.2.isSome

/-- `on_header_field`.  (http_request_parser.cpp:35-52) -/
def on_header_field (c : Cfg) (p : Parser) (s : Bytes) : Except Fail Parser :=
  let h := if startsNew p.headers.headers then { p.headers with headers := p.headers.headers ++ [([], none)] } else p.headers
  if estimate_size h + s.length > c.max_header_length then .error .exception
  else .ok { p with headers := { h with headers := onLast (fun hr => (hr.1 ++ s, hr.2)) h.headers } }

/-- `on_header_value`.  (http_request_parser.cpp:54-67) -/
def on_header_value (c : Cfg) (p : Parser) (s : Bytes) : Except Fail Parser :=
  if estimate_size p.headers + s.length > c.max_header_length then .error .exception
  else if p.headers.headers = [] then .error .undefined
  else .ok { p with headers := { p.headers with headers := onLast (fun hr => (hr.1, some (as_string hr.2 ++ s))) p.headers.headers } }

/-- `::asteria::ascii_ci_equal(uri.c_str(), n, pre, n)` for a prefix `pre` of `n` characters.  (http_request_parser.cpp:83-89) -/
def hasPrefixCI (pre uri : Bytes) : Bool := decide (pre.length ≤ uri.length) && Http.name_eq (uri.take pre.length) pre

/-- `uri.find(pat) != npos`.  (http_request_parser.cpp:95) -/
def contains (pat : Bytes) : Bytes → Bool
  | [] => pat.isEmpty
  | c :: s => pat.isPrefixOf (c :: s) || contains pat s

/-- The userinfo of an absolute URI and the rest of it: `find_of("@/")`.  (http_request_parser.cpp:103-107) -/
def splitUserinfo (uri : Bytes) : Bytes × Bytes :=
  match uri.dropWhile (fun c => c != chr '@' && c != chr '/') with
  | c :: t => if c = chr '@' then (uri.takeWhile (fun c => c != chr '@' && c != chr '/'), t) else ([], uri)
  | [] => ([], uri)

/-- The only `Host:` header.  (http_request_parser.cpp:130-144) -/
def onlyHost (hs : List (Bytes × Option Bytes)) : Option Bytes :=
  match hs.filter (fun hr => Http.name_eq hr.1 (b! "Host")) with
  | [hr] => some (as_string hr.2)
  | _ => none

/-- `port`, `raw_path` and `raw_query` from a parsed reference.  (http_request_parser.cpp:147-156) -/
def fromRef (h : Headers) (r : Uri.NetworkReference) : Headers :=
  { h with
    port := match r.port with | [] => h.port | _ :: _ => r.port_num
    raw_path := match r.path with | [] => b! "/" | _ :: _ => r.path
    raw_query := match r.query with | [] => h.raw_query | _ :: _ => r.query }

/-- An absolute URI without its scheme.  (http_request_parser.cpp:101-116) -/
def parse_absolute (h : Headers) (uri : Bytes) : Except Errno Headers :=
  let u := splitUserinfo uri
  let r := Uri.parse_network_reference {} u.2
  if r.2 ≠ u.2.length then .error .invalidHost
  else .ok (fromRef { h with raw_userinfo := u.1, raw_host := r.1.host } r.1)

/-- A path.  (http_request_parser.cpp:117-145) -/
def parse_origin (h : Headers) (uri : Bytes) : Except Errno Headers :=
  if uri.head? ≠ some (chr '/') then .error .invalidPath
  else
    let r := Uri.parse_network_reference {} (chr 'a' :: uri)
    if r.2 ≠ uri.length + 1 then .error .invalidHost
    else match onlyHost h.headers with
      | none => .error .invalidUrl
      | some host => .ok (fromRef { h with raw_host := host } r.1)

/-- The request URI, which has been accumulated in `raw_host`.  The fields that are left behind when an error is found are
not modelled; nobody reads them but `method`.  (http_request_parser.cpp:79-156) -/
def parse_target (h : Headers) (uri : Bytes) : Except Errno Headers :=
  if hasPrefixCI (b! "http://") uri then parse_absolute { h with port := 80, is_proxy := true, is_ssl := false } (uri.drop 7)
  else if hasPrefixCI (b! "https://") uri then parse_absolute { h with port := 443, is_proxy := true, is_ssl := true } (uri.drop 8)
  else if contains (b! "://") uri then .error .invalidUrl
  else if h.is_proxy then parse_absolute h uri
  else parse_origin h uri

/-- `on_headers_complete`.  `memccpy` fails if there is no null terminator among the first eight characters.
(http_request_parser.cpp:69-163) -/
def on_headers_complete (p : Parser) (method : Bytes) (keep : Bool) : Parser :=
  if 8 ≤ method.length then { p with headers := { p.headers with method := method.take 8 }, errno := .invalidMethod }
  else
    match parse_target { p.headers with method := method, raw_host := [] } p.headers.raw_host with
    | .error e => { p with headers := { p.headers with method := method, raw_host := [] }, errno := e }
    | .ok h => { p with headers := h, hreq := 1, close := !keep, errno := .paused }

/-- Methods whose payloads are accepted.  (http_request_parser.cpp:168-172) -/
def accepts (method : Bytes) : Bool := method == b! "POST" || method == b! "PUT" || method == b! "PATCH"

/-- `on_body`.  `ps->method` is the method that `on_headers_complete` has stored.  (http_request_parser.cpp:165-186) -/
def on_body (c : Cfg) (p : Parser) (s : Bytes) : Except Fail Parser :=
  if accepts p.headers.method then
    if p.payload.length + s.length > c.max_content_length then .error .exception
    else .ok { p with payload := p.payload ++ s }
  else .ok p

/-- `on_message_complete`.  (http_request_parser.cpp:188-195) -/
def on_message_complete (p : Parser) : Parser := { p with hreq := 2, errno := .paused }

/-- The table of callbacks; there is none for the status of a response.  (http_request_parser.cpp:13-202) -/
def onData (c : Cfg) (p : Parser) : Data → Except Fail Parser
  | .url s => on_url c p s
  | .status _ _ => .ok p
  | .field s => on_header_field c p s
  | .value s => on_header_value c p s
  | .body s => on_body c p s

/-- Several callbacks, one after another. -/
def onDatas (c : Cfg) (p : Parser) : List Data → Except Fail Parser
  | [] => .ok p
  | d :: ds => match onData c p d with
    | .error e => .error e
    | .ok p' => onDatas c p' ds

/-- `http_parser_execute(parser, settings, data.data(), data.size())` and `data.discard()`: the parser, the library and what
is left of the data.  Every callback pauses the parser or sets an error number, or the library goes on. -/
def exec (c : Cfg) (L : Lib) (p : Parser) (st : L.σ) : Bytes → Except Fail (Parser × L.σ × Bytes)
  | [] => .ok (p, st, [])
  | b :: t =>
    match onDatas c p (L.micro st b).2.1 with
    | .error e => .error e
    | .ok p' =>
      match (L.micro st b).2.2 with
      | .go => exec c L p' (L.micro st b).1 t
      | .headers m _ k => .ok (on_headers_complete p' m k, (L.micro st b).1, b :: t)
      | .done => .ok (on_message_complete p', (L.micro st b).1, t)
      | .bad e => .ok ({ p' with errno := e }, (L.micro st b).1, b :: t)

/-- `http_parser_execute(parser, settings, "", 0)`: nothing if an error number is set.  (http_request_parser.cpp:290-291) -/
def execEof (L : Lib) (p : Parser) (st : L.σ) : Parser × L.σ :=
  if p.errno ≠ .ok then (p, st)
  else match (L.eof st).2 with
    | .go => (p, (L.eof st).1)
    | .headers m _ k => (on_headers_complete p m k, (L.eof st).1)
    | .done => (on_message_complete p, (L.eof st).1)
    | .bad e => ({ p with errno := e }, (L.eof st).1)

/-- The part which `parse_headers_from_stream()` and `parse_payload_from_stream()` share.
(http_request_parser.cpp:285-295, 310-320) -/
def parse (c : Cfg) (L : Lib) (p : Parser) (st : L.σ) (data : Bytes) (eof : Bool) : Except Fail (Parser × L.σ × Bytes) :=
  match exec c L p st data with
  | .error e => .error e
  | .ok (p1, st1, rest) =>
    let r := if eof then execEof L p1 st1 else (p1, st1)
    .ok (if r.1.errno = .paused then { r.1 with errno := .ok } else r.1, r.2, rest)

/-- `parse_headers_from_stream(data, eof)`.  (http_request_parser.cpp:278-296) -/
def parse_headers (c : Cfg) (L : Lib) (p : Parser) (st : L.σ) (data : Bytes) (eof : Bool) : Except Fail (Parser × L.σ × Bytes) :=
  if 1 ≤ p.hreq then .ok (p, st, data) else parse c L p st data eof

/-- `parse_payload_from_stream(data, eof)`.  (http_request_parser.cpp:298-321) -/
def parse_payload (c : Cfg) (L : Lib) (p : Parser) (st : L.σ) (data : Bytes) (eof : Bool) : Except Fail (Parser × L.σ × Bytes) :=
  if 2 ≤ p.hreq then .ok (p, st, data)
  else if p.hreq ≠ 1 then .error .exception
  else parse c L p st data eof

/-- `next_message()`.  (http_request_parser.hpp:133-143) -/
def next_message (p : Parser) : Parser := { p with headers := {}, payload := [], hreq := 0, close := false }

/-- `http_status_from_error()`.  (http_request_parser.cpp:225-248) -/
def http_status_from_error : Errno → Nat
  | .ok => 200
  | .paused => 200
  | .invalidVersion => 505
  | .invalidMethod => 405
  | .invalidTransferEncoding => 411
  | _ => 400

/-! ### Sending requests -/

/-- Replaces the value of the first header that is called `Host`, or adds one.  (http_c_headers.cpp:155-166) -/
def setHost (host : Bytes) : List (Bytes × Option Bytes) → List (Bytes × Option Bytes)
  | [] => [(b! "Host", some host)]
  | hr :: t => if Http.name_eq hr.1 (b! "Host") then (hr.1, some host) :: t else hr :: setHost host t

/-- `HTTP_C_Headers::set_request_host(socket, default_host)`; `remote` is the text of the remote address.
(http_c_headers.cpp:139-167) -/
def set_request_host (h : Headers) (remote default_host : Bytes) : Headers :=
  if h.is_proxy then h
  else
    let host := if h.raw_host = [] then if default_host ≠ [] then default_host else remote else h.raw_host
    { h with raw_host := host, headers := setHost host h.headers }

/-- The target in the request line.  `raw_path[0]` of an empty path is the null terminator.  (http_c_headers.cpp:187-209) -/
def encode_target (h : Headers) : Bytes :=
  (if h.is_proxy then
      (if h.is_ssl then b! "https://" else b! "http://")
        ++ (if h.raw_userinfo ≠ [] then h.raw_userinfo ++ b! "@" else [])
        ++ h.raw_host
        ++ (if h.port ≠ 0 then b! ":" ++ Http.decimal h.port else [])
    else [])
  ++ (if h.raw_path.head? ≠ some (chr '/') then b! "/" ++ h.raw_path else h.raw_path)
  ++ (if h.raw_query ≠ [] then b! "?" ++ h.raw_query else [])

/-- `HTTP_C_Headers::encode(fmt)`.  (http_c_headers.cpp:169-220) -/
def encode (h : Headers) : Bytes :=
  (if h.method = [] then b! "GET" else h.method) ++ b! " " ++ encode_target h ++ b! " HTTP/1.1"
    ++ h.headers.flatMap (fun hr => if hr.1 ≠ [] then b! "\r\n" ++ hr.1 ++ b! ": " ++ as_string hr.2 else [])
    ++ b! "\r\n\r\n"

/-- `http_request(req, data)`: what is passed to `tcp_send()`, on a connection that has not been upgraded.
(http_client_session.cpp:154-189) -/
def http_request (h : Headers) (remote default_host data : Bytes) : Bytes :=
  let h := if h.is_proxy then h else set_request_host h remote default_host
  let h := if data ≠ [] then { h with headers := h.headers ++ [(b! "Content-Length", some (Http.decimal data.length))] } else h
  encode h ++ data

/-- `http_chunked_request_start(req)`.  (http_client_session.cpp:191-209) -/
def http_chunked_request_start (h : Headers) (remote default_host : Bytes) : Bytes :=
  let h := if h.is_proxy then h else set_request_host h remote default_host
  encode { h with headers := h.headers ++ [(b! "Transfer-Encoding", some (b! "chunked"))] }

end Verif.HttpRequest
