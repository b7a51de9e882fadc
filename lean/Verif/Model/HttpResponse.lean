import Verif.Model.HttpRequest
/-!
# `HTTP_Response_Parser`

Models `poseidon/src/http/http_response_parser.cpp`, `poseidon/http/http_response_parser.hpp` and `estimate_size()` of
`poseidon/src/http/http_s_headers.cpp`.
-/
namespace Verif.HttpResponse
open Verif.HttpLib
open Verif.HttpRequest (as_string onLast startsNew Cfg Fail)

/-- `HTTP_S_Headers`.  (http_s_headers.hpp:13-19) -/
structure Headers where
  status : Nat := 0
  reason : Bytes := []
  headers : List (Bytes × Option Bytes) := []
deriving DecidableEq, Repr

/-- `HTTP_S_Headers::estimate_size()`.  (http_s_headers.cpp:15-24) -/
def estimate_size (h : Headers) : Nat := 12 + h.reason.length + (h.headers.map (fun hr => 4 + hr.1.length + (as_string hr.2).length)).sum

/-- `HTTP_Response_Parser` without the state of the library, but with `http_errno`.  `hresp` is 0 for `hresp_new`, 1 for
`hresp_headers_done` and 2 for `hresp_payload_done`.  (http_response_parser.hpp:14-32) -/
structure Parser where
  headers : Headers := {}
  payload : Bytes := []
  hresp : Nat := 0
  close : Bool := false
  errno : Errno := .ok
deriving DecidableEq, Repr

/-- `on_status`.  There is no limit.  (http_response_parser.cpp:22-28) -/
def on_status (p : Parser) (code : Nat) (s : Bytes) : Parser := { p with headers := { p.headers with status := code, reason := p.headers.reason ++ s } }

/-- `on_header_field`.  (http_response_parser.cpp:30-47) -/
def on_header_field (c : Cfg) (p : Parser) (s : Bytes) : Except Fail Parser :=
  let h := if startsNew p.headers.headers then { p.headers with headers := p.headers.headers ++ [([], none)] } else p.headers
  if estimate_size h + s.length > c.max_header_length then .error .exception
  else .ok { p with headers := { h with headers := onLast (fun hr => (hr.1 ++ s, hr.2)) h.headers } }

/-- `on_header_value`.  (http_response_parser.cpp:49-62) -/
def on_header_value (c : Cfg) (p : Parser) (s : Bytes) : Except Fail Parser :=
  if estimate_size p.headers + s.length > c.max_header_length then .error .exception
  else if p.headers.headers = [] then .error .undefined
  else .ok { p with headers := { p.headers with headers := onLast (fun hr => (hr.1, some (as_string hr.2 ++ s))) p.headers.headers } }

/-- `on_headers_complete`.  (http_response_parser.cpp:64-72) -/
def on_headers_complete (p : Parser) (keep : Bool) : Parser := { p with hresp := 1, close := !keep, errno := .paused }

/-- `on_body`.  (http_response_parser.cpp:74-85) -/
def on_body (c : Cfg) (p : Parser) (s : Bytes) : Except Fail Parser :=
  if p.payload.length + s.length > c.max_content_length then .error .exception
  else .ok { p with payload := p.payload ++ s }

/-- `on_message_complete`.  (http_response_parser.cpp:87-94) -/
def on_message_complete (p : Parser) : Parser := { p with hresp := 2, errno := .paused }

/-- The table of callbacks; there is none for the URL of a request.  (http_response_parser.cpp:11-101) -/
def onData (c : Cfg) (p : Parser) : Data → Except Fail Parser
  | .url _ => .ok p
  | .status n s => .ok (on_status p n s)
  | .field s => on_header_field c p s
  | .value s => on_header_value c p s
  | .body s => on_body c p s

/-- Several callbacks, one after another. -/
def onDatas (c : Cfg) (p : Parser) : List Data → Except Fail Parser
  | [] => .ok p
  | d :: ds => match onData c p d with
    | .error e => .error e
    | .ok p' => onDatas c p' ds

/-- `http_parser_execute(parser, settings, data.data(), data.size())` and `data.discard()`. -/
def exec (c : Cfg) (L : Lib) (p : Parser) (st : L.σ) : Bytes → Except Fail (Parser × L.σ × Bytes)
  | [] => .ok (p, st, [])
  | b :: t =>
    match onDatas c p (L.micro st b).2.1 with
    | .error e => .error e
    | .ok p' =>
      match (L.micro st b).2.2 with
      | .go => exec c L p' (L.micro st b).1 t
      | .headers _ _ k => .ok (on_headers_complete p' k, (L.micro st b).1, b :: t)
      | .done => .ok (on_message_complete p', (L.micro st b).1, t)
      | .bad e => .ok ({ p' with errno := e }, (L.micro st b).1, b :: t)

/-- `http_parser_execute(parser, settings, "", 0)`: nothing if an error number is set.  (http_response_parser.cpp:162-164, 187-189) -/
def execEof (L : Lib) (p : Parser) (st : L.σ) : Parser × L.σ :=
  if p.errno ≠ .ok then (p, st)
  else match (L.eof st).2 with
    | .go => (p, (L.eof st).1)
    | .headers _ _ k => (on_headers_complete p k, (L.eof st).1)
    | .done => (on_message_complete p, (L.eof st).1)
    | .bad e => ({ p with errno := e }, (L.eof st).1)

/-- The part which `parse_headers_from_stream()` and `parse_payload_from_stream()` share.
(http_response_parser.cpp:158-168, 183-193) -/
def parse (c : Cfg) (L : Lib) (p : Parser) (st : L.σ) (data : Bytes) (eof : Bool) : Except Fail (Parser × L.σ × Bytes) :=
  match exec c L p st data with
  | .error e => .error e
  | .ok (p1, st1, rest) =>
    let r := if eof then execEof L p1 st1 else (p1, st1)
    .ok (if r.1.errno = .paused then { r.1 with errno := .ok } else r.1, r.2, rest)

/-- `parse_headers_from_stream(data, eof)`.  (http_response_parser.cpp:151-169) -/
def parse_headers (c : Cfg) (L : Lib) (p : Parser) (st : L.σ) (data : Bytes) (eof : Bool) : Except Fail (Parser × L.σ × Bytes) :=
  if 1 ≤ p.hresp then .ok (p, st, data) else parse c L p st data eof

/-- `parse_payload_from_stream(data, eof)`.  (http_response_parser.cpp:171-194) -/
def parse_payload (c : Cfg) (L : Lib) (p : Parser) (st : L.σ) (data : Bytes) (eof : Bool) : Except Fail (Parser × L.σ × Bytes) :=
  if 2 ≤ p.hresp then .ok (p, st, data)
  else if p.hresp ≠ 1 then .error .exception
  else parse c L p st data eof

/-- `next_message()`.  (http_response_parser.hpp:136-147) -/
def next_message (p : Parser) : Parser := { p with headers := {}, payload := [], hresp := 0, close := false }

/-- `deallocate()`.  (http_response_parser.cpp:141-149) -/
def deallocate (p : Parser) : Parser := { p with headers := { p.headers with reason := [], headers := [] }, payload := [] }

end Verif.HttpResponse
