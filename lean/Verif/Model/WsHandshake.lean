import Verif.Model.HttpValue
import Verif.Model.Ws
/-!
# The WebSocket handshake

Models `poseidon/src/http/websocket_frame_parser.cpp:54-399`.  SHA-1 and base64 (OpenSSL) are a parameter: the function from
the key in a request to the key in its response.
-/
namespace Verif.Ws
open Verif.Http

/-- `PerMessage_Deflate`.  (websocket_frame_parser.cpp:54-61) -/
structure Pmd where
  compression_level : Nat := 0
  server_no_context_takeover : Bool := false
  client_no_context_takeover : Bool := false
  server_max_window_bits : Int := 15
  client_max_window_bits : Int := 15
deriving DecidableEq, Repr

/-- The loop of `use_permessage_deflate` over the parameters: `none` when one is refused (the function returns), with the parser
and the fields as they are then.  (websocket_frame_parser.cpp:79-126) -/
def pmd_params {L : Lib} (level : Nat) : (fuel : Nat) → HeaderParser L → Pmd → HeaderParser L × Pmd
  | 0, q, p => (q, p)
  | fuel + 1, q, p => match q.next_attribute with
    | (q, false) => (q, { p with compression_level := level })
    | (q, true) =>
      if name_eq q.name (b! "server_no_context_takeover") then
        if !q.value.is_null then (q, p)
        else pmd_params level fuel q { p with server_no_context_takeover := true }
      else if name_eq q.name (b! "client_no_context_takeover") then
        if !q.value.is_null then (q, p)
        else pmd_params level fuel q { p with client_no_context_takeover := true }
      else if name_eq q.name (b! "server_max_window_bits") then
        if q.value.is_null then pmd_params level fuel q p
        else
          let value := q.value.as_integer
          if value < 9 ∨ value > 15 then (q, p)
          else pmd_params level fuel q { p with server_max_window_bits := value }
      else if name_eq q.name (b! "client_max_window_bits") then
        if q.value.is_null then pmd_params level fuel q p
        else
          let value := q.value.as_integer
          if value < 9 ∨ value > 15 then (q, p)
          else pmd_params level fuel q { p with client_max_window_bits := value }
      else (q, p)

/-- `use_permessage_deflate(hparser, default_compression_level)`; the number of attributes is bounded by the length of the
text.  (websocket_frame_parser.cpp:63-127) -/
def use_permessage_deflate {L : Lib} (q : HeaderParser L) (default_level : Nat) (p : Pmd) : HeaderParser L × Pmd :=
  if p.compression_level ≠ 0 then (q, p)
  else if default_level = 0 then (q, p)
  else pmd_params (default_level % 256) (q.hstr.length + 2) q { compression_level := p.compression_level }

/-- The loop over the elements of a `Sec-WebSocket-Extensions` header; `strict` (client) fails on an unknown extension.
`none` is that failure.  (websocket_frame_parser.cpp:260-266, 361-369) -/
def extensions {L : Lib} (strict : Bool) (level : Nat) : (fuel : Nat) → HeaderParser L → Pmd → Option Pmd
  | 0, _, p => some p
  | fuel + 1, q, p => match q.next_element with
    | (_, false) => some p
    | (q, true) =>
      if name_eq q.name (b! "permessage-deflate") then
        let r := use_permessage_deflate q level p
        extensions strict level fuel r.1 r.2
      else if strict then none
      else extensions strict level fuel q p

/-- Whether a `Connection` header contains `close`.  (websocket_frame_parser.cpp:237-243, 343-349) -/
def has_close {L : Lib} : (fuel : Nat) → HeaderParser L → Bool
  | 0, _ => false
  | fuel + 1, q => match q.next_element with
    | (_, false) => false
    | (q, true) => if name_eq q.name (b! "close") then true else has_close fuel q

/-- What the header loops of both handshake functions collect. -/
structure HsState where
  upgrade_ok : Bool := false
  ws_version_ok : Bool := false
  key : Bytes := []
  pmce : Pmd := {}

/-- The loop over the request headers (server) or response headers (client); `none`: the function returns in the loop.
`strict` is true for the client, whose key header is `Sec-WebSocket-Accept` of 28 characters and which does not look at the version.
(websocket_frame_parser.cpp:235-267, 341-370) -/
def hs_headers (L : Lib) (strict : Bool) (level : Nat) : List (Bytes × Bytes) → HsState → Option HsState
  | [], st => some st
  | h :: hs, st =>
    if name_eq h.1 (b! "Connection") then
      if has_close (h.2.length + 2) (HeaderParser.reload L h.2) then none else hs_headers L strict level hs st
    else if name_eq h.1 (b! "Upgrade") then
      hs_headers L strict level hs (if h.2 = b! "websocket" then { st with upgrade_ok := true } else st)
    else if !strict && name_eq h.1 (b! "Sec-WebSocket-Version") then
      hs_headers L strict level hs (if h.2 = b! "13" then { st with ws_version_ok := true } else st)
    else if !strict && name_eq h.1 (b! "Sec-WebSocket-Key") then
      hs_headers L strict level hs (if h.2.length = 24 then { st with key := h.2 } else st)
    else if strict && name_eq h.1 (b! "Sec-WebSocket-Accept") then
      hs_headers L strict level hs (if h.2.length = 28 then { st with key := h.2 } else st)
    else if name_eq h.1 (b! "Sec-WebSocket-Extensions") then
      match extensions strict level (h.2.length + 2) (HeaderParser.reload L h.2) st.pmce with
      | none => none
      | some p => hs_headers L strict level hs { st with pmce := p }
    else hs_headers L strict level hs st

/-- `clamp(level - 2, 1, 7) & 7`.  (websocket_frame_parser.cpp:314, 391) -/
def level_m2 (level : Nat) : Nat := (if (level : Int) - 2 < 1 then 1 else if (level : Int) - 2 > 7 then 7 else level - 2) &&& 7

/-- `pmce_compression_level()`.  (websocket_frame_parser.hpp:105-108) -/
def Parser.pmce_compression_level (p : Parser) : Nat := p.pmce_compression_level_m2 + 2

/-- `int & 15` of a window size. -/
def bits15 (n : Int) : Nat := n.toNat &&& 15

/-- The extension header that a server answers.  (websocket_frame_parser.cpp:291-310) -/
def pmce_answer (L : Lib) (p : Pmd) : Bytes :=
  b! "permessage-deflate"
  ++ (if p.client_no_context_takeover then b! "; client_no_context_takeover" else [])
  ++ (if p.server_max_window_bits ≠ 15 then b! "; server_max_window_bits=" ++ L.print_I p.server_max_window_bits else [])
  ++ (if p.client_max_window_bits ≠ 15 then b! "; client_max_window_bits=" ++ L.print_I p.client_max_window_bits else [])

/-- `accept_handshake_request(resp, req)` for a method other than OPTIONS (which leaves the parser alone): the parser and the
`Sec-WebSocket-Extensions` header of the response, if any; the other response headers are not modelled.  `none` is the exception.
(websocket_frame_parser.cpp:199-326) -/
def accept_handshake_request (L : Lib) (p : Parser) (headers : List (Bytes × Bytes)) : Option (Parser × Option Bytes) :=
  if p.wshs ≠ .pending then none
  else
    let p := p.fail "handshake request invalid"
    match hs_headers L false p.default_compression_level headers {} with
    | none => some (p, none)
    | some st =>
      if !st.upgrade_ok || !st.ws_version_ok || st.key.headD 0 = 0 then some (p, none)
      else
        let p' := if st.pmce.compression_level ≠ 0 then
            { p with pmce_compression_level_m2 := level_m2 st.pmce.compression_level,
                     pmce_send_no_context_takeover := st.pmce.server_no_context_takeover,
                     pmce_send_window_bits := bits15 st.pmce.server_max_window_bits,
                     pmce_receive_window_bits := bits15 st.pmce.client_max_window_bits }
          else p
        some ({ p' with wshs := .s_accepted, wsf := .new, error_desc := none },
              if st.pmce.compression_level ≠ 0 then some (pmce_answer L st.pmce) else none)

/-- `accept_handshake_response(resp)`; `accept_str` is the key that the client expects.  `none` is the exception.
(websocket_frame_parser.cpp:328-399) -/
def accept_handshake_response (L : Lib) (accept_str : Bytes) (p : Parser) (headers : List (Bytes × Bytes)) : Option Parser :=
  if p.wshs ≠ .c_req_sent then none
  else
    let p := p.fail "handshake response invalid"
    match hs_headers L true p.default_compression_level headers {} with
    | none => some p
    | some st =>
      if !st.upgrade_ok || st.key.headD 0 = 0 then some p
      else if accept_str ≠ st.key then some p
      else
        let p' := if st.pmce.compression_level ≠ 0 then
            { p with pmce_compression_level_m2 := level_m2 st.pmce.compression_level,
                     pmce_send_no_context_takeover := st.pmce.client_no_context_takeover,
                     pmce_send_window_bits := bits15 st.pmce.client_max_window_bits,
                     pmce_receive_window_bits := bits15 st.pmce.server_max_window_bits }
          else p
        some { p' with wshs := .c_accepted, wsf := .new, error_desc := none }

/-- The headers of `create_handshake_request(req)`; `key` is the encoded key of 24 characters.
(websocket_frame_parser.cpp:164-189) -/
def handshake_request (key : Bytes) : List (Bytes × Bytes) :=
  [(b! "Connection", b! "Upgrade"), (b! "Upgrade", b! "websocket"), (b! "Sec-WebSocket-Version", b! "13"), (b! "Sec-WebSocket-Key", key),
   (b! "Sec-WebSocket-Extensions", b! "permessage-deflate; client_max_window_bits")]

/-- The headers of the response to an accepted request: `date` is the printed time, `accept` the encoded answer to the key and
`ext` the answer to the extensions.  (websocket_frame_parser.cpp:277-307) -/
def handshake_response (date accept : Bytes) (ext : Option Bytes) : List (Bytes × Bytes) :=
  [(b! "Connection", b! "Upgrade"), (b! "Upgrade", b! "websocket"), (b! "Date", date), (b! "Expires", b! "0"), (b! "Sec-WebSocket-Accept", accept)]
  ++ (match ext with | none => [] | some e => [(b! "Sec-WebSocket-Extensions", e)])

end Verif.Ws
