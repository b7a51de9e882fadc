import Verif.Model.Uri
/-!
# HTTP field names, query strings and message heads

Models `poseidon/src/http/http_field_name.cpp`, `http_query_parser.cpp`, the query part of `http_c_headers.cpp`,
`http_s_headers.cpp` and the response functions of `poseidon/src/socket/http_server_session.cpp`.
-/
namespace Verif.Http

/-! ### `HTTP_Field_Name` -/

/-- One character of `HTTP_Field_Name::canonicalize()`; `none` is the exception.  (http_field_name.cpp:44-60)
`switch` on a signed `char`: bytes from 0x80 on are negative and match no case. -/
def canonicalize_char (c : Byte) : Option Byte :=
  if (0x61 ≤ c && c ≤ 0x7A) || (0x30 ≤ c && c ≤ 0x39) || c == chr '-' || c == chr '_' then some c
  else if 0x41 ≤ c && c ≤ 0x5A then some (c ||| 0x20)
  else none

/-- `HTTP_Field_Name::canonicalize()`; `none` is the exception (the characters before the bad one have been changed then,
which this model does not show).  (http_field_name.cpp:39-61) -/
def canonicalize : Bytes → Option Bytes
  | [] => some []
  | c :: s => match canonicalize_char c with
    | none => none
    | some c' => match canonicalize s with
      | none => none
      | some s' => some (c' :: s')

/-- ASCII upper-case letters are lowered, as `::asteria::ascii_ci_compare` (not in this checkout) does before it compares
bytes. -/
def ascii_lower (c : Byte) : Byte := if 0x41 ≤ c && c ≤ 0x5A then c ||| 0x20 else c

/-- `HTTP_Field_Name::compare(other) == 0`: `::asteria::ascii_ci_compare` is zero.  (http_field_name.cpp:14-30) -/
def name_eq (a b : Bytes) : Bool := a.map ascii_lower == b.map ascii_lower

/-! ### `HTTP_C_Headers::encode_and_append_query` -/

/-- Characters of a key that need no escape.  (http_c_headers.cpp:77-87) -/
def isSafeKeyChar (c : Byte) : Bool := Uri.isSafePathChar c
/-- Characters of a value that need no escape: `=` too.  (http_c_headers.cpp:107-118) -/
def isSafeValueChar (c : Byte) : Bool := Uri.isSafePathChar c || c == chr '='

/-- One escaped character.  (http_c_headers.cpp:77-101, 107-132) -/
def query_char (safe : Byte → Bool) (c : Byte) : Bytes :=
  if safe c then [c]
  else if c == chr ' ' then [chr '+']
  else [chr '%', Uri.hexdigit ((c >>> 4) &&& 0x0F).toNat, Uri.hexdigit (c &&& 0x0F).toNat]

/-- `HTTP_C_Headers::encode_and_append_query(key, value)`: the new `raw_query`.  (http_c_headers.cpp:65-133) -/
def encode_and_append_query (raw : Bytes) (key value : Bytes) : Bytes :=
  (if raw.isEmpty then raw else raw ++ [chr '&'])
  ++ key.flatMap (query_char isSafeKeyChar) ++ [chr '='] ++ value.flatMap (query_char isSafeValueChar)

/-! ### `HTTP_Query_Parser` -/

/-- `bad_chars[ch / 32] >> (ch % 32) & 1` for `ch < 128`.  (http_query_parser.cpp:61, 72-77) -/
def bad_query_char (c : Byte) : Bool :=
  decide (c.toNat < 128) &&
  (match c.toNat / 32 with | 0 => 0xFFFFFFFF | 1 => 0x5000000D | 2 => 0x78000000 | _ => 0xB8000001 : Nat).testBit (c.toNat % 32)

/-- The position of the parser: `m_hpos` is `SIZE_MAX` before the first element, `error_hpos` after an error (both are
larger than any string), and otherwise the offset of the separator behind the current element, or the end. -/
inductive Pos where
  | before
  | at (n : Nat)
  | error
deriving DecidableEq, Repr

/-- `HTTP_Query_Parser`: string, position, current name, current value (`none` when cleared, i.e. null).
(http_query_parser.hpp) -/
structure QueryParser where
  hstr : Bytes
  hpos : Pos
  name : Bytes
  value : Option Bytes
deriving DecidableEq, Repr

/-- `reload(raw_query)`.  (http_query_parser.cpp:32-41) -/
def QueryParser.reload (raw : Bytes) : QueryParser := ⟨raw, .before, [], none⟩

/-- The loop of `next_element`: scan from `s`, appending to `m_name`; `name_len` is set when the first plain `=` is seen.
Gives the text, `name_len` and what is left from the separator on; `none` is the error exit.
(http_query_parser.cpp:69-138) -/
def scan : (s : Bytes) → (m_name : Bytes) → (name_len : Option Nat) → Option (Bytes × Option Nat × Bytes)
  | [], m_name, name_len => some (m_name, name_len, [])
  | c :: t, m_name, name_len =>
    if bad_query_char c then none
    else if c = chr '&' then some (m_name, name_len, c :: t)
    else if c = chr '%' then
      match t with
      | a :: b :: t' => match Uri.hexval a, Uri.hexval b with
        | some x, some y => scan t' (m_name ++ [UInt8.ofNat ((x <<< 4) ||| y)]) name_len
        | _, _ => none
      | _ => none
    else if c = chr '+' then scan t (m_name ++ [chr ' ']) name_len
    else if c = chr '=' ∧ name_len = none then scan t m_name (some m_name.length)
    else scan t (m_name ++ [c]) name_len

/-- `next_element()` from the line that computes `sptr` on: an element that begins at the offset `start`.
(http_query_parser.cpp:54-149) -/
def QueryParser.element_at (q : QueryParser) (start : Nat) : QueryParser × Bool :=
  match scan (q.hstr.drop start) [] none with
  | none => ({ q with hpos := .error }, false)      -- `current_name()` is left with a partial text: not modelled
  | some (text, some n, rest) =>
    ({ q with hpos := .at (q.hstr.length - rest.length), name := text.take n, value := some (text.drop n) }, true)
  | some (text, none, rest) =>
    ({ q with hpos := .at (q.hstr.length - rest.length), name := text, value := none }, true)

/-- `next_element()`: the new state and the result.  (http_query_parser.cpp:43-149) -/
def QueryParser.next_element (q : QueryParser) : QueryParser × Bool :=
  match q.hpos with
  | .before => q.element_at 0
  | .at n => if n ≥ q.hstr.length then (q, false) else q.element_at (n + 1)
  | .error => (q, false)

/-- The user's loop `while(parser.next_element()) …`: the elements seen and the state in the end, for at most `fuel`
calls. -/
def QueryParser.elements : (fuel : Nat) → QueryParser → List (Bytes × Option Bytes) × QueryParser
  | 0, q => ([], q)
  | fuel + 1, q => match q.next_element with
    | (q', false) => ([], q')
    | (q', true) => match elements fuel q' with
      | (es, q'') => ((q'.name, q'.value) :: es, q'')

/-! ### Message heads and responses -/

def crlf : Bytes := [13, 10]

/-- The digits of `n` in a base, without leading zeroes; `fuel` bounds the number of digits. -/
def digits (base : Nat) (digit : Nat → Byte) : (fuel : Nat) → (n : Nat) → Bytes
  | 0, n => [digit (n % base)]
  | fuel + 1, n => if n < base then [digit n] else digits base digit fuel (n / base) ++ [digit (n % base)]

/-- A decimal number as `tinyfmt` and `ascii_numput` write it (asteria is not in this checkout). -/
def decimal (n : Nat) : Bytes := digits 10 (fun d => UInt8.ofNat (0x30 + d)) n n

/-- `HTTP_S_Headers`; header values by their `as_string()`.  (http_s_headers.hpp) -/
structure SHeaders where
  status : Nat
  reason : Bytes
  headers : List (Bytes × Bytes)
deriving DecidableEq, Repr

/-- One header line, with the line break in front of it; headers with an empty name are ignored.
(http_s_headers.cpp:40-43) -/
def header_line (h : Bytes × Bytes) : Bytes := if h.1 ≠ [] then crlf ++ h.1 ++ b! ": " ++ h.2 else []

/-- `HTTP_S_Headers::encode(fmt)`; `status_str` is `::http_status_str` of http-parser (not in this checkout).
(http_s_headers.cpp:25-47) -/
def SHeaders.encode (status_str : Nat → Bytes) (r : SHeaders) : Bytes :=
  b! "HTTP/1.1 " ++ decimal r.status ++ b! " " ++ (if r.reason ≠ [] then r.reason else status_str r.status)
  ++ r.headers.flatMap header_line ++ crlf ++ crlf

/-- Bytes written by `do_http_raw_response(resp, data)`.  (http_server_session.cpp:161-190) -/
def raw_response (status_str : Nat → Bytes) (r : SHeaders) (data : Bytes) : Bytes := r.encode status_str ++ data

/-- Bytes written by `http_response(method_was_head, resp, data)`.  (http_server_session.cpp:205-226) -/
def http_response (status_str : Nat → Bytes) (method_was_head : Bool) (r : SHeaders) (data : Bytes) : Bytes :=
  if r.status ≤ 199 ∨ r.status = 204 ∨ r.status = 304 then raw_response status_str r []
  else
    let r := { r with headers := r.headers ++ [(b! "Content-Length", decimal data.length)] }
    raw_response status_str r (if method_was_head then [] else data)

/-- Bytes written by `http_chunked_response_start(resp)`.  (http_server_session.cpp:228-242) -/
def chunked_start (status_str : Nat → Bytes) (r : SHeaders) : Bytes :=
  raw_response status_str { r with headers := r.headers ++ [(b! "Transfer-Encoding", b! "chunked")] } []

/-- An upper-case hexadecimal digit. -/
def upper_hex (d : Nat) : Byte := if d < 10 then UInt8.ofNat (0x30 + d) else UInt8.ofNat (0x41 + (d - 10))

/-- `nump.put_XU(n)` without its `0x` prefix: upper-case hexadecimal digits without leading zeroes. -/
def hex_length (n : Nat) : Bytes := digits 16 upper_hex n n

/-- Bytes written by `http_chunked_response_send(data)`.  (http_server_session.cpp:244-268) -/
def chunked_send (data : Bytes) : Bytes :=
  if data.length = 0 then [] else hex_length data.length ++ crlf ++ data ++ crlf

/-- Bytes written by `http_chunked_response_finish()`.  (http_server_session.cpp:270-280) -/
def chunked_finish : Bytes := b! "0\r\n\r\n"

end Verif.Http
