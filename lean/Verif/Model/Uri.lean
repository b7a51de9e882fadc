import Verif.Base.Bytes
/-!
# Model of network references and URI paths (poseidon/utils.hpp:158-188, poseidon/src/utils.cpp:283-514,
poseidon/src/http/http_c_headers.cpp:27-63)
-/
namespace Verif.Uri

/-! ### `parse_network_reference` -/

/-- `Network_Reference`: views are modelled by the bytes they cover.  (utils.hpp:160-169) -/
structure NetworkReference where
  host : Bytes := []
  port : Bytes := []
  path : Bytes := []
  query : Bytes := []
  fragment : Bytes := []
  port_num : Nat := 0
  is_ipv6 : Bool := false
deriving Repr, DecidableEq

def isDigit (c : Byte) : Bool := 0x30 ≤ c && c ≤ 0x39
def isAlpha (c : Byte) : Bool := (0x41 ≤ c && c ≤ 0x5A) || (0x61 ≤ c && c ≤ 0x7A)

/-- Characters of a bracketed IPv6 address.  (utils.cpp:302-306; `char` ranges, bytes above 0x7F match none) -/
def isHost6Char (c : Byte) : Bool := isDigit c || isAlpha c || c == chr ':' || c == chr '.'

/-- Characters of a host name.  (utils.cpp:325-329) -/
def isHostChar (c : Byte) : Bool := isDigit c || isAlpha c || c == chr '-' || c == chr '.'

/-- Characters of a path.  (utils.cpp:371-380) -/
def isPathChar (c : Byte) : Bool :=
  isDigit c || isAlpha c || c == chr '-' || c == chr '.' || c == chr '_' || c == chr '~'
  || c == chr '!' || c == chr '$' || c == chr '&' || c == chr '\''
  || c == chr '(' || c == chr ')' || c == chr '*' || c == chr '+'
  || c == chr ',' || c == chr ';' || c == chr '='
  || c == chr '%' || c == chr ':' || c == chr '@'
  || c == chr '/'

/-- Characters of a query.  (utils.cpp:393-402) -/
def isQueryChar (c : Byte) : Bool := isPathChar c || c == chr '?'

/-- Characters of a fragment.  (utils.cpp:415-424) -/
def isFragmentChar (c : Byte) : Bool := isQueryChar c || c == chr '#'

/-- The port digits: `all_of` stops, and the parser fails, as soon as the number exceeds 65535.  (utils.cpp:352-357) -/
def port_value : Bytes → Nat → Option Nat
  | [], n => some n
  | c :: cs, n =>
    let n' := n * 10 + (c.toNat - 0x30)
    if n' ≤ 65535 then port_value cs n' else none

/-- Host part; `none` is "return 0" (then the reference keeps whatever it had).  Result: rest of the text.
(utils.cpp:295-340) -/
def parse_host (r : NetworkReference) (s : Bytes) : Option (NetworkReference × Bytes) :=
  match s with
  | [] => none
  | c :: t =>
    if c = chr '[' then
      let h := t.takeWhile isHost6Char
      let rest := t.dropWhile isHost6Char
      if h = [] then none
      else match rest with
        | [] => none
        | d :: rest' => if d ≠ chr ']' then none else some ({ r with host := h, is_ipv6 := true }, rest')
    else
      let h := s.takeWhile isHostChar
      if h = [] then none else some ({ r with host := h }, s.dropWhile isHostChar)

/-- Port part.  `none` is "return 0".  (utils.cpp:342-365) -/
def parse_port (r : NetworkReference) (s : Bytes) : Option (NetworkReference × Bytes) :=
  match s with
  | [] => some (r, [])
  | c :: t =>
    if c = chr ':' then
      let p := t.takeWhile isDigit
      if p = [] then none
      else match port_value p 0 with
        | none => none
        | some n => some ({ r with port := p, port_num := n }, t.dropWhile isDigit)
    else some (r, s)

/-- Path part.  (utils.cpp:367-387) -/
def parse_path (r : NetworkReference) (s : Bytes) : NetworkReference × Bytes :=
  match s with
  | [] => (r, [])
  | c :: _ =>
    if c = chr '/' then ({ r with path := s.takeWhile isPathChar }, s.dropWhile isPathChar) else (r, s)

/-- Query part.  (utils.cpp:389-409) -/
def parse_query (r : NetworkReference) (s : Bytes) : NetworkReference × Bytes :=
  match s with
  | [] => (r, [])
  | c :: t =>
    if c = chr '?' then ({ r with query := t.takeWhile isQueryChar }, t.dropWhile isQueryChar) else (r, s)

/-- Fragment part.  (utils.cpp:411-431) -/
def parse_fragment (r : NetworkReference) (s : Bytes) : NetworkReference × Bytes :=
  match s with
  | [] => (r, [])
  | c :: t =>
    if c = chr '#' then ({ r with fragment := t.takeWhile isFragmentChar }, t.dropWhile isFragmentChar) else (r, s)

/-- `parse_network_reference(caddr, str)`: the new reference and the number of characters consumed.  On failure the
count is 0; host and `is_ipv6` may already have been changed.  (utils.cpp:283-435) The early `return str.n` when
the text is exhausted is the same as falling through the remaining (non-matching) parts. -/
def parse_network_reference (r : NetworkReference) (s : Bytes) : NetworkReference × Nat :=
  match parse_host r s with
  | none => (r, 0)
  | some (r1, s1) =>
    match parse_port r1 s1 with
    | none => (r1, 0)
    | some (r2, s2) =>
      let (r3, s3) := parse_path r2 s2
      let (r4, s4) := parse_query r3 s3
      let (r5, s5) := parse_fragment r4 s4
      (r5, s.length - s5.length)

/-! ### `decode_and_canonicalize_uri_path` -/

def slash : Byte := chr '/'
def dot : Byte := chr '.'

/-- `do_pop_dot_dot(npop)` on the result stored in reverse (last character first).  After the pops the last character
is a slash (asserted); if more than one character is left, at least one is popped and then all up to the previous
slash.  (utils.cpp:444-453) -/
def pop_dot_dot (npop : Nat) (r : Bytes) : Bytes :=
  let r := r.drop npop
  if r.length > 1 then (r.drop 1).dropWhile (· != slash) else r

/-- "Canonicalize once" on the reversed result.  (utils.cpp:457-462) -/
def canon_once (r : Bytes) : Bytes :=
  if [slash, slash].isPrefixOf r then r.drop 1
  else if [slash, dot, slash].isPrefixOf r then r.drop 2
  else if [slash, dot, dot, slash].isPrefixOf r then pop_dot_dot 3 r
  else r

/-- "Canonicalize final segment" on the reversed result.  (utils.cpp:499-508) -/
def canon_final (r : Bytes) : Bytes :=
  if [slash, slash].isPrefixOf r then r.drop 1
  else if [dot, slash].isPrefixOf r then r.drop 1
  else if [slash, dot, slash].isPrefixOf r then r.drop 2
  else if [dot, dot, slash].isPrefixOf r then pop_dot_dot 2 r
  else if [slash, dot, dot, slash].isPrefixOf r then pop_dot_dot 3 r
  else r

/-- Value of a hexadecimal digit.  (utils.cpp:470-489) -/
def hexval (c : Byte) : Option Nat :=
  if 0x30 ≤ c ∧ c ≤ 0x39 then some (c - 0x30).toNat
  else if 0x41 ≤ c ∧ c ≤ 0x46 then some (c - 0x41 + 10).toNat
  else if 0x61 ≤ c ∧ c ≤ 0x66 then some (c - 0x61 + 10).toNat
  else none

/-- The loop over the characters of the path; the result is kept in reverse.  A malformed escape returns the current
result at once.  (utils.cpp:455-511) -/
def decode_loop : (s : Bytes) → (r : Bytes) → Bytes
  | [], r => canon_final r
  | c :: t, r =>
    let r := canon_once r
    if c = chr '%' then
      match t with
      | a :: b :: t' =>
        match hexval a with
        | none => r
        | some x =>
          match hexval b with
          | none => r
          | some y => decode_loop t' (UInt8.ofNat ((x <<< 4) ||| y) :: r)
      | _ => r
    else decode_loop t (c :: r)

/-- `decode_and_canonicalize_uri_path(path)`.  (utils.cpp:437-514) -/
def decode_and_canonicalize_uri_path (path : Bytes) : Bytes := (decode_loop path [slash]).reverse

/-! ### `HTTP_C_Headers::encode_and_set_path` -/

/-- Characters that need no escape in a path.  (http_c_headers.cpp:39-46) -/
def isSafePathChar (c : Byte) : Bool :=
  isDigit c || isAlpha c || c == chr '-' || c == chr '_' || c == chr '~' || c == chr '.' || c == chr '/'

/-- `dval + '0' + ((9 - dval) >> 15 & 7)` (arithmetic shift of a possibly negative `int`).  (http_c_headers.cpp:53-56) -/
def hexdigit (dval : Nat) : Byte :=
  UInt8.ofNat ((dval : Int) + 0x30 + (if (9 : Int) - dval < 0 then 7 else 0)).toNat

/-- `HTTP_C_Headers::encode_and_set_path(path)`: the new `raw_path`.  (http_c_headers.cpp:27-63) -/
def encode_path (path : Bytes) : Bytes :=
  let raw := path.flatMap (fun c =>
    if isSafePathChar c then [c] else [chr '%', hexdigit ((c >>> 4) &&& 0x0F).toNat, hexdigit (c &&& 0x0F).toNat])
  if raw.isEmpty then [slash] else raw

end Verif.Uri
