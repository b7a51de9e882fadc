import Verif.Model.Http
/-!
# HTTP values and the header parser

Models `poseidon/src/http/http_value.cpp` and `poseidon/src/http/http_header_parser.cpp`.
-/
namespace Verif.Http

/-- `do_is_ctl_or_sep`; `char` is signed, so bytes from 0x80 on are negative.  (http_value.cpp:12-24) -/
def is_ctl_or_sep (c : Byte) : Bool :=
  (c ≤ 0x20) || c == 0x7F || c == chr '\\' || c == chr '"'
  || c == chr '(' || c == chr ')' || c == chr '<' || c == chr '>'
  || c == chr '@' || c == chr ',' || c == chr ';' || c == chr ':'
  || c == chr '/' || c == chr '[' || c == chr ']' || c == chr '?'
  || c == chr '=' || c == chr '{' || c == chr '}'

/-- `do_is_ctl_or_unquoted_sep`.  (http_value.cpp:26-33) -/
def is_ctl_or_unquoted_sep (c : Byte) : Bool := (c ≤ 0x20) || c == 0x7F || c == chr ',' || c == chr ';'

/-- `do_is_ctl_or_ws`.  (http_value.cpp:35-41) -/
def is_ctl_or_ws (c : Byte) : Bool := (c ≤ 0x20) || c == 0x7F

/-- What the value code takes from libraries: `parse_I`/`parse_D` of `::asteria::ascii_numget` (not in this checkout) on a whole text, the
printing of numbers, and `DateTime::parse` (seconds and number of accepted characters) and `print_rfc1123_partial`. -/
structure Lib where
  D : Type
  parse_I : Bytes → Option Int
  parse_D : Bytes → Option D
  print_I : Int → Bytes
  print_D : D → Bytes
  dt_parse : Bytes → Option (Int × Nat)
  dt_print : Int → Bytes

/-- `HTTP_Value`.  The flags `vm_*_valid` are the `Bool` and the `Option`s; a number or time without its flag reads as zero.
(http_value.hpp:16-27) -/
structure Value (L : Lib) where
  str : Bytes := []
  str_valid : Bool := false
  int : Option Int := none
  dbl : Option L.D := none
  dt : Option Int := none

/-- `is_null()`.  (http_value.hpp:230-233) -/
def Value.is_null {L : Lib} (v : Value L) : Bool := !v.str_valid
/-- `as_integer()` of a value that was cleared before it was set.  (http_value.hpp:254-257) -/
def Value.as_integer {L : Lib} (v : Value L) : Int := match v.int with | some i => i | none => 0

/-- Drop blanks at both ends.  (http_value.cpp:91-93) -/
def trim (s : Bytes) : Bytes :=
  let blank (c : Byte) : Bool := c == chr ' ' || c == chr '\t'
  ((s.dropWhile blank).reverse.dropWhile blank).reverse

/-- A value set from a string: `do_update_variants()` in the case `vm_str_valid`.  (http_value.cpp:88-112) -/
def Value.ofString (L : Lib) (s : Bytes) : Value L :=
  let sv := trim s
  if sv = [] then { str := s, str_valid := true }
  else
    { str := s, str_valid := true, int := L.parse_I sv, dbl := L.parse_D sv,
      dt := match L.dt_parse sv with
        | some (t, n) => if n = sv.length then some t else none
        | none => none }

/-- A value set from an integer; the conversion to `double` is left to the library.  (http_value.cpp:52-63) -/
def Value.ofInt (L : Lib) (i : Int) : Value L := { str := L.print_I i, str_valid := true, int := some i }

/-- The loop of `parse_quoted_string_partial` behind the opening quote: `plain` is false behind a backslash.  Gives the text
and what is left behind the closing quote; `none`: no closing quote.  (http_value.cpp:126-142) -/
def quoted_loop : (s : Bytes) → (plain : Bool) → (acc : Bytes) → Option (Bytes × Bytes)
  | [], _, _ => none
  | c :: t, plain, acc =>
    if c = chr '"' ∧ plain = true then some (acc, t)
    else if c ≠ chr '\\' ∨ plain = false then quoted_loop t true (acc ++ [c])
    else quoted_loop t false acc

/-- `parse_quoted_string_partial(str)`: the value and the number of accepted characters; zero is failure.
(http_value.cpp:115-147) -/
def parse_quoted_string_partial (L : Lib) (str : Bytes) : Value L × Nat :=
  match str with
  | c :: t =>
    if c = chr '"' ∧ t ≠ [] then
      match quoted_loop t true [] with
      | some (text, rest) => (Value.ofString L text, str.length - rest.length)
      | none => ({}, 0)
    else ({}, 0)
  | [] => ({}, 0)

/-- `parse_datetime_partial(str)`: only the date-time flag is set, so the value is `is_null()`.  (http_value.cpp:149-164) -/
def parse_datetime_partial (L : Lib) (str : Bytes) : Value L × Nat :=
  match L.dt_parse str with
  | none => ({}, 0)
  | some (t, n) => if n = 0 then ({}, 0) else ({ str := str.take n, dt := some t }, n)

/-- `parse_token_partial(str)`.  (http_value.cpp:166-180) -/
def parse_token_partial (L : Lib) (str : Bytes) : Value L × Nat :=
  let tok := str.takeWhile (fun c => !is_ctl_or_sep c)
  if tok = [] then ({}, 0) else (Value.ofString L tok, tok.length)

/-- `parse_unquoted_partial(str)`.  (http_value.cpp:182-196) -/
def parse_unquoted_partial (L : Lib) (str : Bytes) : Value L × Nat :=
  let tok := str.takeWhile (fun c => !is_ctl_or_unquoted_sep c)
  if tok = [] then ({}, 0) else (Value.ofString L tok, tok.length)

/-- `parse(str)`.  (http_value.cpp:198-218) -/
def parse_value (L : Lib) (str : Bytes) : Value L × Nat :=
  if str = [] then ({}, 0)
  else
    let q := if str.head? = some (chr '"') then parse_quoted_string_partial L str else ({}, 0)
    if q.2 ≠ 0 then q
    else
      let d := parse_datetime_partial L str
      if d.2 ≠ 0 then d
      else parse_unquoted_partial L str

/-- The loop of `print_to` for a string that has to be quoted; `skip`: inside a run of control and space characters, whose single
space has been written.  Runs of other characters are written in one go by the code, one by one here; the bytes are the
same.  (http_value.cpp:243-265) -/
def quote_loop : (s : Bytes) → (skip : Bool) → Bytes
  | [], _ => []
  | c :: t, skip =>
    if c = chr '\\' ∨ c = chr '"' then chr '\\' :: c :: quote_loop t false
    else if is_ctl_or_ws c then (if skip then quote_loop t true else chr ' ' :: quote_loop t true)
    else c :: quote_loop t false

/-- `print_to(fmt)`.  (http_value.cpp:220-270) -/
def Value.print {L : Lib} (v : Value L) : Bytes :=
  match v.int, v.dbl, v.dt with
  | some i, _, _ => L.print_I i
  | none, some d, _ => L.print_D d
  | none, none, some t => L.dt_print t
  | none, none, none =>
    if v.str.any is_ctl_or_sep then chr '"' :: quote_loop v.str false ++ [chr '"'] else v.str

/-! ### `HTTP_Header_Parser` -/

/-- `HTTP_Header_Parser`.  (http_header_parser.hpp:14-24) -/
structure HeaderParser (L : Lib) where
  hstr : Bytes
  hpos : Pos
  name : Bytes
  value : Value L

/-- `reload(hstr)`.  (http_header_parser.cpp:32-41) -/
def HeaderParser.reload (L : Lib) (hstr : Bytes) : HeaderParser L := ⟨hstr, .before, [], {}⟩

def is_blank (c : Byte) : Bool := c == chr ' ' || c == chr '\t'

/-- `chars_view` of a `const char*`: everything before the first NUL.  (fwd.hpp:235-238) -/
def c_string (s : Bytes) : Bytes := s.takeWhile (· ≠ 0)

/-- The value of an attribute, from the position behind its name on: the value and what is left.
(http_header_parser.cpp:76-92) -/
def attribute_value (L : Lib) (s : Bytes) : Value L × Bytes :=
  match s.dropWhile is_blank with
  | c :: t =>
    if c = chr '=' then
      let s := t.dropWhile is_blank
      let p := parse_value L (c_string s)
      (if p.2 = 0 then Value.ofString L [] else p.1, s.drop p.2)
    else ({}, c :: t)
  | [] => ({}, [])

/-- `do_next_attribute_from_separator()` with `m_hpos` already moved to `start`: the new state and the result, `none` for -1.
(http_header_parser.cpp:43-105) -/
def HeaderParser.attribute_at {L : Lib} (q : HeaderParser L) (start : Nat) : HeaderParser L × Option Byte :=
  let s := (q.hstr.drop start).dropWhile is_blank
  match s with
  | [] => ({ q with hpos := .at start }, none)
  | c :: _ =>
    if c = chr ';' ∨ c = chr ',' then ({ q with hpos := .at start }, none)
    else
      let p := parse_token_partial L (c_string s)
      if p.2 = 0 then ({ q with hpos := .error, value := p.1 }, none)
      else
        let v := attribute_value L (s.drop p.2)
        let q := { q with name := p.1.str, value := v.1 }
        match v.2.dropWhile is_blank with
        | [] => ({ q with hpos := .at q.hstr.length }, some 0)
        | c :: t =>
          if c ≠ chr ';' ∧ c ≠ chr ',' then ({ q with hpos := .error }, none)
          else ({ q with hpos := .at (q.hstr.length - (c :: t).length) }, some c)

/-- `next_attribute()`.  (http_header_parser.cpp:107-133) -/
def HeaderParser.next_attribute {L : Lib} (q : HeaderParser L) : HeaderParser L × Bool :=
  match q.hpos with
  | .before => let r := q.attribute_at 0; (r.1, r.2.isSome)
  | .error => (q, false)
  | .at n => match q.hstr[n]? with
    | none => (q, false)
    | some c =>
      if c = chr ',' then (q, false)
      else if c = chr ';' then let r := q.attribute_at (n + 1); (r.1, r.2.isSome)
      else ({ q with hpos := .error }, false)

/-- `next_element()`; `fuel` bounds the loop over the attributes that are skipped.  (http_header_parser.cpp:135-164) -/
def HeaderParser.next_element_fuel {L : Lib} : (fuel : Nat) → HeaderParser L → HeaderParser L × Bool
  | 0, q => (q, false)
  | fuel + 1, q => match q.hpos with
    | .before => let r := q.attribute_at 0; (r.1, r.2.isSome)
    | .error => (q, false)
    | .at n => match q.hstr[n]? with
      | none => (q, false)
      | some c =>
        if c = chr ',' then let r := q.attribute_at (n + 1); (r.1, r.2.isSome)
        else if c = chr ';' then next_element_fuel fuel (q.attribute_at (n + 1)).1
        else ({ q with hpos := .error }, false)

/-- `next_element()`: each turn of the loop moves the position forward, so the length of the text bounds it
(`next_element_stable` in the proofs). -/
def HeaderParser.next_element {L : Lib} (q : HeaderParser L) : HeaderParser L × Bool := q.next_element_fuel (q.hstr.length + 2)

/-- The user's loop `while(parser.next_attribute()) …`: the attributes seen and the state in the end, for at most `fuel` calls. -/
def HeaderParser.attributes {L : Lib} : (fuel : Nat) → HeaderParser L → List (Bytes × Value L) × HeaderParser L
  | 0, q => ([], q)
  | fuel + 1, q => match q.next_attribute with
    | (q', false) => ([], q')
    | (q', true) => match attributes fuel q' with
      | (as, q'') => ((q'.name, q'.value) :: as, q'')

/-- The user's loops over all elements and their attributes: `while(next_element()) { … while(next_attribute()) … }`. -/
def HeaderParser.all {L : Lib} : (fuel : Nat) → HeaderParser L → List (List (Bytes × Value L)) × HeaderParser L
  | 0, q => ([], q)
  | fuel + 1, q => match q.next_element with
    | (q', false) => ([], q')
    | (q', true) =>
      let r := q'.attributes (q'.hstr.length + 2)
      let rs := all fuel r.2
      (((q'.name, q'.value) :: r.1) :: rs.1, rs.2)

end Verif.Http
