import Verif.Model.HttpValue
/-!
# The fields of an HTTP value

`Model/HttpValue.lean` has an HTTP value as what its flags say.  Here are the fields that the object really has, and the functions which change
them, so that values which are assigned again and again can be spoken about.  (http_value.hpp, http_value.cpp)
-/
namespace Verif.HttpStore
open Verif.Http

/-- What conversions between fields take from the compiler, the processor and `DateTime::parse`. -/
structure Conv (L : Lib) where
  /-- `0.0` -/
  zero : L.D
  /-- `static_cast<double>`.  (http_value.cpp:61) -/
  of_int : Int → L.D
  /-- `_mm_cvtsd_si64`: the result, and whether no exception has been raised.  (http_value.cpp:73-75) -/
  to_int : L.D → Int × Bool
  /-- What `DateTime::parse` leaves in an object, if it returns zero; the comment in datetime.hpp says that it is unspecified. -/
  dt_left : Bytes → Int → Int

/-- `HTTP_Value`: the fields, and the four bits of `m_vm`.  (http_value.hpp:13-27) -/
structure Store (L : Lib) where
  str : Bytes
  int : Int
  dbl : L.D
  dt : Int
  vstr : Bool
  vint : Bool
  vdbl : Bool
  vdt : Bool

variable {L : Lib} (C : Conv L)

/-- `HTTP_Value()`, and also `clear()`.  (http_value.hpp:22-26, 36-39, 217-227) -/
def clear : Store L := ⟨[], 0, C.zero, 0, false, false, false, false⟩

/-- `do_update_variants()`, from the integer.  (http_value.cpp:54-65) -/
def from_int (v : Store L) : Store L :=
  { v with str := L.print_I v.int, dbl := C.of_int v.int, dt := 0, vstr := true, vint := true, vdbl := true, vdt := false }

/-- `do_update_variants()`, from the double.  (http_value.cpp:66-79) -/
def from_dbl (v : Store L) : Store L :=
  { v with str := L.print_D v.dbl, int := (C.to_int v.dbl).1, dt := 0, vstr := true, vint := (C.to_int v.dbl).2, vdbl := true, vdt := false }

/-- `do_update_variants()`, from the date-time.  (http_value.cpp:80-89) -/
def from_dt (v : Store L) : Store L :=
  { v with str := L.dt_print v.dt, int := 0, dbl := C.zero, vstr := true, vint := false, vdbl := false, vdt := true }

/-- `do_update_variants()`, from the string: a field is written only if the text can be parsed.  (http_value.cpp:90-112) -/
def from_str (v : Store L) : Store L :=
  let v := { v with vstr := true, vint := false, vdbl := false, vdt := false }
  let sv := trim v.str
  if sv = [] then v
  else
    let v := match L.parse_I sv with
      | some i => { v with int := i, vint := true }
      | none => v
    let v := match L.parse_D sv with
      | some d => { v with dbl := d, vdbl := true }
      | none => v
    match L.dt_parse sv with
    | some (t, n) => { v with dt := t, vdt := decide (n = sv.length) }
    | none => { v with dt := C.dt_left sv v.dt }

/-- `do_update_variants()`.  (http_value.cpp:50-113) -/
def update (v : Store L) : Store L :=
  if v.vint then from_int C v
  else if v.vdbl then from_dbl C v
  else if v.vdt then from_dt C v
  else if v.vstr then from_str C v
  else v

/-- What a user may do with a value. -/
inductive Op (L : Lib)
  /-- `v = str`, `v.set(str, len)`.  (http_value.hpp:48-68, 80-89, 285-292) -/
  | str (s : Bytes)
  /-- `v = num` with an integer.  (http_value.hpp:99-107, 117-125, 135-143) -/
  | int (i : Int)
  /-- `v = num` with a `double`.  (http_value.hpp:153-161) -/
  | dbl (d : L.D)
  /-- `v = dt` with a `DateTime`, `v = tm` with a `system_time`.  (http_value.hpp:171-179, 189-197) -/
  | dt (t : Int)
  /-- `v.clear()`.  (http_value.hpp:217-227) -/
  | clear
  /-- `v.parse_quoted_string_partial(s)`, `v.parse_datetime_partial(s)`, `v.parse_token_partial(s)`, `v.parse_unquoted_partial(s)`, `v.parse(s)` -/
  | quoted (s : Bytes)
  | datetime (s : Bytes)
  | token (s : Bytes)
  | unquoted (s : Bytes)
  | parse (s : Bytes)

/-- Set the flag of the string only, and update.  (http_value.cpp:143-144) -/
def set_str (v : Store L) (s : Bytes) : Store L := update C { v with str := s, vstr := true, vint := false, vdbl := false, vdt := false }

/-- The text that `parse_quoted_string_partial` has collected when there is no closing quote.  (http_value.cpp:126-142) -/
def quoted_left : (s : Bytes) → (plain : Bool) → (acc : Bytes) → Bytes
  | [], _, acc => acc
  | c :: t, plain, acc =>
    if c = chr '"' ∧ plain = true then acc
    else if c ≠ chr '\\' ∨ plain = false then quoted_left t true (acc ++ [c])
    else quoted_left t false acc

/-- `parse_quoted_string_partial(str)`.  (http_value.cpp:115-147) -/
def quoted (str : Bytes) : Store L × Nat :=
  match str with
  | c :: t =>
    if c = chr '"' ∧ t ≠ [] then
      match quoted_loop t true [] with
      | some (text, rest) => (set_str C (clear C) text, str.length - rest.length)
      | none => ({ clear C with str := quoted_left t true [] }, 0)
    else (clear C, 0)
  | [] => (clear C, 0)

/-- `parse_datetime_partial(str)`.  (http_value.cpp:149-164) -/
def datetime (str : Bytes) : Store L × Nat :=
  match L.dt_parse str with
  | none => ({ clear C with dt := C.dt_left str 0 }, 0)
  | some (t, n) => if n = 0 then ({ clear C with dt := t }, 0) else ({ clear C with str := str.take n, dt := t, vdt := true }, n)

/-- `parse_token_partial(str)`.  (http_value.cpp:166-180) -/
def token (str : Bytes) : Store L × Nat :=
  let tok := str.takeWhile (fun c => !is_ctl_or_sep c)
  if tok = [] then (clear C, 0) else (set_str C (clear C) tok, tok.length)

/-- `parse_unquoted_partial(str)`.  (http_value.cpp:182-196) -/
def unquoted (str : Bytes) : Store L × Nat :=
  let tok := str.takeWhile (fun c => !is_ctl_or_unquoted_sep c)
  if tok = [] then (clear C, 0) else (set_str C (clear C) tok, tok.length)

/-- `parse(str)`.  (http_value.cpp:198-218) -/
def parse (v : Store L) (str : Bytes) : Store L × Nat :=
  if str = [] then (v, 0)
  else
    let q := if str.head? = some (chr '"') then quoted C str else (v, 0)
    if q.2 ≠ 0 then q
    else
      let d := datetime C str
      if d.2 ≠ 0 then d
      else unquoted C str

/-- One call: the value after it, and the result, which is zero where there is none. -/
def step (v : Store L) : Op L → Store L × Nat
  | .str s => (set_str C v s, 0)
  | .int i => (update C { v with int := i, vstr := false, vint := true, vdbl := false, vdt := false }, 0)
  | .dbl d => (update C { v with dbl := d, vstr := false, vint := false, vdbl := true, vdt := false }, 0)
  | .dt t => (update C { v with dt := t, vstr := false, vint := false, vdbl := false, vdt := true }, 0)
  | .clear => (clear C, 0)
  | .quoted s => quoted C s
  | .datetime s => datetime C s
  | .token s => token C s
  | .unquoted s => unquoted C s
  | .parse s => parse C v s

/-- A history of calls. -/
def run (v : Store L) : List (Op L) → Store L
  | [] => v
  | o :: os => run (step C v o).1 os

/-- `print_to(fmt)`.  (http_value.cpp:220-270) -/
def print (v : Store L) : Bytes :=
  if v.vint then L.print_I v.int
  else if v.vdbl then L.print_D v.dbl
  else if v.vdt then L.dt_print v.dt
  else if v.str.any is_ctl_or_sep then chr '"' :: quote_loop v.str false ++ [chr '"'] else v.str

/-- `lhs.swap(rhs)`.  (http_value.hpp:199-209) -/
def swap (a b : Store L) : Store L × Store L :=
  ({ str := b.str, int := b.int, dbl := b.dbl, dt := b.dt, vstr := b.vstr, vint := b.vint, vdbl := b.vdbl, vdt := b.vdt },
   { str := a.str, int := a.int, dbl := a.dbl, dt := a.dt, vstr := a.vstr, vint := a.vint, vdbl := a.vdbl, vdt := a.vdt })

/-- What the accessors return: `is_null()`, `as_string()`, `is_integer()`, `as_integer()`, `is_double()`, `as_double()`, `is_datetime()`,
`as_datetime()` and `to_string()`.  (http_value.hpp:229-283, http_value.cpp:272-281) -/
structure View (D : Type) where
  is_null : Bool
  as_string : Bytes
  is_integer : Bool
  as_integer : Int
  is_double : Bool
  as_double : D
  is_datetime : Bool
  as_datetime : Int
  to_string : Bytes

def view (v : Store L) : View L.D := ⟨!v.vstr, v.str, v.vint, v.int, v.vdbl, v.dbl, v.vdt, v.dt, print v⟩

end Verif.HttpStore
