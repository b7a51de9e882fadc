import Verif.Model.DateTime
/-!
# MySQL values

Models `poseidon/src/mysql/mysql_value.cpp` and the conversion of date-times in `poseidon/src/mysql/mysql_connection.cpp`.  How numbers are printed is not modelled.
-/
namespace Verif.Mysql

/-- Characters that are escaped.  (mysql_value.cpp:45) -/
def special (c : Byte) : Bool := c = chr '\'' || c = chr '"' || c = chr '\\'

/-- `cow_string::find_of(pos, set)`: the first position, not before `pos`, of a character in the set; `none` is `npos`. -/
def findOf (str : Bytes) (pos : Nat) : Option Nat := ((str.drop pos).findIdx? special).map (pos + ·)

/-- The loop, where `start` is `next + 1`.  Each turn has a greater `start`, so `fuel` is the length of the string.  (mysql_value.cpp:43-50) -/
def blobLoop (str : Bytes) : (fuel base start : Nat) → (fmt : Bytes) → Bytes
  | 0, base, _, fmt => fmt ++ str.drop base
  | k + 1, base, start, fmt =>
    match findOf str start with
    | none => fmt ++ str.drop base
    | some next => blobLoop str k next (next + 1) (fmt ++ (str.drop base).take (next - base) ++ [chr '\\'])

/-- A blob.  (mysql_value.cpp:39-53) -/
def printBlob (str fmt : Bytes) : Bytes := blobLoop str str.length 0 0 (fmt ++ [chr '\'']) ++ [chr '\'']

/-- A date-time: the first nineteen characters of what `print_git_partial()` writes.  (mysql_value.cpp:55-64) -/
def printTime (zone : Int → Int) (ns : Int) (fmt : Bytes) : Bytes :=
  let temp := chr '\'' :: DateTime.print_git_partial zone ns
  fmt ++ (temp.take 20 ++ [chr '\''])

/-- `::MYSQL_TIME` -/
structure Time where
  year : Nat
  month : Nat
  day : Nat
  hour : Nat
  minute : Nat
  second : Nat
  secondPart : Nat
deriving DecidableEq, Repr

/-- `tv_nsec` after `timespec_from_system_time()`.  (utils.hpp:152-154) -/
def nanos (ns : Int) : Nat := ((ns + 9223372036000000000) % 18446744073709551616 % 1000000000).toNat

/-- How a date-time is bound to a parameter.  `zone` gives the offset of local time at each second; the cast to 32 bits is modulo 2^32.  (mysql_connection.cpp:142-157) -/
def bindTime (zone : Int → Int) (ns : Int) : Time :=
  let sec := DateTime.seconds ns
  let tm := DateTime.breakDown sec (zone sec)
  { year := tm.year
    month := tm.mon + 1
    day := tm.mday
    hour := tm.hour
    minute := tm.min
    second := tm.sec
    secondPart := nanos ns / 1000000 * 1000 + ((54000 + tm.off) % 4294967296).toNat / 1800 }

/-- How a date-time is decoded from a row.  `tm_isdst` has not been initialized (mysql_connection.cpp:271, 342-350): `isdst` is whatever is there.  `timelocal` takes the time and
`tm_isdst`; `timegm` ignores the latter.  (mysql_connection.cpp:341-359) -/
def fetchTime (timelocal : DateTime.Tm → Int → Int) (isdst : Int) (t : Time) : DateTime.Res :=
  let tm : DateTime.Tm := { year := t.year, mon := t.month - 1, mday := t.day, hour := t.hour, min := t.minute, sec := t.second }
  let nsec := t.secondPart / 1000 * 1000000
  let sec := if t.secondPart % 100 = 0 then timelocal tm isdst else DateTime.timegm tm - ((t.secondPart % 100 * 1800 : Nat) - 54000)
  let ns := sec * 1000000000 + nsec
  if -9223372036854775808 ≤ sec * 1000000000 ∧ sec * 1000000000 ≤ 9223372036854775807 ∧ ns ≤ 9223372036854775807 then .ok ns 0 else .overflow

end Verif.Mysql
