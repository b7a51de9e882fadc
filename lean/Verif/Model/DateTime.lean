import Verif.Base.Bytes
/-!
# Dates and times

Models `poseidon/src/base/datetime.cpp` and `timespec_from_system_time()` (utils.hpp:146-155).  The C library is modelled as far as it is used: `timegm`,
`gmtime_r` and `localtime_r` on the proleptic Gregorian calendar, for years from zero on; `strftime_l` and `strptime_l` in the C locale, for the
conversions that occur, as they are in the GNU C library.  `system_clock` counts nanoseconds in 64-bit signed integers.
-/
namespace Verif.DateTime

/-- `struct tm`, where `year` is the year itself, `mon` counts from zero, and `off` is `tm_gmtoff` -/
structure Tm where
  year : Nat := 0
  mon : Nat := 0
  mday : Nat := 0
  hour : Nat := 0
  min : Nat := 0
  sec : Nat := 0
  wday : Nat := 0
  off : Int := 0
deriving DecidableEq, Repr

/-! ## The calendar (C library) -/

def leap (y : Nat) : Bool := y % 4 = 0 ∧ (y % 100 ≠ 0 ∨ y % 400 = 0)

/-- Days before the first day of year `y`, since the first day of year zero. -/
def yearDays (y : Nat) : Nat := 365 * y + (y + 3) / 4 - (y + 99) / 100 + (y + 399) / 400

/-- Days before the first day of month `m` in a year. -/
def monthDays (lp : Bool) (m : Nat) : Nat :=
  let d := if lp then 1 else 0
  match m with
  | 0 => 0
  | 1 => 31
  | 2 => 59 + d
  | 3 => 90 + d
  | 4 => 120 + d
  | 5 => 151 + d
  | 6 => 181 + d
  | 7 => 212 + d
  | 8 => 243 + d
  | 9 => 273 + d
  | 10 => 304 + d
  | _ => 334 + d

/-- 1970-01-01 in seconds since 0000-01-01 -/
def epoch : Int := 62167219200

/-- `timegm()` -/
def timegm (tm : Tm) : Int :=
  ((yearDays tm.year + monthDays (leap tm.year) tm.mon + tm.mday : Nat) : Int) * 86400 - 86400 + ((tm.hour * 3600 + tm.min * 60 + tm.sec : Nat) : Int) - epoch

/-- The greatest year whose first day is not after day `n`, starting with year `y`. -/
def findYear (n : Nat) : (fuel y : Nat) → Nat
  | 0, y => y
  | k + 1, y => if yearDays (y + 1) ≤ n then findYear n k (y + 1) else y

/-- The month of a day of a year. -/
def findMonth (lp : Bool) (n : Nat) : (m : Nat) → Nat
  | 0 => 0
  | m + 1 => if monthDays lp (m + 1) ≤ n then m + 1 else findMonth lp n m

/-- What `gmtime_r()` and `localtime_r()` store for second `t`, with an offset from UTC. -/
def breakDown (t off : Int) : Tm :=
  let s := (t + off + epoch).toNat
  let n := s / 86400
  let y := findYear n (n + 1) (n / 366)
  let d := n - yearDays y
  let m := findMonth (leap y) d 11
  { year := y
    mon := m
    mday := d - monthDays (leap y) m + 1
    hour := s % 86400 / 3600
    min := s % 3600 / 60
    sec := s % 60
    wday := (n + 6) % 7
    off := off }

/-! ## `strftime_l()` and `strptime_l()` -/

def dig (n : Nat) : Byte := UInt8.ofNat (48 + n)
def isDigit (c : Byte) : Bool := 48 ≤ c ∧ c ≤ 57
def isSpace (c : Byte) : Bool := c = 32 ∨ (9 ≤ c ∧ c ≤ 13)

def pad2 (n : Nat) : Bytes := [dig (n / 10 % 10), dig (n % 10)]
def pad4 (n : Nat) : Bytes := [dig (n / 1000 % 10), dig (n / 100 % 10), dig (n / 10 % 10), dig (n % 10)]
def spad2 (n : Nat) : Bytes := if n < 10 then [chr ' ', dig n] else pad2 n

def dayNames : List Bytes := [b! "Sunday", b! "Monday", b! "Tuesday", b! "Wednesday", b! "Thursday", b! "Friday", b! "Saturday"]
def monthNames : List Bytes :=
  [b! "January", b! "February", b! "March", b! "April", b! "May", b! "June", b! "July", b! "August", b! "September", b! "October", b! "November", b! "December"]

/-- The parts of the format strings.  `%T` is `%H:%M:%S`. -/
inductive Dir where
  /-- an ordinary character -/
  | lit (c : Byte)
  /-- a space -/
  | space
  /-- `%a` -/
  | ab
  /-- `%A` -/
  | wd
  /-- `%d` -/
  | d
  /-- `%e` -/
  | e
  /-- `%b` -/
  | b
  /-- `%m` -/
  | m
  /-- `%Y` -/
  | Y
  /-- `%y` -/
  | y
  | H
  | M
  | S
  /-- `%z` -/
  | z
deriving DecidableEq, Repr

/-- `%z` -/
def printZone (off : Int) : Bytes := (if off < 0 then chr '-' else chr '+') :: (pad2 (off.natAbs / 60 / 60) ++ pad2 (off.natAbs / 60 % 60))

def print1 (tm : Tm) : Dir → Bytes
  | .lit c => [c]
  | .space => [chr ' ']
  | .ab => (dayNames[tm.wday]?.getD []).take 3
  | .wd => dayNames[tm.wday]?.getD []
  | .d => pad2 tm.mday
  | .e => spad2 tm.mday
  | .b => (monthNames[tm.mon]?.getD []).take 3
  | .m => pad2 (tm.mon + 1)
  | .Y => pad4 tm.year
  | .y => pad2 (tm.year % 100)
  | .H => pad2 tm.hour
  | .M => pad2 tm.min
  | .S => pad2 tm.sec
  | .z => printZone tm.off

/-- `strftime_l()` -/
def strftime (fmt : List Dir) (tm : Tm) : Bytes := fmt.flatMap (print1 tm)

/-- The digits after the first one, in `get_number` -/
def moreDigits (hi : Nat) : (n v : Nat) → Bytes → Nat × Bytes
  | 0, v, s => (v, s)
  | _ + 1, v, [] => (v, [])
  | n + 1, v, c :: s => if v * 10 ≤ hi ∧ isDigit c then moreDigits hi n (v * 10 + (c.toNat - 48)) s else (v, c :: s)

/-- `get_number(lo, hi, n + 1)` -/
def getNumber (lo hi n : Nat) (s : Bytes) : Option (Nat × Bytes) :=
  match s.dropWhile fun c => c == 32 with
  | [] => none
  | c :: s =>
    if isDigit c then
      let r := moreDigits hi n (c.toNat - 48) s
      if lo ≤ r.1 ∧ r.1 ≤ hi then some r else none
    else none

def lower (c : Byte) : Byte := if 65 ≤ c ∧ c ≤ 90 then c + 32 else c

/-- `match_string` -/
def matchString : Bytes → Bytes → Option Bytes
  | [], s => some s
  | _ :: _, [] => none
  | a :: as, c :: s => if lower a = lower c then matchString as s else none

/-- The index of the name that the text begins with, in full or abbreviated -/
def matchName (s : Bytes) : List Bytes → Option (Nat × Bytes)
  | [] => none
  | nm :: nms =>
    match matchString nm s with
    | some r => some (0, r)
    | none =>
      match matchString (nm.take 3) s with
      | some r => some (0, r)
      | none => (matchName s nms).map fun r => (r.1 + 1, r.2)

/-- The digits of `%z` -/
def zoneDigits : (n v : Nat) → Bytes → Nat × Nat × Bytes
  | 0, v, s => (4, v, s)
  | n + 1, v, c :: s =>
    if isDigit c then
      let v := v * 10 + (c.toNat - 48)
      match s with
      | a :: b :: s' => if a = chr ':' ∧ n = 2 ∧ isDigit b then zoneDigits n v (b :: s') else zoneDigits n v (a :: b :: s')
      | s => zoneDigits n v s
    else (3 - n, v, c :: s)
  | n + 1, v, [] => (3 - n, v, [])

/-- `%z` -/
def parseZone (s : Bytes) : Option (Int × Bytes) :=
  match s.dropWhile isSpace with
  | [] => none
  | c :: s =>
    if c = chr 'Z' then some (0, s)
    else if c = chr '+' ∨ c = chr '-' then
      let (n, v, r) := zoneDigits 4 0 s
      let v := if n = 2 then v * 100 else v
      if n ≠ 2 ∧ n ≠ 4 then none
      else if v % 100 ≥ 60 then none
      else
        let off : Int := ((v / 100 * 3600 + v % 100 * 60 : Nat) : Int)
        some (if c = chr '-' then -off else off, r)
    else none

def parse1 (tm : Tm) (s : Bytes) : Dir → Option (Tm × Bytes)
  | .lit c =>
    match s with
    | [] => none
    | x :: s => if x = c then some (tm, s) else none
  | .space => some (tm, s.dropWhile isSpace)
  | .ab | .wd => (matchName s dayNames).map fun r => ({ tm with wday := r.1 }, r.2)
  | .d | .e => (getNumber 1 31 1 s).map fun r => ({ tm with mday := r.1 }, r.2)
  | .b => (matchName s monthNames).map fun r => ({ tm with mon := r.1 }, r.2)
  | .m => (getNumber 1 12 1 s).map fun r => ({ tm with mon := r.1 - 1 }, r.2)
  | .Y => (getNumber 0 9999 3 s).map fun r => ({ tm with year := r.1 }, r.2)
  | .y => (getNumber 0 99 1 s).map fun r => ({ tm with year := if r.1 ≥ 69 then r.1 + 1900 else r.1 + 2000 }, r.2)
  | .H => (getNumber 0 23 1 s).map fun r => ({ tm with hour := r.1 }, r.2)
  | .M => (getNumber 0 59 1 s).map fun r => ({ tm with min := r.1 }, r.2)
  | .S => (getNumber 0 61 1 s).map fun r => ({ tm with sec := r.1 }, r.2)
  | .z => (parseZone s).map fun r => ({ tm with off := r.1 }, r.2)

/-- `strptime_l()` -/
def strptime : List Dir → Bytes → Tm → Option (Tm × Bytes)
  | [], s, tm => some (tm, s)
  | f :: fs, s, tm =>
    match parse1 tm s f with
    | none => none
    | some (tm, s) => strptime fs s tm

/-! ## The code -/

def hms : List Dir := [.H, .lit (chr ':'), .M, .lit (chr ':'), .S]
def gmt : List Dir := [.space, .lit (chr 'G'), .lit (chr 'M'), .lit (chr 'T')]

/-- `"%a, %d %b %Y %T GMT"`.  (datetime.cpp:27, 166) -/
def rfc1123 : List Dir := [.ab, .lit (chr ','), .space, .d, .space, .b, .space, .Y, .space] ++ hms ++ gmt
/-- `"%A, %d-%b-%y %T GMT"`.  (datetime.cpp:47, 184) -/
def rfc850 : List Dir := [.wd, .lit (chr ','), .space, .d, .lit (chr '-'), .b, .lit (chr '-'), .y, .space] ++ hms ++ gmt
/-- `"%a %b %e %T %Y"`.  (datetime.cpp:67, 202) -/
def asctime : List Dir := [.ab, .space, .b, .space, .e, .space] ++ hms ++ [.space, .Y]
/-- `"%a, %d-%b-%Y %T GMT"`.  (datetime.cpp:87, 220) -/
def cookie : List Dir := [.ab, .lit (chr ','), .space, .d, .lit (chr '-'), .b, .lit (chr '-'), .Y, .space] ++ hms ++ gmt
/-- `"%Y-%m-%d %T"`.  (datetime.cpp:107) -/
def gitLocal : List Dir := [.Y, .lit (chr '-'), .m, .lit (chr '-'), .d, .space] ++ hms
/-- `"%Y-%m-%d %T %z"`.  (datetime.cpp:238) -/
def git : List Dir := gitLocal ++ [.space, .z]

/-- What a parser does; `n` is the number of characters that it returns, which are zero on failure. -/
inductive Res where
  | fail
  /-- the time does not fit into `system_clock::time_point`: signed overflow, which is undefined behavior -/
  | overflow
  /-- nanoseconds since the epoch, and the number of characters that have been accepted -/
  | ok (ns : Int) (n : Nat)
deriving DecidableEq, Repr

/-- `system_clock::from_time_t()` -/
def fromTimeT (t : Int) (n : Nat) : Res :=
  if -9223372036854775808 ≤ t * 1000000000 ∧ t * 1000000000 ≤ 9223372036854775807 then .ok (t * 1000000000) n else .overflow

/-- The part that four of the parsers have in common: `len` characters are copied, and all of them have to be matched.  `str` is everything up to the null
terminator.  (datetime.cpp:17-36, 37-56, 57-76, 77-96) -/
def parseUtc (fmt : List Dir) (len : Nat) (str : Bytes) : Res :=
  match strptime fmt (str.take len) {} with
  | some (tm, []) => fromTimeT (timegm tm) (str.take len).length
  | _ => .fail

def parse_rfc1123_partial (str : Bytes) : Res := parseUtc rfc1123 29 str
def parse_rfc850_partial (str : Bytes) : Res := parseUtc rfc850 33 str
def parse_asctime_partial (str : Bytes) : Res := parseUtc asctime 24 str
def parse_cookie_partial (str : Bytes) : Res := parseUtc cookie 29 str

/-- `mktime` is the function of the C library, which depends on the local time zone.  (datetime.cpp:97-128) -/
def parse_git_partial (mktime : Tm → Int) (str : Bytes) : Res :=
  match strptime gitLocal (str.take 25) {} with
  | none => .fail
  | some (tm, []) => fromTimeT (mktime tm) (str.take 25).length
  | some (tm, r) =>
    match strptime [.z] r tm with
    | some (tm, []) => fromTimeT (timegm tm - tm.off) (str.take 25).length
    | _ => .fail

/-- A parser that returns zero is followed by the next one. -/
def orElse (a : Res) (b : Res) : Res :=
  match a with
  | .fail => b
  | .ok _ 0 => b
  | r => r

/-- `parse()` of a string of `n` characters, where `str` is everything from its start up to a null terminator.  (datetime.cpp:130-158) -/
def parse (mktime : Tm → Int) (n : Nat) (str : Bytes) : Res :=
  orElse (if n ≥ 29 then parse_rfc1123_partial str else .fail) <|
  orElse (if n ≥ 30 then parse_rfc850_partial str else .fail) <|
  orElse (if n ≥ 24 then parse_asctime_partial str else .fail) <|
  orElse (if n ≥ 29 then parse_cookie_partial str else .fail) <|
  orElse (if n ≥ 19 then parse_git_partial mktime str else .fail) .fail

/-- The constructor, which throws unless the whole string has been parsed; `parse()` returns zero if it fails.  (datetime.cpp:10-15, 156-158) -/
def construct (mktime : Tm → Int) (n : Nat) (str : Bytes) : Option Res :=
  match parse mktime n str with
  | .overflow => some .overflow
  | .ok ns k => if k ≠ n then none else some (.ok ns k)
  | .fail => if 0 ≠ n then none else some .fail

/-- `timespec_from_system_time()`, where the addition is modulo 2^64.  (utils.hpp:146-155) -/
def seconds (ns : Int) : Int := (ns + 9223372036000000000) % 18446744073709551616 / 1000000000 - 9223372036

/-- `clamp_cast<::time_t>()`.  (datetime.cpp:164) -/
def clamp (t : Int) : Int := if t < -2208988800 then -2208988800 else if 253402300799 < t then 253402300799 else t

/-- (datetime.cpp:160-231) -/
def printUtc (fmt : List Dir) (ns : Int) : Bytes := strftime fmt (breakDown (clamp (seconds ns)) 0)

def print_rfc1123_partial (ns : Int) : Bytes := printUtc rfc1123 ns
def print_rfc850_partial (ns : Int) : Bytes := printUtc rfc850 ns
def print_asctime_partial (ns : Int) : Bytes := printUtc asctime ns
def print_cookie_partial (ns : Int) : Bytes := printUtc cookie ns

/-- `zone` gives the offset of the local time zone from UTC at each second.  (datetime.cpp:232-247) -/
def print_git_partial (zone : Int → Int) (ns : Int) : Bytes :=
  let t := clamp (seconds ns)
  strftime git (breakDown t (zone t))

end Verif.DateTime
