import Verif.Model.DateTime
/-!
# The Gregorian calendar, day by day
-/
namespace Verif.DateTime

structure Date where
  year : Nat
  /-- from 1 to 12 -/
  month : Nat
  day : Nat
deriving DecidableEq, Repr

/-- How many days a month has. -/
def daysIn (year month : Nat) : Nat :=
  if month = 2 then (if year % 4 = 0 ∧ (year % 100 ≠ 0 ∨ year % 400 = 0) then 29 else 28)
  else if month = 4 ∨ month = 6 ∨ month = 9 ∨ month = 11 then 30
  else 31

/-- The next day. -/
def Date.next (d : Date) : Date :=
  if d.day < daysIn d.year d.month then { d with day := d.day + 1 }
  else if d.month < 12 then ⟨d.year, d.month + 1, 1⟩
  else ⟨d.year + 1, 1, 1⟩

def Date.valid (d : Date) : Prop := 1 ≤ d.month ∧ d.month ≤ 12 ∧ 1 ≤ d.day ∧ d.day ≤ daysIn d.year d.month

def Tm.date (tm : Tm) : Date := ⟨tm.year, tm.mon + 1, tm.mday⟩

/-- The texts that the documentation gives for 1994-11-06 08:49:37 UTC. -/
def samples : List Bytes :=
  [b! "Sun, 06 Nov 1994 08:49:37 GMT", b! "Sunday, 06-Nov-94 08:49:37 GMT", b! "Sun Nov  6 08:49:37 1994", b! "Sun, 06-Nov-1994 08:49:37 GMT", b! "1994-11-06 16:49:37 +0800"]

/-- The last two digits, and the last four digits of a number. -/
def last2 (n : Nat) : Bytes := [UInt8.ofNat (48 + n / 10 % 10), UInt8.ofNat (48 + n % 10)]
def last4 (n : Nat) : Bytes := [UInt8.ofNat (48 + n / 1000 % 10), UInt8.ofNat (48 + n / 100 % 10), UInt8.ofNat (48 + n / 10 % 10), UInt8.ofNat (48 + n % 10)]

/-- Days of the week, from 0 for Sunday on. -/
def weekday : Nat → Bytes
  | 0 => b! "Sunday"
  | 1 => b! "Monday"
  | 2 => b! "Tuesday"
  | 3 => b! "Wednesday"
  | 4 => b! "Thursday"
  | 5 => b! "Friday"
  | 6 => b! "Saturday"
  | _ => []

/-- Months, from 1 on, abbreviated. -/
def month3 : Nat → Bytes
  | 1 => b! "Jan"
  | 2 => b! "Feb"
  | 3 => b! "Mar"
  | 4 => b! "Apr"
  | 5 => b! "May"
  | 6 => b! "Jun"
  | 7 => b! "Jul"
  | 8 => b! "Aug"
  | 9 => b! "Sep"
  | 10 => b! "Oct"
  | 11 => b! "Nov"
  | 12 => b! "Dec"
  | _ => []

/-- `hh:mm:ss` -/
def clockText (tm : Tm) : Bytes := last2 tm.hour ++ b! ":" ++ last2 tm.min ++ b! ":" ++ last2 tm.sec

/-- The formats of RFC 9110, of cookies, and of Git. -/
def rfc1123Text (tm : Tm) : Bytes :=
  (weekday tm.wday).take 3 ++ b! ", " ++ last2 tm.date.day ++ b! " " ++ month3 tm.date.month ++ b! " " ++ last4 tm.date.year ++ b! " " ++ clockText tm ++ b! " GMT"
def rfc850Text (tm : Tm) : Bytes :=
  weekday tm.wday ++ b! ", " ++ last2 tm.date.day ++ b! "-" ++ month3 tm.date.month ++ b! "-" ++ last2 tm.date.year ++ b! " " ++ clockText tm ++ b! " GMT"
def asctimeText (tm : Tm) : Bytes :=
  (weekday tm.wday).take 3 ++ b! " " ++ month3 tm.date.month ++ b! " " ++ (if tm.date.day < 10 then b! " " ++ [UInt8.ofNat (48 + tm.date.day)] else last2 tm.date.day) ++ b! " " ++ clockText tm ++
    b! " " ++ last4 tm.date.year
def cookieText (tm : Tm) : Bytes :=
  (weekday tm.wday).take 3 ++ b! ", " ++ last2 tm.date.day ++ b! "-" ++ month3 tm.date.month ++ b! "-" ++ last4 tm.date.year ++ b! " " ++ clockText tm ++ b! " GMT"
/-- The zone is so many minutes ahead of UTC. -/
def gitText (tm : Tm) (minutes : Int) : Bytes :=
  last4 tm.date.year ++ b! "-" ++ last2 tm.date.month ++ b! "-" ++ last2 tm.date.day ++ b! " " ++ clockText tm ++ (if minutes < 0 then b! " -" else b! " +") ++
    last2 (minutes.natAbs / 60) ++ last2 (minutes.natAbs % 60)

end Verif.DateTime
