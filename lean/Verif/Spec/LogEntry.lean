import Verif.Model.LogEntry
/-!
# Specification of log entries
-/
namespace Verif.Log

def isCtl (c : Byte) : Bool := c < 0x20 ∨ c = 0x7F

/-- No control characters occur, except tabs, and `ESC` before `E`, or before `[` if colors are enabled. -/
def clean (colored : Bool) : Bytes → Bool
  | [] => true
  | c :: t =>
    (if c = esc then match t with
      | d :: _ => d == chr 'E' || (colored && d == chr '[')
      | [] => false
    else !isCtl c || c == tab) && clean colored t

/-- No control characters at all. -/
def plain (s : Bytes) : Bool := s.all fun c => !isCtl c

/-- What comes from the program rather than from the message is plain. -/
structure Plain (l : Level) (m : Msg) : Prop where
  tag : plain l.tag = true
  color : plain l.color = true
  name : plain m.name = true
  func : plain m.func = true
  file : plain m.file = true

/-- `n` as exactly `w` decimal digits. -/
def fixed (w n : Nat) : Bytes := (List.range w).map fun i => (b! "0123456789").getD (n / 10 ^ (w - 1 - i) % 10) 0

/-- A byte as `\\x` and two hexadecimal digits. -/
def hex2 (c : Byte) : Bytes := b! "\\x" ++ [(b! "0123456789ABCDEF").getD (c.toNat / 16) 0, (b! "0123456789ABCDEF").getD (c.toNat % 16) 0]

/-- How a byte of the message is shown: a line feed as the new-line sequence and a tab; the control characters that have names in C by those; other control characters, and bytes that are not in any
UTF-8 text, by number. -/
def shown (c : Byte) : Bytes :=
  if c = chr '\n' then 0x1B :: b! "E\t"
  else if c = chr '\t' then b! "\t"
  else if c = 0 then b! "\\0"
  else if c = 7 then b! "\\a"
  else if c = 8 then b! "\\b"
  else if c = 11 then b! "\\v"
  else if c = 12 then b! "\\f"
  else if c = 13 then b! "\\r"
  else if isCtl c ∨ c ∈ [0xC0, 0xC1] ∨ 0xF5 ≤ c then hex2 c
  else [c]

/-- What a terminal shows without colors: `ESC [`, and what follows, until `m`, are removed. -/
def uncolor : Bool → Bytes → Bytes
  | _, [] => []
  | true, c :: t => uncolor (c != chr 'm') t
  | false, c :: t => if c = 0x1B ∧ t.head? = some (chr '[') then uncolor true t else c :: uncolor false t

/-- The fields of the time are within their ranges. -/
structure Time.Ok (t : Time) : Prop where
  year : t.year < 10000
  mon : t.mon < 100
  mday : t.mday < 100
  hour : t.hour < 100
  min : t.min < 100
  sec : t.sec < 100
  nsec : t.nsec < 1000000000

end Verif.Log
