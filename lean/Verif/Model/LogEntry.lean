import Verif.Model.Http
/-!
# The text of a log entry

Models `do_write_nothrow()` up to where the text is written to files, and `do_color()` (logger.cpp:33-181).  The local time is a parameter.  C strings are
byte strings without null characters; `put_DU(n, w)` gives at least `w` decimal digits.
-/
namespace Verif.Log

def esc : Byte := 0x1B
def tab : Byte := chr '\t'
def lf : Byte := chr '\n'

/-- `NEL_HT_`.  (logger.cpp:33) -/
def nelHt : Bytes := [esc, chr 'E', tab]

def upperHex (n : Nat) : Byte := if n < 10 then UInt8.ofNat (48 + n) else UInt8.ofNat (55 + n)

/-- `\xNN` -/
def hexEscape (c : Byte) : Bytes := [chr '\\', chr 'x', upperHex (c.toNat / 16), upperHex (c.toNat % 16)]

/-- `s_escapes`, whose rows are given by cases.  (logger.cpp:35-69) -/
def escapes (c : Byte) : Bytes :=
  if c = 0x00 then [chr '\\', chr '0']
  else if c = 0x07 then [chr '\\', chr 'a']
  else if c = 0x08 then [chr '\\', chr 'b']
  else if c = 0x09 then [tab]
  else if c = 0x0A then nelHt
  else if c = 0x0B then [chr '\\', chr 'v']
  else if c = 0x0C then [chr '\\', chr 'f']
  else if c = 0x0D then [chr '\\', chr 'r']
  else if c < 0x20 ∨ c = 0x7F ∨ c = 0xC0 ∨ c = 0xC1 ∨ 0xF5 ≤ c then hexEscape c
  else [c]

/-- `Level_Config` -/
structure Level where
  tag : Bytes
  /-- empty if colors are disabled -/
  color : Bytes

/-- `struct tm` and the nanoseconds -/
structure Time where
  year : Nat
  mon : Nat
  mday : Nat
  hour : Nat
  min : Nat
  sec : Nat
  nsec : Nat

/-- `Message` -/
structure Msg where
  text : Bytes
  lwpid : Nat
  name : Bytes
  func : Bytes
  file : Bytes
  line : Nat

/-- `do_color()`.  (logger.cpp:71-82) -/
def color (l : Level) (code : Bytes) : Bytes := if l.color = [] then [] else [esc, chr '['] ++ code ++ [chr 'm']

/-- `nump.put_DU(n, w)`, of which `w` characters are used. -/
def padded (w n : Nat) : Bytes := (List.replicate (w - (Http.decimal n).length) (chr '0') ++ Http.decimal n).take w

/-- The timestamp and the tag.  (logger.cpp:98-128) -/
def head (l : Level) (t : Time) : Bytes :=
  color l l.color ++ padded 4 t.year ++ b! "-" ++ padded 2 t.mon ++ b! "-" ++ padded 2 t.mday ++ b! " " ++ padded 2 t.hour ++ b! ":" ++ padded 2 t.min ++ b! ":" ++
    padded 2 t.sec ++ b! "." ++ padded 9 t.nsec ++ b! " " ++ color l (b! "22;7") ++ l.tag ++ color l (b! "0") ++ b! " " ++ color l (b! "0") ++ color l l.color

/-- The replacement of one character.  (logger.cpp:131-144) -/
def char (l : Level) (c : Byte) : Bytes :=
  match escapes c with
  | [] => []
  | d :: seq =>
    if d ≠ chr '\\' then d :: seq
    else if seq = [] then [d]
    else color l (b! "7") ++ (d :: seq) ++ color l (b! "27")

def isSpace (c : Byte) : Bool := c = chr ' ' ∨ c = tab ∨ c = chr '\r' ∨ c = lf

/-- Remove trailing space characters.  (logger.cpp:147-149) -/
def rtrim (s : Bytes) : Bytes := (s.reverse.dropWhile isSpace).reverse

/-- The thread and the source location.  (logger.cpp:151-178) -/
def foot (l : Level) (m : Msg) : Bytes :=
  color l (b! "0") ++ nelHt ++ color l (b! "90") ++ b! "@@ thread " ++ Http.decimal m.lwpid ++ b! " [" ++ m.name ++ b! "] " ++ color l (b! "34") ++
    b! "inside function `" ++ m.func ++ b! "` at '" ++ m.file ++ b! ":" ++ Http.decimal m.line ++ (b! "'" ++ nelHt).dropLast ++ color l (b! "0") ++ [lf]

/-- The text that is written.  (logger.cpp:89-178) -/
def entry (l : Level) (t : Time) (m : Msg) : Bytes := rtrim (head l t ++ m.text.flatMap (char l)) ++ foot l m

end Verif.Log
