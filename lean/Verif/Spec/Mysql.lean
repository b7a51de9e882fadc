import Verif.Base.Bytes
import Verif.Model.Mysql
/-!
# MySQL string literals

From the MySQL manual, section String Literals, with the default SQL mode (backslashes are escapes) and a character set in which the bytes of quotes and backslashes do not occur
in other characters, such as `utf8mb4`.
-/
namespace Verif.Mysql

/-- What a backslash and a character denote.  `\%` and `\_` denote themselves with the backslash. -/
def unescape (c : Byte) : Bytes :=
  if c = chr '0' then [0]
  else if c = chr 'b' then [8]
  else if c = chr 'n' then [10]
  else if c = chr 'r' then [13]
  else if c = chr 't' then [9]
  else if c = chr 'Z' then [26]
  else if c = chr '%' ∨ c = chr '_' then [chr '\\', c]
  else [c]

/-- Reads what follows the opening quote: the string that is denoted, and what comes after the closing quote.  Two quotes denote one. -/
def readString : Bytes → Option (Bytes × Bytes)
  | [] => none
  | c :: s =>
    if c = chr '\\' then
      match s with
      | [] => none
      | e :: s' => (readString s').map fun (v, r) => (unescape e ++ v, r)
    else if c = chr '\'' then
      match s with
      | [] => some ([], [])
      | d :: s' => if d = chr '\'' then (readString s').map fun (v, r) => (chr '\'' :: v, r) else some ([], d :: s')
    else (readString s).map fun (v, r) => (c :: v, r)

/-- Reads a string literal. -/
def readLiteral : Bytes → Option (Bytes × Bytes)
  | [] => none
  | c :: s => if c = chr '\'' then readString s else none

end Verif.Mysql
