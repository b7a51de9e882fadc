import Verif.Model.ErrorText
/-!
# What is said about errors
-/
namespace Verif.ErrorText

/-- `s` with blanks removed from its end. -/
def Trimmed (s r : Bytes) : Prop := (∃ b, s = r ++ b ∧ ∀ c ∈ b, c ∈ b! " \t\r\n") ∧ ∀ a c, r = a ++ [c] → c ∉ b! " \t\r\n"

/-- Decimal and hexadecimal digits. -/
def dec (n : Nat) : Bytes := (Nat.toDigits 10 n).map chr
def hex (n : Nat) : Bytes := b! "0x" ++ ((Nat.toDigits 16 n).map Char.toUpper).map chr

/-- In `w` columns, at the right. -/
def right (w : Nat) (s : Bytes) : Bytes := List.replicate (w - s.length) (chr ' ') ++ s

/-- How a caller is described: an address, and the function, and the offset in it, unless it is zero. -/
def described (f : Frame) : Bytes := match f.name with
  | none => hex f.ip ++ b! " (unknown)"
  | some (name, 0) => hex f.ip ++ b! " `" ++ name ++ b! "`"
  | some (name, n + 1) => hex f.ip ++ b! " `" ++ name ++ b! "`+" ++ hex (n + 1)

/-- The lines with the callers, where there are `total`; the first of them has the number `k`. -/
def callers (total k : Nat) : List Frame → Bytes
  | [] => []
  | f :: fs => b! "\n  " ++ right (dec total).length (dec k) ++ b! ") " ++ described f ++ callers total (k + 1) fs

/-- Where it has been thrown. -/
def location (func file : Bytes) (line : Nat) : Bytes := b! "\n[thrown from function `" ++ func ++ b! "` at '" ++ file ++ b! ":" ++ dec line ++ b! "']"

end Verif.ErrorText
