import Verif.Base.Bytes
/-!
# Specification vocabulary for textual formats (independent of the model)
-/
namespace Verif.Spec

/-- `d` is a hexadecimal digit (either case) whose value is `v`. -/
inductive HexDigit : Byte → Nat → Prop
  | dec (v : Nat) (h : v < 10) : HexDigit (UInt8.ofNat (0x30 + v)) v
  | upper (v : Nat) (h : 10 ≤ v) (h' : v < 16) : HexDigit (UInt8.ofNat (0x41 + (v - 10))) v
  | lower (v : Nat) (h : 10 ≤ v) (h' : v < 16) : HexDigit (UInt8.ofNat (0x61 + (v - 10))) v

/-- The text `ds` consists of hexadecimal digits which denote the number `n` (most significant first). -/
inductive HexNum : Bytes → Nat → Prop
  | nil : HexNum [] 0
  | snoc {ds n d v} : HexNum ds n → HexDigit d v → HexNum (ds ++ [d]) (n * 16 + v)

/-- RFC 4122 text form: five groups of 8, 4, 4, 4 and 12 hexadecimal digits separated by dashes, denoting the 128-bit
number `n`. -/
def UuidText (s : Bytes) (n : Nat) : Prop :=
  ∃ a b c d e : Bytes,
    a.length = 8 ∧ b.length = 4 ∧ c.length = 4 ∧ d.length = 4 ∧ e.length = 12 ∧
    s = a ++ chr '-' :: b ++ chr '-' :: c ++ chr '-' :: d ++ chr '-' :: e ∧
    HexNum (a ++ b ++ c ++ d ++ e) n

/-- Lexicographic order of byte strings of equal length. -/
def LexLt : Bytes → Bytes → Prop
  | a :: as, b :: bs => a < b ∨ (a = b ∧ LexLt as bs)
  | _, _ => False

end Verif.Spec
