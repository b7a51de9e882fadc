import Verif.Base.Bytes
/-! # Specification vocabulary for splitting text -/
namespace Verif.Spec

/-- Space or horizontal tab. -/
def Blank (c : Byte) : Prop := c = chr ' ' ∨ c = chr '\t'

/-- A non-empty segment without the delimiter that neither starts nor ends with a blank. -/
structure TrimmedSegment (delim : Byte) (s : Bytes) : Prop where
  nonempty : s ≠ []
  no_delim : delim ∉ s
  first : ∀ c, s.head? = some c → ¬ Blank c
  last : ∀ c, s.getLast? = some c → ¬ Blank c

/-- Text pieces joined by a delimiter. -/
def joinWith (delim : Byte) : List Bytes → Bytes
  | [] => []
  | [s] => s
  | s :: t :: rest => s ++ delim :: joinWith delim (t :: rest)

end Verif.Spec
