import Verif.Spec.Uri
import Verif.Spec.Segments
/-! # Specification vocabulary for HTTP text -/
namespace Verif.Spec

/-! ### Field names -/

/-- Letters, digits, dash and underscore. -/
def fieldNameChars : Bytes := alnumChars ++ b! "-_"

/-- `u` is an upper-case ASCII letter and `l` the same letter in lower case. -/
def CasePair (u l : Byte) : Prop := ∃ i, i < 26 ∧ u = UInt8.ofNat (0x41 + i) ∧ l = UInt8.ofNat (0x61 + i)

/-- Texts of equal length that differ at most in the case of ASCII letters. -/
inductive SameButCase : Bytes → Bytes → Prop
  | nil : SameButCase [] []
  | cons {a b s t} : (a = b ∨ CasePair a b ∨ CasePair b a) → SameButCase s t → SameButCase (a :: s) (b :: t)

/-! ### Query strings -/

/-- Characters RFC 3986 allows in a query (`%`, `+`, `&` and `=` have a meaning of their own), extended by all non-ASCII
bytes. -/
def PlainQueryChar (c : Byte) : Prop :=
  128 ≤ c.toNat ∨ c ∈ alnumChars ++ b! "-._~!$'()*,;:@/?="

/-- The text denoted by an escaped text: `+` is a space, `%XY` a byte, a plain character itself. -/
inductive QueryDecodes : Bytes → Bytes → Prop
  | nil : QueryDecodes [] []
  | plain {c s d} : PlainQueryChar c → QueryDecodes s d → QueryDecodes (c :: s) (c :: d)
  | space {s d} : QueryDecodes s d → QueryDecodes (chr '+' :: s) (chr ' ' :: d)
  | escape {a b x y s d} : HexDigit a x → HexDigit b y → QueryDecodes s d →
      QueryDecodes (chr '%' :: a :: b :: s) (UInt8.ofNat (16 * x + y) :: d)

/-- One element of a query: `name` or `name=value`, where the name has no `=`. -/
inductive QueryElement : Bytes → Bytes × Option Bytes → Prop
  | name {s n} : chr '=' ∉ s → QueryDecodes s n → QueryElement s (n, none)
  | pair {s n t v} : chr '=' ∉ s → QueryDecodes s n → QueryDecodes t v → QueryElement (s ++ chr '=' :: t) (n, some v)

/-- Related element by element. -/
inductive Each {α β : Type} (R : α → β → Prop) : List α → List β → Prop
  | nil : Each R [] []
  | cons {a b as bs} : R a b → Each R as bs → Each R (a :: as) (b :: bs)

/-! ### Messages -/

/-- Split a message at its line breaks (CR LF) up to the first empty line: the lines before it and the bytes behind it.
`cur` is the line read so far. -/
def readHead : (s : Bytes) → (cur : Bytes) → Option (List Bytes × Bytes)
  | 13 :: 10 :: t, cur =>
    if cur = [] then some ([], t)
    else match readHead t [] with
      | none => none
      | some (ls, r) => some (cur :: ls, r)
  | c :: t, cur => readHead t (cur ++ [c])
  | [], _ => none

/-- The value of a line `name: value`, when its name is the given one in any case. -/
def fieldValue (name : Bytes) (line : Bytes) (value : Bytes) : Prop :=
  ∃ n, SameButCase n name ∧ line = n ++ b! ": " ++ value

/-- A text without line breaks. -/
def OneLine (s : Bytes) : Prop := (13 : Byte) ∉ s ∧ (10 : Byte) ∉ s

/-- `ChunkedBody wire data rest`: the bytes `wire` begin with an RFC 9112 chunked body (without trailers and extensions) which
denotes `data`; the bytes `rest` follow it. -/
inductive ChunkedBody : Bytes → Bytes → Bytes → Prop
  | last {ds rest} : ds ≠ [] → HexNum ds 0 → ChunkedBody (ds ++ [13, 10] ++ [13, 10] ++ rest) [] rest
  | chunk {ds n c w d rest} : ds ≠ [] → HexNum ds n → 0 < n → c.length = n → ChunkedBody w d rest →
      ChunkedBody (ds ++ [13, 10] ++ c ++ [13, 10] ++ w) (c ++ d) rest

end Verif.Spec
