import Verif.Base.Bytes
/-! # Specification vocabulary for HTTP header values -/
namespace Verif.Spec

/-- Control characters and the space (RFC 2616: CTL or SP). -/
def CtlOrSpace (c : Byte) : Prop := c.toNat ≤ 32 ∨ c.toNat = 127

/-- The separators of RFC 2616 other than space and tab. -/
def separators : Bytes := b! "\\\"()<>@,;:/[]?={}"

/-- The characters of a token. -/
def TokenChar (c : Byte) : Prop := ¬ CtlOrSpace c ∧ c ∉ separators

/-- `Collapsed s t`: `t` is `s` with each maximal run of control and space characters replaced by one space. -/
inductive Collapsed : Bytes → Bytes → Prop
  | nil : Collapsed [] []
  | char {c s t} : ¬ CtlOrSpace c → Collapsed s t → Collapsed (c :: s) (c :: t)
  | run {r s t} : r ≠ [] → (∀ c ∈ r, CtlOrSpace c) → (∀ c, s.head? = some c → ¬ CtlOrSpace c) → Collapsed s t →
      Collapsed (r ++ s) (chr ' ' :: t)

/-- The strings a header value can carry exactly: no control characters, and no two spaces in a row. -/
def Carriable (s : Bytes) : Prop :=
  (∀ c ∈ s, CtlOrSpace c → c = chr ' ') ∧ ¬ ∃ a b, s = a ++ chr ' ' :: chr ' ' :: b

/-- `QuotedText w s`: `w` (without the quotes around it) is a quoted string of RFC 2616 that denotes `s`: a backslash quotes the
next character. -/
inductive QuotedText : Bytes → Bytes → Prop
  | nil : QuotedText [] []
  | plain {c w s} : c ≠ chr '"' → c ≠ chr '\\' → QuotedText w s → QuotedText (c :: w) (c :: s)
  | pair {c w s} : QuotedText w s → QuotedText (chr '\\' :: c :: w) (c :: s)

/-! ### Header lists -/

/-- Spaces and tabs. -/
def Blanks (s : Bytes) : Prop := ∀ c ∈ s, c = chr ' ' ∨ c = chr '\t'

/-- The text of a value behind `=`: `raw` is as written, `text` what it means. -/
inductive ValueText : Bytes → Bytes → Prop
  | bare {s} : (∀ c ∈ s, ¬ CtlOrSpace c ∧ c ≠ chr ',' ∧ c ≠ chr ';') → s.head? ≠ some (chr '"') → ValueText s s
  | quoted {w s} : QuotedText w s → (0 : Byte) ∉ w → ValueText (chr '"' :: w ++ [chr '"']) s

/-- An attribute as written: `name` or `name = value`, with optional blanks around each part. -/
structure AttrText where
  lead : Bytes
  name : Bytes
  /-- blanks before and behind `=`, the value as written, and the text it means -/
  value : Option (Bytes × Bytes × Bytes × Bytes)
  trail : Bytes

def AttrText.written (a : AttrText) : Bytes :=
  a.lead ++ (a.name ++ ((match a.value with
    | none => []
    | some (b1, b2, raw, _) => b1 ++ chr '=' :: (b2 ++ raw)) ++ a.trail))

/-- The name and the text of the value. -/
def AttrText.meaning (a : AttrText) : Bytes × Option Bytes :=
  (a.name, match a.value with | none => none | some (_, _, _, text) => some text)

structure AttrText.Valid (a : AttrText) : Prop where
  lead : Blanks a.lead
  trail : Blanks a.trail
  name_ne : a.name ≠ []
  name_chars : ∀ c ∈ a.name, TokenChar c
  value : ∀ b1 b2 raw text, a.value = some (b1, b2, raw, text) → Blanks b1 ∧ Blanks b2 ∧ ValueText raw text

/-- Attributes are separated by `;`. -/
def elementText : List AttrText → Bytes
  | [] => []
  | [a] => a.written
  | a :: b :: as => a.written ++ chr ';' :: elementText (b :: as)

/-- Elements are separated by `,`. -/
def headerText : List (List AttrText) → Bytes
  | [] => []
  | [e] => elementText e
  | e :: f :: es => elementText e ++ chr ',' :: headerText (f :: es)

/-! ### What a text means -/

/-- `Core s m`: `m` is `s` without the spaces and tabs in front and at the end. -/
def Core (s m : Bytes) : Prop :=
  ∃ a b, s = a ++ m ++ b ∧ (∀ c ∈ a ++ b, c = chr ' ' ∨ c = chr '\t') ∧ (∀ c t, m = c :: t → c ≠ chr ' ' ∧ c ≠ chr '\t') ∧ ∀ c t, m = t ++ [c] → c ≠ chr ' ' ∧ c ≠ chr '\t'

end Verif.Spec
