import Verif.Spec.Text
/-! # Specification vocabulary for URI paths and network references -/
namespace Verif.Spec

/-- `PercentDecodes s d`: every `%` in `s` starts a well-formed escape, and replacing each escape gives `d`. -/
inductive PercentDecodes : Bytes → Bytes → Prop
  | nil : PercentDecodes [] []
  | plain {c s d} : c ≠ chr '%' → PercentDecodes s d → PercentDecodes (c :: s) (c :: d)
  | escape {a b x y s d} : HexDigit a x → HexDigit b y → PercentDecodes s d →
      PercentDecodes (chr '%' :: a :: b :: s) (UInt8.ofNat (16 * x + y) :: d)

/-- `s` starts with a `%` that is not followed by two hexadecimal digits. -/
def BadEscape (s : Bytes) : Prop :=
  ∃ t, s = chr '%' :: t ∧ ¬ ∃ a b x y t', t = a :: b :: t' ∧ HexDigit a x ∧ HexDigit b y

/-- The text between slashes: everything up to the first slash, and so on; always at least one piece. -/
def splitSlash : Bytes → List Bytes
  | [] => [[]]
  | c :: s =>
    if c = chr '/' then [] :: splitSlash s
    else match splitSlash s with
      | [] => [[c]]
      | p :: ps => (c :: p) :: ps

/-- Enter one path segment from the directory given by its components: empty and `.` stay, `..` goes up (not above the
root), anything else goes down. -/
def enter (dirs : List Bytes) (seg : Bytes) : List Bytes :=
  if seg = [] ∨ seg = [chr '.'] then dirs
  else if seg = [chr '.', chr '.'] then dirs.dropLast
  else dirs ++ [seg]

/-- A directory as text: `/a/b/`. -/
def dirText (dirs : List Bytes) : Bytes := chr '/' :: dirs.flatMap (fun s => s ++ [chr '/'])

/-- The canonical form of a path: all segments but the last are entered; the last one is a file name, unless it is empty,
`.` or `..`, when the result is a directory. -/
def canonicalPath (path : Bytes) : Bytes :=
  let segs := splitSlash path
  let dirs := segs.dropLast.foldl enter []
  match segs.getLast? with
  | none => dirText dirs
  | some last =>
    if last = [] ∨ last = [chr '.'] ∨ last = [chr '.', chr '.'] then dirText (enter dirs last)
    else dirText dirs ++ last

/-- A path segment that is neither empty nor special. -/
def PlainSegment (s : Bytes) : Prop := s ≠ [] ∧ s ≠ [chr '.'] ∧ s ≠ [chr '.', chr '.'] ∧ chr '/' ∉ s

/-- The decimal number denoted by a text of digits. -/
inductive DecNum : Bytes → Nat → Prop
  | nil : DecNum [] 0
  | snoc {ds n} (v : Nat) : DecNum ds n → v < 10 → DecNum (ds ++ [UInt8.ofNat (0x30 + v)]) (n * 10 + v)

/-! ### Network references -/

def alnumChars : Bytes := b! "0123456789ABCDEFGHIJKLMNOPQRSTUVWXYZabcdefghijklmnopqrstuvwxyz"
def hostChars : Bytes := alnumChars ++ b! "-."
def host6Chars : Bytes := alnumChars ++ b! ":."
/-- RFC 3986: unreserved, sub-delims, `%`, `:`, `@` and `/`. -/
def pathChars : Bytes := alnumChars ++ b! "-._~!$&'()*+,;=%:@/"
def queryChars : Bytes := pathChars ++ b! "?"
def fragmentChars : Bytes := queryChars ++ b! "#"

/-- The parts of a reference `host:port/path?query#fragment` or `[host]:port/path?query#fragment`; all but the host are
optional.  A path is written with its leading slash; the delimiters of the other parts are not stored. -/
structure RefParts where
  bracketed : Bool
  host : Bytes
  port : Option (Bytes × Nat)
  path : Option Bytes
  query : Option Bytes
  fragment : Option Bytes

/-- The text of an optional part with its delimiter. -/
def optText (delim : Bytes) : Option Bytes → Bytes
  | none => []
  | some t => delim ++ t

/-- The text of a reference. -/
def RefParts.text (p : RefParts) : Bytes :=
  (if p.bracketed then b! "[" ++ p.host ++ b! "]" else p.host)
  ++ optText (b! ":") (p.port.map Prod.fst) ++ optText [] p.path ++ optText (b! "?") p.query
  ++ optText (b! "#") p.fragment

structure RefParts.Valid (p : RefParts) : Prop where
  host_nonempty : p.host ≠ []
  host_chars : ∀ c ∈ p.host, c ∈ (if p.bracketed then host6Chars else hostChars)
  port_num : ∀ t n, p.port = some (t, n) → t ≠ [] ∧ DecNum t n ∧ n ≤ 65535
  path_chars : ∀ t, p.path = some t → (∃ t', t = b! "/" ++ t') ∧ ∀ c ∈ t, c ∈ pathChars
  query_chars : ∀ t, p.query = some t → ∀ c ∈ t, c ∈ queryChars
  fragment_chars : ∀ t, p.fragment = some t → ∀ c ∈ t, c ∈ fragmentChars

end Verif.Spec
