import Verif.Model.Config
/-!
# Specification of configuration paths: the parts of a path, their spellings, and what they denote
-/
namespace Verif.Config

inductive Part where
  | name (n : Bytes)
  | index (i : Nat)
deriving DecidableEq, Repr

/-- Spaces and tabs. -/
def Blanks (p : Bytes) : Prop := ∀ c ∈ p, c = chr ' ' ∨ c = chr '\t'

def letters : Bytes := (b! "ABCDEFGHIJKLMNOPQRSTUVWXYZabcdefghijklmnopqrstuvwxyz_-$@*")
def digits : Bytes := (b! "0123456789")

/-- A name: a letter or one of `_-$@*`, then any of these and digits. -/
def IsName (n : Bytes) : Prop := ∃ c t, n = c :: t ∧ c ∈ letters ∧ ∀ d ∈ t, d ∈ letters ∨ d ∈ digits

/-- The number that is written with decimal digits. -/
def decimal (ds : Bytes) : Nat := ds.foldl (fun a d => a * 10 + (d.toNat - 48)) 0

/-- A subscript: digits; what precedes the last one is less than 999999. -/
def IsIndex (ds : Bytes) : Prop := ds ≠ [] ∧ (∀ d ∈ ds, d ∈ digits) ∧ decimal ds.dropLast < 999999

/-- What may follow a name or a closed bracket. -/
inductive Tail : Bytes → List Part → Prop
  | done {p : Bytes} : Blanks p → Tail p []
  | name {p q n rest : Bytes} {parts : List Part} : Blanks p → Blanks q → IsName n → Tail rest parts →
      Tail (p ++ (chr '.' :: (q ++ (n ++ rest)))) (.name n :: parts)
  | index {p q ds r rest : Bytes} {parts : List Part} : Blanks p → Blanks q → IsIndex ds → Blanks r → Tail rest parts →
      Tail (p ++ (chr '[' :: (q ++ (ds ++ (r ++ (chr ']' :: rest)))))) (.index (decimal ds) :: parts)

/-- The text `path` spells the given parts. -/
def Spells (path : Bytes) (parts : List Part) : Prop :=
  ∃ p n rest ps, path = p ++ (n ++ rest) ∧ parts = .name n :: ps ∧ Blanks p ∧ IsName n ∧ Tail rest ps

variable {R : Type}

/-- A field of an object, or an element of an array. -/
def child : Value R → Part → Res R
  | .object o, .name n =>
    match o.find? fun e => e.1 == n with
    | some e => .found e.2
    | none => .missing
  | .array l, .index i =>
    match l[i]? with
    | some v => .found v
    | none => .missing
  | _, _ => .error

/-- What is reached from `v` by following the parts. -/
def follow (v : Value R) : List Part → Res R
  | [] => .found v
  | p :: ps =>
    match child v p with
    | .found w => follow w ps
    | r => r

/-- The path spells parts that lead from the root to `v`. -/
def Denotes (root : List (Bytes × Value R)) (path : Bytes) (v : Value R) : Prop :=
  ∃ parts, Spells path parts ∧ follow (.object root) parts = .found v

/-- The beginning of the path spells parts that lead from the root to something that does not exist; it ends where
no name or number goes on.  (The bracket that closes the last subscript may be
missing, because the parser stops before it.) -/
def Absent (root : List (Bytes × Value R)) (path : Bytes) : Prop :=
  ∃ pre rest close parts, path = pre ++ rest ∧ (close = [] ∨ close = [chr ']']) ∧ Spells (pre ++ close) parts ∧ follow (.object root) parts = .missing ∧
    ∀ c, rest.head? = some c → c ∉ letters ∧ c ∉ digits

end Verif.Config
