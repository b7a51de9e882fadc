import Verif.Base.Bytes
/-!
# A reader of JSON

According to RFC 8259, without blanks between tokens, and with integers as the only numbers.  A reader gives what it has read and the rest of the text.
-/
namespace Verif.Json

inductive J where
  | null
  | bool (b : Bool)
  | int (n : Int)
  | str (s : Bytes)
  | arr (vs : List J)
  | obj (fs : List (Bytes × J))

/-- The value of a hexadecimal digit. -/
def hexVal (c : Byte) : Option Nat :=
  if 48 ≤ c.toNat ∧ c.toNat ≤ 57 then some (c.toNat - 48)
  else if 65 ≤ c.toNat ∧ c.toNat ≤ 70 then some (c.toNat - 55)
  else if 97 ≤ c.toNat ∧ c.toNat ≤ 102 then some (c.toNat - 87)
  else none

/-- The number of four hexadecimal digits. -/
def hex4 (a b c d : Byte) : Option Nat := do
  let a ← hexVal a
  let b ← hexVal b
  let c ← hexVal c
  let d ← hexVal d
  return a * 4096 + b * 256 + c * 16 + d

/-- UTF-8. -/
def utf8 (cp : Nat) : Bytes :=
  if cp < 0x80 then [UInt8.ofNat cp]
  else if cp < 0x800 then [UInt8.ofNat (0xC0 + cp / 64), UInt8.ofNat (0x80 + cp % 64)]
  else if cp < 0x10000 then [UInt8.ofNat (0xE0 + cp / 4096), UInt8.ofNat (0x80 + cp / 64 % 64), UInt8.ofNat (0x80 + cp % 64)]
  else [UInt8.ofNat (0xF0 + cp / 262144), UInt8.ofNat (0x80 + cp / 4096 % 64), UInt8.ofNat (0x80 + cp / 64 % 64), UInt8.ofNat (0x80 + cp % 64)]

/-- What an escape with one letter stands for. -/
def letter (c : Byte) : Option Byte :=
  if c = chr '"' ∨ c = chr '\\' ∨ c = chr '/' then some c
  else if c = chr 'b' then some 8
  else if c = chr 'f' then some 12
  else if c = chr 'n' then some 10
  else if c = chr 'r' then some 13
  else if c = chr 't' then some 9
  else none

/-- Adds to a text that was read. -/
def before (s : Bytes) (r : Option (Bytes × Bytes)) : Option (Bytes × Bytes) := r.map (fun r => (s ++ r.1, r.2))

/-- The rest of a string, after its opening quote. -/
def chars : Nat → Bytes → Option (Bytes × Bytes)
  | 0, _ => none
  | _, [] => none
  | n + 1, c :: s =>
    if c = chr '"' then some ([], s)
    else if c = chr '\\' then
      match s with
      | [] => none
      | e :: s =>
        if e = chr 'u' then
          match s with
          | a :: b :: c :: d :: s =>
            match hex4 a b c d with
            | none => none
            | some u =>
              if 0xD800 ≤ u ∧ u < 0xDC00 then
                match s with
                | b1 :: b2 :: a :: b :: c :: d :: s =>
                  match hex4 a b c d with
                  | none => none
                  | some v => if b1 = chr '\\' ∧ b2 = chr 'u' ∧ 0xDC00 ≤ v ∧ v < 0xE000 then before (utf8 (0x10000 + (u - 0xD800) * 1024 + (v - 0xDC00))) (chars n s) else none
                | _ => none
              else if 0xDC00 ≤ u ∧ u < 0xE000 then none
              else before (utf8 u) (chars n s)
          | _ => none
        else
          match letter e with
          | none => none
          | some b => before [b] (chars n s)
    else if c.toNat < 32 then none
    else before [c] (chars n s)

def isDigit (c : Byte) : Bool := decide (48 ≤ c.toNat) && decide (c.toNat ≤ 57)

/-- The number of a list of digits. -/
def number (ds : Bytes) : Nat := ds.foldl (fun a d => a * 10 + (d.toNat - 48)) 0

/-- An integer without a sign: there are digits, the first one is not a superfluous zero, and what follows is neither a fraction nor an exponent. -/
def natural (s : Bytes) : Option (Nat × Bytes) :=
  let ds := s.takeWhile isDigit
  let r := s.dropWhile isDigit
  if ds = [] then none
  else if ds.head? = some (chr '0') ∧ ds.length > 1 then none
  else if r.head? = some (chr '.') ∨ r.head? = some (chr 'e') ∨ r.head? = some (chr 'E') then none
  else some (number ds, r)

mutual
/-- A value. -/
def value : Nat → Bytes → Option (J × Bytes)
  | 0, _ => none
  | n + 1, s =>
    match s with
    | [] => none
    | c :: t =>
      if c = chr '"' then (chars (t.length + 1) t).map (fun r => (.str r.1, r.2))
      else if c = chr '[' then
        if t.head? = some (chr ']') then some (.arr [], t.tail) else (elements n t).map (fun r => (.arr r.1, r.2))
      else if c = chr '{' then
        if t.head? = some (chr '}') then some (.obj [], t.tail) else (members n t).map (fun r => (.obj r.1, r.2))
      else if c = chr '-' then (natural t).map (fun r => (.int (-r.1), r.2))
      else if isDigit c then (natural s).map (fun r => (.int r.1, r.2))
      else if s.take 4 = b! "null" then some (.null, s.drop 4)
      else if s.take 4 = b! "true" then some (.bool true, s.drop 4)
      else if s.take 5 = b! "false" then some (.bool false, s.drop 5)
      else none
/-- The elements of an array, and its closing bracket. -/
def elements : Nat → Bytes → Option (List J × Bytes)
  | 0, _ => none
  | n + 1, s =>
    match value n s with
    | some (v, c :: s) =>
      if c = chr ']' then some ([v], s)
      else if c = chr ',' then (elements n s).map (fun r => (v :: r.1, r.2))
      else none
    | _ => none
/-- The members of an object, and its closing brace. -/
def members : Nat → Bytes → Option (List (Bytes × J) × Bytes)
  | 0, _ => none
  | n + 1, s =>
    match s with
    | [] => none
    | c :: s =>
      if c ≠ chr '"' then none
      else
        match chars (s.length + 1) s with
        | some (k, c :: s) =>
          if c ≠ chr ':' then none
          else
            match value n s with
            | some (v, c :: s) =>
              if c = chr '}' then some ([(k, v)], s)
              else if c = chr ',' then (members n s).map (fun r => ((k, v) :: r.1, r.2))
              else none
            | _ => none
        | _ => none
end

/-- A whole text. -/
def read (s : Bytes) : Option J :=
  match value (2 * s.length + 2) s with
  | some (v, []) => some v
  | _ => none

end Verif.Json
