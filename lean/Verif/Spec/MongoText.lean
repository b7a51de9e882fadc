import Verif.Model.MongoText
import Verif.Spec.Json
/-! # Which Mongo values are JSON -/
namespace Verif.Mongo
open Verif.Json

/-- What is assumed about `::asteria::utf8_decode()`: an ASCII character is decoded to itself; at any other byte it fails, or gives another code point of as many bytes as there are. -/
structure DecodeOk (L : TextLib) : Prop where
  ascii : ∀ (b : Byte) (s : Bytes), b.toNat < 128 → L.decode (b :: s) = some (b.toNat, 1)
  other : ∀ (b : Byte) (s : Bytes) cp k, 128 ≤ b.toNat → L.decode (b :: s) = some (cp, k) → 128 ≤ cp ∧ 1 ≤ k ∧ k ≤ s.length + 1

/-- The characters that are printed correctly: printable ASCII ones, and the control characters with escapes of their own. -/
def safe (c : Byte) : Bool := (decide (32 ≤ c.toNat) && decide (c.toNat ≤ 126)) || c == 8 || c == 9 || c == 10 || c == 12 || c == 13

def safeText (s : Bytes) : Bool := s.all safe

mutual
/-- The JSON value that a value with safe texts is, if it is one. -/
def Value.json : Value → Option J
  | .null => some .null
  | .boolean b => some (.bool b)
  | .integer n => some (.int n)
  | .utf8 s => if safeText s then some (.str s) else none
  | .array vs => (jsonArr vs).map .arr
  | .document fs => (jsonDoc fs).map .obj
  | .double _ => none
  | .binary _ => none
  | .oid _ => none
  | .datetime _ => none
def jsonArr : List Value → Option (List J)
  | [] => some []
  | v :: vs => match v.json, jsonArr vs with
    | some j, some js => some (j :: js)
    | _, _ => none
def jsonDoc : List (Bytes × Value) → Option (List (Bytes × J))
  | [] => some []
  | (k, v) :: fs => match v.json, jsonDoc fs with
    | some j, some js => if safeText k then some ((k, j) :: js) else none
    | _, _ => none
end

/-- Base64 (RFC 4648) as a property of the text: every three bytes are the 24 bits of four digits, and one or two bytes at the end are padded. -/
def bits64 (c : Byte) : Option Nat :=
  if 65 ≤ c.toNat ∧ c.toNat ≤ 90 then some (c.toNat - 65)
  else if 97 ≤ c.toNat ∧ c.toNat ≤ 122 then some (c.toNat - 71)
  else if 48 ≤ c.toNat ∧ c.toNat ≤ 57 then some (c.toNat + 4)
  else if c = chr '+' then some 62
  else if c = chr '/' then some 63
  else none

/-- A reader of base64. -/
def decode64 : Bytes → Option Bytes
  | [] => some []
  | a :: b :: c :: d :: s =>
    match bits64 a, bits64 b with
    | some a, some b =>
      if c = chr '=' ∧ d = chr '=' then if s = [] ∧ b % 16 = 0 then some [UInt8.ofNat (a * 4 + b / 16)] else none
      else
        match bits64 c with
        | none => none
        | some c =>
          if d = chr '=' then if s = [] ∧ c % 4 = 0 then some [UInt8.ofNat (a * 4 + b / 16), UInt8.ofNat (b % 16 * 16 + c / 4)] else none
          else
            match bits64 d with
            | none => none
            | some d => (decode64 s).map (fun r => UInt8.ofNat (a * 4 + b / 16) :: UInt8.ofNat (b % 16 * 16 + c / 4) :: UInt8.ofNat (c % 4 * 64 + d) :: r)
    | _, _ => none
  | _ => none

end Verif.Mongo
