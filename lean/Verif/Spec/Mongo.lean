import Verif.Model.Mongo
/-!
# What documents mean

All definitions are recursive in the structure.
-/
namespace Verif.Mongo

/-- The decimal digits of a number. -/
def subscript (i : Nat) : Bytes := (Nat.toDigits 10 i).map chr

mutual
/-- How a value is encoded in BSON. -/
def Value.bson : Value → Bson
  | .null => .null
  | .boolean b => .bool b
  | .integer n => if -2147483648 ≤ n ∧ n ≤ 2147483647 then .int32 n else .int64 n
  | .double d => .double d
  | .utf8 s => .utf8 s
  | .binary s => .binary s
  | .array vs => .array (numbered 0 vs)
  | .document fs => .document (bsonDoc fs)
  | .oid s => .oid s
  | .datetime ns => .datetime (ns.tdiv 1000000)
/-- The keys of an array are subscripts. -/
def numbered : Nat → List Value → List (Bytes × Bson)
  | _, [] => []
  | i, v :: vs => (subscript i, v.bson) :: numbered (i + 1) vs
def bsonDoc : List (Bytes × Value) → List (Bytes × Bson)
  | [] => []
  | (k, v) :: fs => (k, v.bson) :: bsonDoc fs
end

mutual
/-- All keys are acceptable to libbson, and no string is too long. -/
def Value.packable (ok : Bytes → Bool) : Value → Bool
  | .utf8 s => decide (s.length ≤ 2147483647)
  | .binary s => decide (s.length ≤ 4294967295)
  | .array vs => packableArr ok 0 vs
  | .document fs => packableDoc ok fs
  | _ => true
def packableArr (ok : Bytes → Bool) : Nat → List Value → Bool
  | _, [] => true
  | i, v :: vs => ok (subscript i) && v.packable ok && packableArr ok (i + 1) vs
def packableDoc (ok : Bytes → Bool) : List (Bytes × Value) → Bool
  | [] => true
  | (k, v) :: fs => ok k && v.packable ok && packableDoc ok fs
end

mutual
/-- The same value with date-times truncated to milliseconds. -/
def Value.truncate : Value → Value
  | .datetime ns => .datetime (ns.tdiv 1000000 * 1000000)
  | .array vs => .array (truncateArr vs)
  | .document fs => .document (truncateDoc fs)
  | v => v
def truncateArr : List Value → List Value
  | [] => []
  | v :: vs => v.truncate :: truncateArr vs
def truncateDoc : List (Bytes × Value) → List (Bytes × Value)
  | [] => []
  | (k, v) :: fs => (k, v.truncate) :: truncateDoc fs
end

mutual
/-- Date-times are in the range of the type. -/
def Value.inRange : Value → Prop
  | .datetime ns => -9223372036854775808 ≤ ns ∧ ns ≤ 9223372036854775807
  | .array vs => inRangeArr vs
  | .document fs => inRangeDoc fs
  | _ => True
def inRangeArr : List Value → Prop
  | [] => True
  | v :: vs => v.inRange ∧ inRangeArr vs
def inRangeDoc : List (Bytes × Value) → Prop
  | [] => True
  | (_, v) :: fs => v.inRange ∧ inRangeDoc fs
end

/-- An array or a document that is not empty. -/
def Value.filled : Value → Bool
  | .array (_ :: _) => true
  | .document (_ :: _) => true
  | _ => false

mutual
/-- In each container, only the last element may be a container that is not empty. -/
def Value.tidy : Value → Prop
  | .array vs => tidyArr vs
  | .document fs => tidyDoc fs
  | _ => True
def tidyArr : List Value → Prop
  | [] => True
  | v :: vs => v.tidy ∧ (vs = [] ∨ v.filled = false) ∧ tidyArr vs
def tidyDoc : List (Bytes × Value) → Prop
  | [] => True
  | (_, v) :: fs => v.tidy ∧ (fs = [] ∨ v.filled = false) ∧ tidyDoc fs
end

mutual
/-- The text of a value. -/
def Value.text (F : Fmt) : Value → Bytes
  | .array vs => b! "[" ++ textArr F vs ++ b! "]"
  | .document fs => b! "{" ++ textDoc F fs ++ b! "}"
  | v => F.leaf v
def textArr (F : Fmt) : List Value → Bytes
  | [] => []
  | [v] => v.text F
  | v :: vs => v.text F ++ b! "," ++ textArr F vs
def textDoc (F : Fmt) : List (Bytes × Value) → Bytes
  | [] => []
  | [(k, v)] => F.key k ++ b! ":" ++ v.text F
  | (k, v) :: fs => F.key k ++ b! ":" ++ v.text F ++ b! "," ++ textDoc F fs
end

end Verif.Mongo
