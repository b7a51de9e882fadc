import Verif.Model.Redis
/-!
# What replies and values mean

All definitions are recursive in the structure.
-/
namespace Verif.Redis

mutual
/-- The reply with which a server sends a value. -/
def Value.reply : Value → Reply
  | .nil => .nil
  | .integer n => .integer n
  | .string s => .string s
  | .array vs => .array (replies vs)
def replies : List Value → List Reply
  | [] => []
  | v :: vs => v.reply :: replies vs
end

mutual
/-- The value that a reply, or a part of it, stands for. -/
def Reply.value : Reply → Value
  | .nil => .nil
  | .integer n => .integer n
  | .string s => .string s
  | .array rs => .array (values rs)
  | .status _ => .nil
  | .error _ => .nil
  | .other => .nil
def values : List Reply → List Value
  | [] => []
  | r :: rs => r.value :: values rs
end

mutual
/-- The text of a value. -/
def Value.text (quote : Bytes → Bytes) (num : Int → Bytes) : Value → Bytes
  | .nil => b! "nil"
  | .integer n => num n
  | .string s => b! "\"" ++ quote s ++ b! "\""
  | .array vs => b! "[" ++ texts quote num vs ++ b! "]"
/-- With commas between them. -/
def texts (quote : Bytes → Bytes) (num : Int → Bytes) : List Value → Bytes
  | [] => []
  | [v] => v.text quote num
  | v :: vs => v.text quote num ++ b! "," ++ texts quote num vs
end

/-- A page of a scan, as it is sent by a server: the next cursor, and some keys. -/
def page (cursor : Bytes) (ks : List Bytes) : Value := .array [.string cursor, .array (ks.map .string)]

/-- A map has the given keys, each once, and no values. -/
def Fresh (ks : List Bytes) (t : Table) : Prop := (keys t).Nodup ∧ (∀ k, k ∈ keys t ↔ k ∈ ks) ∧ ∀ e ∈ t.filterMap id, e.2 = []

end Verif.Redis
