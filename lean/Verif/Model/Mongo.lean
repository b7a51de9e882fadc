import Verif.Model.Http
/-!
# Mongo values

Models `Mongo_Connection::execute()` (mongo_connection.cpp:91-235), the part of `fetch_reply()` that converts a document (mongo_connection.cpp:277-397), and
`Mongo_Value::print_to()` (mongo_value.cpp:53-201).

Simplifications: what libbson writes to and reads from memory is a tree; an operation that appends to it fails depending on the key only, and on the length where the code checks it;
a `double` is a number which is not looked into; allocation does not fail.
-/
namespace Verif.Mongo

/-- `Mongo_Value`.  A date-time is in nanoseconds.  (mongo_value.hpp:18-24) -/
inductive Value where
  | null
  | boolean (b : Bool)
  | integer (n : Int)
  | double (d : Nat)
  | utf8 (s : Bytes)
  | binary (s : Bytes)
  | array (vs : List Value)
  | document (fs : List (Bytes × Value))
  | oid (s : Bytes)
  | datetime (ns : Int)

/-- An element in BSON, where `other` is one of the types which are not in `Mongo_Value`. -/
inductive Bson where
  | null
  | bool (b : Bool)
  | int32 (n : Int)
  | int64 (n : Int)
  | double (d : Nat)
  | utf8 (s : Bytes)
  | binary (s : Bytes)
  | array (fs : List (Bytes × Bson))
  | document (fs : List (Bytes × Bson))
  | oid (s : Bytes)
  | datetime (ms : Int)
  | other (type : Nat)

/-- `put_DU()` -/
def decimal (n : Nat) : Bytes := (Nat.toDigits 10 n).map chr

/-! ## Packing -/

/-- `cur_a`, `cur_o` and `cur_rpos`: an array with its size, or a document, and what remains of it. -/
inductive Cur where
  | arr (size : Nat) (rest : List Value)
  | doc (rest : List (Bytes × Value))

/-- `xFrame`.  `temp` is the object into which the new one will be put; in the code it belongs to the previous frame, or is `bson_cmd`.
(mongo_connection.cpp:96-103) -/
structure Frame where
  cur : Cur
  isArray : Bool
  key : Bytes
  temp : List (Bytes × Bson)

inductive St where
  | run (cur : Cur) (temp : List (Bytes × Bson)) (stack : List Frame)
  | done (bson : List (Bytes × Bson))
  /-- `success` is false -/
  | failed

/-- `duration_cast<milliseconds>()` -/
def toMillis (ns : Int) : Int := ns.tdiv 1000000

/-- What is appended for a value which is not a container; `none` if `success` becomes false.  (mongo_connection.cpp:140-174, 214-221) -/
def scalar : Value → Option Bson
  | .null => some .null
  | .boolean b => some (.bool b)
  | .integer n => some (if -2147483648 ≤ n ∧ n ≤ 2147483647 then .int32 n else .int64 n)
  | .double d => some (.double d)
  | .utf8 s => if s.length ≤ 2147483647 then some (.utf8 s) else none
  | .binary s => if s.length ≤ 4294967295 then some (.binary s) else none
  | .oid s => some (.oid s)
  | .datetime ns => some (.datetime (toMillis ns))
  | .array _ => none
  | .document _ => none

/-- One iteration with a key and a value; `cur` is what remains after it.  (mongo_connection.cpp:138-225) -/
def append (ok : Bytes → Bool) (key : Bytes) (cur : Cur) (temp : List (Bytes × Bson)) (stack : List Frame) : Value → St
  | .array vs => if ok key then .run (.arr vs.length vs) [] ({ cur := cur, isArray := true, key := key, temp := temp } :: stack) else .failed
  | .document fs => if ok key then .run (.doc fs) [] ({ cur := cur, isArray := false, key := key, temp := temp } :: stack) else .failed
  | v => match scalar v with
    | some b => if ok key then .run cur (temp ++ [(key, b)]) stack else .failed
    | none => .failed

/-- What is done when a container is complete.  (mongo_connection.cpp:227-236) -/
def close (temp : List (Bytes × Bson)) : List Frame → St
  | [] => .done temp
  | f :: stack => .run f.cur (f.temp ++ [(f.key, if f.isArray then .array temp else .document temp)]) stack

/-- One iteration.  (mongo_connection.cpp:112-236) -/
def step (ok : Bytes → Bool) : St → St
  | .run (.arr _ []) temp stack => close temp stack
  | .run (.doc []) temp stack => close temp stack
  | .run (.arr size (v :: vs)) temp stack => append ok (decimal (size - (vs.length + 1))) (.arr size vs) temp stack v
  | .run (.doc ((k, v) :: fs)) temp stack => append ok k (.doc fs) temp stack v
  | .done b => .done b
  | .failed => .failed

def iter (ok : Bytes → Bool) : Nat → St → St
  | 0, s => s
  | n + 1, s => iter ok n (step ok s)

mutual
/-- The number of iterations. -/
def Value.steps : Value → Nat
  | .array vs => 2 + stepsArr vs
  | .document fs => 2 + stepsDoc fs
  | _ => 1
def stepsArr : List Value → Nat
  | [] => 0
  | v :: vs => v.steps + stepsArr vs
def stepsDoc : List (Bytes × Value) → Nat
  | [] => 0
  | (_, v) :: fs => v.steps + stepsDoc fs
end

/-- `execute()` up to where the command is sent; `none` is an exception.  `valid` is `bson_validate_with_error()`.  (mongo_connection.cpp:91-248) -/
def execute (ok : Bytes → Bool) (valid : List (Bytes × Bson) → Bool) (cmd : List (Bytes × Value)) : Option (List (Bytes × Bson)) :=
  match iter ok (stepsDoc cmd + 1) (.run (.doc cmd) [] []) with
  | .done b => if valid b then some b else none
  | _ => none

/-! ## Unpacking -/

/-- Adds an element to a container; `emplace_back()`.  Arrays have no keys. -/
def Value.push (k : Bytes) (x : Value) : Value → Option Value
  | .array vs => some (.array (vs ++ [x]))
  | .document fs => some (.document (fs ++ [(k, x)]))
  | _ => none

/-- Does something to the last element of a container. -/
def Value.last (f : Value → Option Value) : Value → Option Value
  | .array vs => match vs.getLast? with
    | some v => (f v).map (fun v => .array (vs.dropLast ++ [v]))
    | none => none
  | .document fs => match fs.getLast? with
    | some (k, v) => (f v).map (fun v => .document (fs.dropLast ++ [(k, v)]))
    | none => none
  | _ => none

/-- Does something to what a pointer points to.  As only last elements are ever modified, a pointer is the number of steps to it from the output along last elements. -/
def Value.at (f : Value → Option Value) : Nat → Value → Option Value
  | 0, v => f v
  | d + 1, v => v.last (Value.at f d)

/-- `xFrame`: a pointer, and what remains for the parent iterator.  (mongo_connection.cpp:287-291) -/
structure UFrame where
  parent : Nat
  iter : List (Bytes × Bson)

inductive USt where
  /-- `top` is what `top_a` or `top_o` points to. -/
  | run (out : Value) (top : Nat) (iter : List (Bytes × Bson)) (stack : List UFrame)
  | done (out : Value)
  /-- undefined behavior -/
  | ub

/-- The value for an element that is not a container; `none` is a signed overflow.  (mongo_connection.cpp:318-352, 382-390) -/
def unscalar : Bson → Option Value
  | .null => some .null
  | .bool b => some (.boolean b)
  | .int32 n => some (.integer n)
  | .int64 n => some (.integer n)
  | .double d => some (.double d)
  | .utf8 s => some (.utf8 s)
  | .binary s => some (.binary s)
  | .oid s => some (.oid s)
  | .datetime ms => if -9223372036854775808 ≤ ms * 1000000 ∧ ms * 1000000 ≤ 9223372036854775807 then some (.datetime (ms * 1000000)) else none
  | .other _ => some .null
  | .array _ => some (.array [])
  | .document _ => some (.document [])

/-- The elements of a container; no elements for others. -/
def Bson.fields : Bson → List (Bytes × Bson)
  | .array fs => fs
  | .document fs => fs
  | _ => []

/-- One iteration.  An element is appended to the top.  If it is a container which is not empty, it becomes the top, and a frame is pushed whose pointer is to it.  If there
are no more elements, a frame is popped, and the top is what its pointer points to.  (mongo_connection.cpp:299-399) -/
def ustep : USt → USt
  | .run out _ [] [] => .done out
  | .run out _ [] (f :: stack) => .run out f.parent f.iter stack
  | .run out top ((k, b) :: it) stack =>
    match unscalar b with
    | none => .ub
    | some v =>
      match out.at (Value.push k v) top with
      | none => .ub
      | some out =>
        match b.fields with
        | [] => .run out top it stack
        | es => .run out (top + 1) es ({ parent := top + 1, iter := it } :: stack)
  | .done out => .done out
  | .ub => .ub

def uiter : Nat → USt → USt
  | 0, s => s
  | n + 1, s => uiter n (ustep s)

mutual
/-- The number of iterations. -/
def Bson.steps : Bson → Nat
  | .array fs => 2 + bstepsList fs
  | .document fs => 2 + bstepsList fs
  | _ => 1
def bstepsList : List (Bytes × Bson) → Nat
  | [] => 0
  | (_, b) :: fs => b.steps + bstepsList fs
end

/-- The conversion in `fetch_reply()`.  `none` is undefined behavior.  (mongo_connection.cpp:277-401) -/
def unpack (reply : List (Bytes × Bson)) : Option (List (Bytes × Value)) :=
  match uiter (bstepsList reply + 1) (.run (.document []) 0 reply []) with
  | .done (.document fs) => some fs
  | _ => none

/-! ## Printing -/

/-- How values which are not containers, and keys, are printed. -/
structure Fmt where
  key : Bytes → Bytes
  leaf : Value → Bytes

/-- `xFrame`: what remains, from the current element on.  (mongo_value.cpp:58-65) -/
inductive PFrame where
  | arr (vs : List Value)
  | doc (fs : List (Bytes × Value))

inductive PSt where
  | print (val : Value) (stack : List PFrame) (fmt : Bytes)
  | ret (stack : List PFrame) (fmt : Bytes)
  | done (fmt : Bytes)
  | ub

/-- (mongo_value.cpp:70-198) -/
def pstep (F : Fmt) : PSt → PSt
  | .print (.array vs) st fmt =>
    match vs with
    | [] => .ret st (fmt ++ b! "[]")
    | v :: vs => .print v (.arr (v :: vs) :: st) (fmt ++ [chr '['])
  | .print (.document fs) st fmt =>
    match fs with
    | [] => .ret st (fmt ++ b! "{}")
    | (k, v) :: fs => .print v (.doc ((k, v) :: fs) :: st) (fmt ++ [chr '{'] ++ F.key k ++ [chr ':'])
  | .print v st fmt => .ret st (fmt ++ F.leaf v)
  | .ret [] fmt => .done fmt
  | .ret (.arr (_ :: vs) :: st) fmt =>
    match vs with
    | [] => .ret st (fmt ++ [chr ']'])
    | v :: vs => .print v (.arr (v :: vs) :: st) (fmt ++ [chr ','])
  | .ret (.doc (_ :: fs) :: st) fmt =>
    match fs with
    | [] => .ret st (fmt ++ [chr '}'])
    | (k, v) :: fs => .print v (.doc ((k, v) :: fs) :: st) (fmt ++ [chr ','] ++ F.key k ++ [chr ':'])
  | .ret (_ :: _) _ => .ub
  | .done fmt => .done fmt
  | .ub => .ub

def piter (F : Fmt) : Nat → PSt → PSt
  | 0, s => s
  | n + 1, s => piter F n (pstep F s)

mutual
def Value.nodes : Value → Nat
  | .array vs => 1 + nodesArr vs
  | .document fs => 1 + nodesDoc fs
  | _ => 1
def nodesArr : List Value → Nat
  | [] => 0
  | v :: vs => v.nodes + nodesArr vs
def nodesDoc : List (Bytes × Value) → Nat
  | [] => 0
  | (_, v) :: fs => v.nodes + nodesDoc fs
end

/-- `print_to()`, given what `fmt` contains.  (mongo_value.cpp:53-201) -/
def printTo (F : Fmt) (v : Value) (fmt : Bytes) : Option Bytes :=
  match piter F (2 * v.nodes + 1) (.print v [] fmt) with
  | .done fmt => some fmt
  | _ => none

end Verif.Mongo
