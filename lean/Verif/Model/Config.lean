import Verif.Base.Bytes
/-!
# Configuration files

Models `poseidon/src/base/config_file.cpp`, from `query()` on.  Reading a file is done by the (absent) asteria library and is not modelled; a loaded
configuration is any tree of values.
-/
namespace Verif.Config

/-- `::asteria::Value`, without opaque values and functions, which do not occur in a configuration.  `R` is the type of real numbers. -/
inductive Value (R : Type) where
  | null
  | boolean (b : Bool)
  | integer (i : Int)
  | real (r : R)
  | string (s : Bytes)
  | array (l : List (Value R))
  | object (o : List (Bytes × Value R))

/-- What is needed of `double`: conversion from an integer, and comparison, which is false for NaN. -/
class RealOps (R : Type) where
  ofInt : Int → R
  le : R → R → Bool

variable {R : Type}

/-- `V_object::ptr(name)` -/
def lookup (o : List (Bytes × Value R)) (name : Bytes) : Option (Value R) := (o.find? fun e => e.1 == name).map fun e => e.2

/-- How a query ends: a value is found; a part is missing, and a null value is returned; or an exception is thrown. -/
inductive Res (R : Type) where
  | found (v : Value R)
  | missing
  | error

/-- `Parser_State`, with the name or number that is being collected.  (config_file.cpp:55-69) -/
inductive St where
  | nameI
  | name (acc : Bytes)
  | nameT
  | indexI
  | index (n : Nat)
  | indexT
deriving DecidableEq, Repr

def isBlank (c : Byte) : Bool := c = chr ' ' ∨ c = chr '\t'

/-- (config_file.cpp:117-123) -/
def isNameStart (c : Byte) : Bool :=
  (chr 'A' ≤ c ∧ c ≤ chr 'Z') ∨ (chr 'a' ≤ c ∧ c ≤ chr 'z') ∨ c = chr '_' ∨ c = chr '-' ∨ c = chr '$' ∨ c = chr '@' ∨ c = chr '*'

/-- (config_file.cpp:138, 207, 222) -/
def isDigit (c : Byte) : Bool := chr '0' ≤ c ∧ c ≤ chr '9'

/-- (config_file.cpp:136-143) -/
def isNameChar (c : Byte) : Bool := isNameStart c ∨ isDigit c

def digit (c : Byte) : Nat := c.toNat - 48

/-- `do_apply_subscript_name_no_semicolon_`; `none` for `current` stands for the root.  (config_file.cpp:72-88) -/
def applyName (root : List (Bytes × Value R)) (cur : Option (Value R)) (name : Bytes) : Res R :=
  let parent := match cur with
    | none => some root
    | some (.object o) => some o
    | some _ => none
  match parent with
  | none => .error
  | some o =>
    match lookup o name with
    | none => .missing
    | some v => .found v

/-- `do_apply_subscript_index_no_semicolon_`.  `current` is never null there.  (config_file.cpp:90-104) -/
def applyIndex (cur : Option (Value R)) (i : Nat) : Res R :=
  match cur with
  | some (.array l) =>
    match l[i]? with
    | none => .missing
    | some v => .found v
  | _ => .error

/-- The loop of `query()`.  (config_file.cpp:106-283) -/
def go (root : List (Bytes × Value R)) : St → Option (Value R) → Bytes → Res R
  | .name acc, cur, [] => applyName root cur acc
  | .nameT, some v, [] => .found v
  | .nameT, none, [] => .error
  | .nameI, _, [] => .error
  | .indexI, _, [] => .error
  | .index _, _, [] => .error
  | .indexT, _, [] => .error
  | .nameI, cur, c :: t =>
    if isBlank c then go root .nameI cur t
    else if isNameStart c then go root (.name [c]) cur t
    else .error
  | .name acc, cur, c :: t =>
    if isNameChar c then go root (.name (acc ++ [c])) cur t
    else if isBlank c then
      match applyName root cur acc with
      | .found v => go root .nameT (some v) t
      | r => r
    else if c = chr '.' then
      match applyName root cur acc with
      | .found v => go root .nameI (some v) t
      | r => r
    else if c = chr '[' then
      match applyName root cur acc with
      | .found v => go root .indexI (some v) t
      | r => r
    else .error
  | .nameT, cur, c :: t =>
    if isBlank c then go root .nameT cur t
    else if c = chr '.' then go root .nameI cur t
    else if c = chr '[' then go root .indexI cur t
    else .error
  | .indexI, cur, c :: t =>
    if isBlank c then go root .indexI cur t
    else if isDigit c then go root (.index (digit c)) cur t
    else .error
  | .index n, cur, c :: t =>
    if isDigit c then
      if n ≥ 999999 then .error
      else go root (.index (n * 10 + digit c)) cur t
    else if isBlank c then
      match applyIndex cur n with
      | .found v => go root .indexT (some v) t
      | r => r
    else if c = chr ']' then
      match applyIndex cur n with
      | .found v => go root .nameT (some v) t
      | r => r
    else .error
  | .indexT, cur, c :: t =>
    if isBlank c then go root .indexT cur t
    else if c = chr ']' then go root .nameT cur t
    else .error

/-- `query()`; `none` if it throws.  (config_file.cpp:50-286) -/
def query (root : List (Bytes × Value R)) (path : Bytes) : Option (Value R) :=
  match go root .nameI none path with
  | .found v => some v
  | .missing => some .null
  | .error => none

/-- What a getter does. -/
inductive Got (α : Type) where
  | threw
  /-- a null `opt` -/
  | nothing
  | got (a : α)
deriving DecidableEq, Repr

/-- `get_boolean()`.  (config_file.cpp:288-306) -/
def getBoolean (root : List (Bytes × Value R)) (path : Bytes) : Got Bool :=
  match query root path with
  | some (.boolean b) => .got b
  | _ => .threw

/-- `get_boolean_opt()`.  (config_file.cpp:309-323) -/
def getBooleanOpt (root : List (Bytes × Value R)) (path : Bytes) : Got Bool :=
  match query root path with
  | some .null => .nothing
  | some (.boolean b) => .got b
  | _ => .threw

/-- `get_integer()`.  (config_file.cpp:327-351) -/
def getInteger (root : List (Bytes × Value R)) (path : Bytes) (min max : Int) : Got Int :=
  match query root path with
  | some (.integer i) => if ¬ (i ≥ min ∧ i ≤ max) then .threw else .got i
  | _ => .threw

/-- `get_integer_opt()`.  (config_file.cpp:354-375) -/
def getIntegerOpt (root : List (Bytes × Value R)) (path : Bytes) (min max : Int) : Got Int :=
  match query root path with
  | some .null => .nothing
  | some (.integer i) => if ¬ (i ≥ min ∧ i ≤ max) then .threw else .got i
  | _ => .threw

/-- `Value::is_real()` and `Value::as_real()`: integers are converted. -/
def asReal [RealOps R] : Value R → Option R
  | .integer i => some (RealOps.ofInt i)
  | .real r => some r
  | _ => none

/-- `get_real()`.  (config_file.cpp:378-402) -/
def getReal [RealOps R] (root : List (Bytes × Value R)) (path : Bytes) (min max : R) : Got R :=
  match query root path with
  | none => .threw
  | some .null => .threw
  | some v =>
    match asReal v with
    | none => .threw
    | some r => if ¬ (RealOps.le min r ∧ RealOps.le r max) then .threw else .got r

/-- `get_real_opt()`.  (config_file.cpp:405-426) -/
def getRealOpt [RealOps R] (root : List (Bytes × Value R)) (path : Bytes) (min max : R) : Got R :=
  match query root path with
  | none => .threw
  | some .null => .nothing
  | some v =>
    match asReal v with
    | none => .threw
    | some r => if ¬ (RealOps.le min r ∧ RealOps.le r max) then .threw else .got r

/-- `get_string()`.  (config_file.cpp:429-447) -/
def getString (root : List (Bytes × Value R)) (path : Bytes) : Got Bytes :=
  match query root path with
  | some (.string s) => .got s
  | _ => .threw

/-- `get_string_opt()`.  (config_file.cpp:450-465) -/
def getStringOpt (root : List (Bytes × Value R)) (path : Bytes) : Got Bytes :=
  match query root path with
  | some .null => .nothing
  | some (.string s) => .got s
  | _ => .threw

/-- `get_array_size()`.  (config_file.cpp:468-486) -/
def getArraySize (root : List (Bytes × Value R)) (path : Bytes) : Got Nat :=
  match query root path with
  | some (.array l) => .got l.length
  | _ => .threw

/-- `get_array_size_opt()`.  (config_file.cpp:489-504) -/
def getArraySizeOpt (root : List (Bytes × Value R)) (path : Bytes) : Got Nat :=
  match query root path with
  | some .null => .nothing
  | some (.array l) => .got l.length
  | _ => .threw

end Verif.Config
