import Verif.Model.DateTime
/-!
# Checking a MySQL table

Models `poseidon/src/fiber/mysql_check_table_future.cpp`.  SQL statements are modelled as lists of clauses, not as text; the rows of `SHOW COLUMNS` and `SHOW INDEXES` have named
fields, which the program finds by their names (mysql_check_table_future.cpp:224-236, 256-264).  The name and the engine of the table are left out: they do not take part in the comparison.
-/
namespace Verif.MysqlCheck

/-- `MySQL_Value`; doubles are bit patterns (mysql_value.hpp) -/
inductive Val where
  | null
  | integer (n : Int)
  | double (bits : UInt64)
  | blob (s : Bytes)
  | datetime (ns : Int)
deriving DecidableEq, Repr

/-- `MySQL_Column_Type` (mysql/enums.hpp) -/
inductive ColType where
  | dropped | varchar | bool | int | int64 | double | blob | datetime | autoIncrement
deriving DecidableEq, Repr

/-- `MySQL_Table_Column` (mysql_table_column.hpp:13-19) -/
structure Column where
  name : Bytes
  type : ColType
  nullable : Bool := false
  default : Val := .null
deriving DecidableEq, Repr

/-- `MySQL_Index_Type` -/
inductive IxType where
  | dropped | unique | multi
deriving DecidableEq, Repr

/-- `MySQL_Table_Index` (mysql_table_index.hpp:13-18) -/
structure Index where
  name : Bytes
  type : IxType
  columns : List Bytes
deriving DecidableEq, Repr

/-- `MySQL_Table_Structure` -/
structure Table where
  columns : List Column
  indexes : List Index
deriving DecidableEq, Repr

/-- `exColumn` (mysql_check_table_future.cpp:135-141) -/
structure ExColumn where
  type : Bytes
  nullable : Bool
  default : Val
  extra : Bytes
deriving DecidableEq, Repr

/-- `exIndex` (mysql_check_table_future.cpp:143-147) -/
structure ExIndex where
  multi : Bool
  columns : List Bytes
deriving DecidableEq, Repr

/-- A column definition in a statement. -/
structure ColumnDef where
  name : Bytes
  type : Bytes
  autoIncrement : Bool := false
  notNull : Bool
  default : Option Val
deriving DecidableEq, Repr

/-- An index definition in a statement: `PRIMARY KEY` has no name. -/
structure IndexDef where
  name : Option Bytes
  unique : Bool
  columns : List Bytes
deriving DecidableEq, Repr

/-- A part of an `ALTER TABLE` statement. -/
inductive Clause where
  | addColumn (d : ColumnDef)
  | modifyColumn (d : ColumnDef)
  | dropColumn (name : Bytes)
  | addIndex (d : IndexDef)
  | dropIndex (name : Bytes)
  | dropPrimaryKey
deriving DecidableEq, Repr

/-- Functions of the standard library and of Asteria which are not modelled: `ascii_numget::get()`, the comparison of doubles, and `DateTime::print_git_partial()`. -/
structure Env where
  parseInt : Bytes → Int
  parseDouble : Bytes → UInt64
  deq : UInt64 → UInt64 → Bool
  printTime : Int → Bytes

/-- `HTTP_Field_Name::equals()`: names are compared without regard to case.  (http_field_name.hpp:191-208) -/
def sameName (a b : Bytes) : Bool := a.map DateTime.lower = b.map DateTime.lower

/-- The type of a column, without attributes.  (mysql_check_table_future.cpp:23-53) -/
def typeText : ColType → Bytes
  | .dropped => []
  | .varchar => b! "varchar(255)"
  | .bool => b! "tinyint"
  | .int => b! "int"
  | .int64 => b! "bigint"
  | .double => b! "double"
  | .blob => b! "longblob"
  | .datetime => b! "datetime(6)"
  | .autoIncrement => b! "bigint"

/-- `do_append_column_definition()`.  (mysql_check_table_future.cpp:14-68) -/
def define (c : Column) : ColumnDef :=
  if c.type = .autoIncrement then { name := c.name, type := typeText c.type, autoIncrement := true, notNull := true, default := none }
  else { name := c.name, type := typeText c.type, notNull := !c.nullable, default := if c.default ≠ .null then some c.default else none }

/-- `do_append_index_definition()`.  (mysql_check_table_future.cpp:70-103) -/
def defineIndex (i : Index) : IndexDef :=
  if sameName i.name (b! "PRIMARY") then { name := none, unique := true, columns := i.columns }
  else { name := some i.name, unique := i.type = .unique, columns := i.columns }

/-- A row of `SHOW COLUMNS` -/
structure ColumnRow where
  field : Bytes
  type : Bytes
  null : Bytes
  default : Val
  extra : Bytes
deriving DecidableEq, Repr

/-- A row of `SHOW INDEXES` -/
structure IndexRow where
  keyName : Bytes
  nonUnique : Int
  seqInIndex : Nat
  columnName : Bytes
deriving DecidableEq, Repr

/-- A dictionary, by its look-up function. -/
abbrev Dict (α : Type) := Bytes → Option α

def Dict.put {α : Type} (d : Dict α) (k : Bytes) (v : α) : Dict α := fun n => if n = k then some v else d n

/-- Existent columns.  (mysql_check_table_future.cpp:238-244) -/
def readColumns (rows : List ColumnRow) : Dict ExColumn :=
  rows.foldl (fun (d : Dict ExColumn) (r : ColumnRow) => d.put r.field { type := r.type, nullable := r.null = b! "YES", default := r.default, extra := r.extra }) fun _ => none

/-- `std::vector::resize()` -/
def resize (l : List Bytes) (n : Nat) : List Bytes := l.take n ++ List.replicate (n - l.length) []

/-- Existent indexes.  (mysql_check_table_future.cpp:266-272) -/
def readIndexes (rows : List IndexRow) : Dict ExIndex :=
  rows.foldl (fun (d : Dict ExIndex) (r : IndexRow) =>
    let old := (d r.keyName).getD { multi := false, columns := [] }
    d.put r.keyName { multi := decide (r.nonUnique ≠ 0), columns := (resize old.columns (max old.columns.length r.seqInIndex)).set (r.seqInIndex - 1) r.columnName }) fun _ => none

/-- The default of a column whose default is an integer: whether it matches; `as_integer()` throws if it is not an integer.  (mysql_check_table_future.cpp:322-336, 350-364, 378-392) -/
def checkInteger (E : Env) (c : Column) (x : ExColumn) : Option Bool :=
  if c.default = .null then some true
  else match x.default with
    | .blob t =>
      match c.default with
      | .integer n => some (E.parseInt t = n)
      | _ => none
    | _ => some false

/-- What depends on the type of the column: whether the existent column matches, or an exception.  (mysql_check_table_future.cpp:287-477) -/
def checkType (E : Env) (c : Column) (x : ExColumn) : Option Bool :=
  match c.type with
  | .dropped => some false
  | .varchar =>
    if x.type ≠ b! "varchar(255)" then some false
    else
      (if c.default = .null then some true
       else match x.default with
        | .blob t =>
          match c.default with
          | .blob s => some (t = s)
          | _ => none
        | _ => some false).map (· && x.extra = [])
  | .bool =>
    if x.type ≠ b! "tinyint(1)" ∧ x.type ≠ b! "tinyint" then some false
    else (checkInteger E c x).map (· && x.extra = [])
  | .int =>
    if x.type ≠ b! "int(11)" ∧ x.type ≠ b! "int" then some false
    else (checkInteger E c x).map (· && x.extra = [])
  | .int64 =>
    if x.type ≠ b! "bigint(20)" ∧ x.type ≠ b! "bigint" then some false
    else (checkInteger E c x).map (· && x.extra = [])
  | .double =>
    if x.type ≠ b! "double" then some false
    else
      (if c.default = .null then some true
       else match x.default with
        | .blob t =>
          match c.default with
          | .double d => some (E.deq (E.parseDouble t) d)
          | _ => none
        | _ => some false).map (· && x.extra = [])
  | .blob => some (x.type = b! "longblob" && x.extra = [])
  | .datetime =>
    if x.type ≠ b! "datetime(6)" then some false
    else
      (if c.default = .null then some true
       else match x.default with
        | .blob t =>
          match c.default with
          | .datetime ns => some (t.take 19 = (E.printTime ns).take 19)
          | _ => none
        | _ => some false).map (· && x.extra = [])
  | .autoIncrement => some ((x.type = b! "bigint(20)" || x.type = b! "bigint") && x.extra = b! "auto_increment")

/-- Whether an existent column matches.  (mysql_check_table_future.cpp:286-492) -/
def checkColumn (E : Env) (c : Column) (x : ExColumn) : Option Bool :=
  (checkType E c x).map fun ok =>
    if ok && c.type ≠ .autoIncrement then x.nullable = c.nullable && (decide (x.default = .null) = decide (c.default = .null)) else ok

/-- What is done about a column.  (mysql_check_table_future.cpp:280-511) -/
def columnClauses (E : Env) (c : Column) (ex : Option ExColumn) : Option (List Clause) :=
  match ex with
  | none => some (if c.type = .dropped then [] else [.addColumn (define c)])
  | some x =>
    (checkColumn E c x).map fun ok =>
      if ok then [] else if c.type ≠ .dropped then [.modifyColumn (define c)] else [.dropColumn c.name]

/-- `columns[t] != index.columns[t]`, for each `t`; the lengths are equal.  (mysql_check_table_future.cpp:542-547) -/
def sameColumns (a b : List Bytes) : Bool := a.length = b.length && (a.zip b).all fun p => sameName p.1 p.2

/-- Whether an existent index matches.  (mysql_check_table_future.cpp:517-551) -/
def checkIndex (i : Index) (x : ExIndex) : Bool :=
  match i.type with
  | .dropped => false
  | .unique => !x.multi && sameColumns x.columns i.columns
  | .multi => x.multi && sameColumns x.columns i.columns

/-- What is done about an index.  (mysql_check_table_future.cpp:513-573) -/
def indexClauses (i : Index) (ex : Option ExIndex) : List Clause :=
  match ex with
  | none => if i.type = .dropped then [] else [.addIndex (defineIndex i)]
  | some x =>
    if checkIndex i x then []
    else (if sameName i.name (b! "PRIMARY") then .dropPrimaryKey else .dropIndex i.name) :: (if i.type ≠ .dropped then [.addIndex (defineIndex i)] else [])

/-- All clauses for columns. -/
def allColumns (E : Env) (ex : Dict ExColumn) : List Column → Option (List Clause)
  | [] => some []
  | c :: cs =>
    match columnClauses E c (ex c.name) with
    | none => none
    | some l => (allColumns E ex cs).map (l ++ ·)

/-- The `ALTER TABLE` statement, after the rows have been fetched; the statement is executed unless it has no clauses.  `none` is an exception.  (mysql_check_table_future.cpp:280-580) -/
def alter (E : Env) (t : Table) (cols : List ColumnRow) (ixs : List IndexRow) : Option (List Clause) :=
  (allColumns E (readColumns cols) t.columns).map (· ++ t.indexes.flatMap fun i => indexClauses i (readIndexes ixs i.name))

/-- The `CREATE TABLE IF NOT EXISTS` statement: columns and indexes.  (mysql_check_table_future.cpp:179-205) -/
def create (t : Table) : List ColumnDef × List IndexDef :=
  ((t.columns.filter (·.type ≠ .dropped)).map define, (t.indexes.filter (·.type ≠ .dropped)).map defineIndex)

end Verif.MysqlCheck
