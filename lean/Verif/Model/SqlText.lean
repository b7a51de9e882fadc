import Verif.Model.MysqlCheck
import Verif.Model.Mysql
import Verif.Model.Http
/-!
# The texts of statements that check a MySQL table

Models how `poseidon/src/fiber/mysql_check_table_future.cpp` composes the statements whose clauses `Verif/Model/MysqlCheck.lean` gives.  How doubles are printed is a parameter; signed integers are
printed as by `tinyfmt`, in decimal.
-/
namespace Verif.SqlText
open Verif.MysqlCheck

/-- What is not modelled: how a double is printed, `NULL` for NaNs (mysql_value.cpp:30-37), and the offset of local time. -/
structure Lib where
  double : UInt64 → Bytes
  zone : Int → Int

/-- `MySQL_Value::print_to()`.  (mysql_value.cpp:15-71) -/
def valueText (L : Lib) : Val → Bytes
  | .null => b! "NULL"
  | .integer n => if n < 0 then chr '-' :: Http.decimal n.natAbs else Http.decimal n.natAbs
  | .double d => L.double d
  | .blob s => Mysql.printBlob s []
  | .datetime ns => Mysql.printTime L.zone ns []

/-- The name of a type in a statement.  A type of `dropped` is not reached.  (mysql_check_table_future.cpp:18-57) -/
def typeText : ColType → Bytes
  | .dropped => []
  | .varchar => b! "varchar(255)"
  | .bool => b! "tinyint"
  | .int => b! "int"
  | .int64 => b! "bigint"
  | .double => b! "double"
  | .blob => b! "longblob"
  | .datetime => b! "datetime(6)"
  | .autoIncrement => b! "bigint AUTO_INCREMENT NOT NULL"

/-- `do_append_column_definition()`.  (mysql_check_table_future.cpp:13-68) -/
def columnText (L : Lib) (c : Column) : Bytes :=
  let sql := b! "`" ++ c.name ++ b! "` " ++ typeText c.type
  if c.type ≠ .autoIncrement then
    let sql := if !c.nullable then sql ++ b! " NOT NULL" else sql
    if c.default ≠ .null then sql ++ b! " DEFAULT " ++ valueText L c.default else sql
  else sql

/-- Texts with a separator before each but the first.  (mysql_check_table_future.cpp:93-100, 183-190, 496-497, 555-556) -/
def joined (sep : Bytes) : List Bytes → Bytes
  | [] => []
  | x :: xs => x ++ xs.flatMap (sep ++ ·)

/-- `do_append_index_definition()`.  (mysql_check_table_future.cpp:70-103) -/
def indexText (i : Index) : Bytes :=
  (if sameName i.name (b! "PRIMARY") then b! "PRIMARY KEY"
   else if i.type = .unique then b! "UNIQUE INDEX `" ++ i.name ++ b! "`"
   else b! "INDEX `" ++ i.name ++ b! "`") ++
  b! " (" ++ joined (b! ", ") (i.columns.map fun n => b! "`" ++ n ++ b! "`") ++ b! ")"

/-- `MySQL_Engine_Type` (mysql/enums.hpp:30-36) -/
inductive Engine where
  | innodb | myisam | memory | archive
deriving DecidableEq, Repr

/-- `do_append_engine()`.  (mysql_check_table_future.cpp:105-133) -/
def engineText (e : Engine) : Bytes :=
  b! "ENGINE = '" ++ (match e with | .innodb => b! "InnoDB" | .myisam => b! "MyISAM" | .memory => b! "MEMORY" | .archive => b! "ARCHIVE") ++ b! "'"

/-- The first statement.  (mysql_check_table_future.cpp:179-204) -/
def createText (L : Lib) (name : Bytes) (e : Engine) (t : Table) : Bytes :=
  b! "CREATE TABLE IF NOT EXISTS `" ++ name ++ b! "`\n  (" ++
  joined (b! ",\n   ") ((t.columns.filter (·.type ≠ .dropped)).map (columnText L)) ++
  (t.indexes.filter (·.type ≠ .dropped)).flatMap (fun i => b! ",\n   " ++ indexText i) ++
  b! ")\n  " ++ engineText e ++ b! ",\n  CHARSET = 'utf8mb4'" ++
  (t.columns.filter fun c => c.type = .autoIncrement ∧ c.default ≠ .null).flatMap fun c => b! ",\n  AUTO_INCREMENT = " ++ valueText L c.default

/-- What is appended for a column; nothing, if it is as it should be; `none` is an exception.  (mysql_check_table_future.cpp:280-509) -/
def columnItem (L : Lib) (E : Env) (c : Column) (ex : Option ExColumn) : Option (List Bytes) :=
  match ex with
  | none => some (if c.type = .dropped then [] else [b! "ADD COLUMN " ++ columnText L c])
  | some x =>
    (checkColumn E c x).map fun ok =>
      if ok then []
      else if c.type ≠ .dropped then [b! "MODIFY COLUMN " ++ columnText L c]
      else [b! "DROP COLUMN `" ++ c.name ++ b! "`"]

def columnItems (L : Lib) (E : Env) (ex : Dict ExColumn) : List Column → Option (List Bytes)
  | [] => some []
  | c :: cs =>
    match columnItem L E c (ex c.name) with
    | none => none
    | some l => (columnItems L E ex cs).map (l ++ ·)

/-- What is appended for an index.  (mysql_check_table_future.cpp:511-573) -/
def indexItem (i : Index) (ex : Option ExIndex) : List Bytes :=
  match ex with
  | none => if i.type = .dropped then [] else [b! "ADD " ++ indexText i]
  | some x =>
    if checkIndex i x then []
    else
      let sql := if sameName i.name (b! "PRIMARY") then b! "DROP PRIMARY KEY" else b! "DROP INDEX `" ++ i.name ++ b! "`"
      [if i.type ≠ .dropped then sql ++ b! ",\n   ADD " ++ indexText i else sql]

/-- The last statement, if there is one to be executed; `none` is an exception.  (mysql_check_table_future.cpp:274-580) -/
def alterText (L : Lib) (E : Env) (name : Bytes) (t : Table) (cols : List ColumnRow) (ixs : List IndexRow) : Option (Option Bytes) :=
  (columnItems L E (readColumns cols) t.columns).map fun l =>
    let items := l ++ t.indexes.flatMap fun i => indexItem i (readIndexes ixs i.name)
    if items = [] then none else some (b! "ALTER TABLE `" ++ name ++ b! "`\n  " ++ joined (b! ",\n  ") items)

/-- The statements in between.  (mysql_check_table_future.cpp:215, 247) -/
def showText (what name : Bytes) : Bytes := b! "SHOW " ++ what ++ b! " FROM `" ++ name ++ b! "`"

end Verif.SqlText
