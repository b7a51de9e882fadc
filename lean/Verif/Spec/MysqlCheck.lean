import Verif.Model.MysqlCheck
/-!
# What the MySQL server does

The schema of a table, what statements do to it, and how it is reported.  The server may reject a statement; then nothing is said about it.
-/
namespace Verif.MysqlCheck

/-- A table on the server, where columns are as `SHOW COLUMNS` reports them. -/
structure Schema where
  columns : Dict ExColumn := fun _ => none
  indexes : Dict ExIndex := fun _ => none

/-- How the server reports types, default values and names of columns in indexes. -/
structure Server where
  showType : Bytes → Bytes
  showDefault : Bytes → Val → Val
  showName : Bytes → Bytes

def Server.column (S : Server) (d : ColumnDef) : ExColumn :=
  { type := S.showType d.type
    nullable := !d.notNull
    default := match d.default with | none => .null | some v => S.showDefault d.type v
    extra := if d.autoIncrement then b! "auto_increment" else [] }

def Server.index (S : Server) (d : IndexDef) : ExIndex := { multi := !d.unique, columns := d.columns.map S.showName }

def primary : Bytes := b! "PRIMARY"

/-- A dropped column is removed from all indexes, and an index without columns is dropped. -/
def dropFromIndex (name : Bytes) (x : ExIndex) : Option ExIndex :=
  let cs := x.columns.filter (!sameName · name)
  if cs = [] then none else some { x with columns := cs }

/-- What a clause does. -/
def Server.clause (S : Server) (s : Schema) : Clause → Schema
  | .addColumn d => { s with columns := s.columns.put d.name (S.column d) }
  | .modifyColumn d => { s with columns := s.columns.put d.name (S.column d) }
  | .dropColumn name => { columns := fun n => if n = name then none else s.columns n, indexes := fun n => (s.indexes n).bind (dropFromIndex name) }
  | .addIndex d => { s with indexes := s.indexes.put (d.name.getD primary) (S.index d) }
  | .dropIndex name => { s with indexes := fun n => if n = name then none else s.indexes n }
  | .dropPrimaryKey => { s with indexes := fun n => if n = primary then none else s.indexes n }

/-- Columns of the primary key are silently made `NOT NULL`. -/
def primaryNotNull (s : Schema) : Schema :=
  { s with columns := fun n => (s.columns n).map fun x => if (s.indexes primary).any (·.columns.any (sameName n)) then { x with nullable := false } else x }

/-- What an `ALTER TABLE` statement does. -/
def Server.apply (S : Server) (s : Schema) (cs : List Clause) : Schema := primaryNotNull (cs.foldl S.clause s)

/-- What a `CREATE TABLE` statement does. -/
def Server.created (S : Server) (c : List ColumnDef × List IndexDef) : Schema :=
  S.apply {} (c.1.map .addColumn ++ c.2.map .addIndex)

/-- The rows of `SHOW COLUMNS`, in any order. -/
def ReportsColumns (s : Schema) (rows : List ColumnRow) : Prop :=
  (∀ r ∈ rows, s.columns r.field = some { type := r.type, nullable := r.null = b! "YES", default := r.default, extra := r.extra }) ∧
  (∀ n x, s.columns n = some x → ∃ r ∈ rows, r.field = n)

/-- The rows of `SHOW INDEXES`, in any order. -/
def ReportsIndexes (s : Schema) (rows : List IndexRow) : Prop :=
  (∀ r ∈ rows, ∃ x, s.indexes r.keyName = some x ∧ x.multi = decide (r.nonUnique ≠ 0) ∧ 1 ≤ r.seqInIndex ∧ x.columns[r.seqInIndex - 1]? = some r.columnName) ∧
  (∀ n x, s.indexes n = some x → ∀ i, i < x.columns.length → ∃ r ∈ rows, r.keyName = n ∧ r.seqInIndex = i + 1) ∧
  (∀ n x, s.indexes n = some x → x.columns ≠ [])

/-- A double that is a number, not infinite. -/
def finite (bits : UInt64) : Bool := bits >>> 52 &&& 0x7FF != 0x7FF

/-- The default value of a column has the type of the column. -/
def wellTyped (c : Column) : Bool :=
  match c.type, c.default with
  | .dropped, _ | .autoIncrement, _ => true
  | _, .null => true
  | .varchar, .blob _ => true
  | .bool, .integer _ | .int, .integer _ | .int64, .integer _ => true
  | .double, .double d => finite d
  | .datetime, .datetime _ => true
  | _, _ => false

/-- A server that reports what has been defined, in a form which the program knows. -/
structure Faithful (E : Env) (S : Server) : Prop where
  varchar : S.showType (b! "varchar(255)") = b! "varchar(255)"
  tinyint : S.showType (b! "tinyint") = b! "tinyint(1)" ∨ S.showType (b! "tinyint") = b! "tinyint"
  int : S.showType (b! "int") = b! "int(11)" ∨ S.showType (b! "int") = b! "int"
  bigint : S.showType (b! "bigint") = b! "bigint(20)" ∨ S.showType (b! "bigint") = b! "bigint"
  double : S.showType (b! "double") = b! "double"
  longblob : S.showType (b! "longblob") = b! "longblob"
  datetime : S.showType (b! "datetime(6)") = b! "datetime(6)"
  ofBlob : ∀ t s, S.showDefault t (.blob s) = .blob s
  ofInteger : ∀ t n, ∃ s, S.showDefault t (.integer n) = .blob s ∧ E.parseInt s = n
  ofDouble : ∀ t d, finite d = true → ∃ s, S.showDefault t (.double d) = .blob s ∧ E.deq (E.parseDouble s) d = true
  ofTime : ∀ t ns, ∃ s, S.showDefault t (.datetime ns) = .blob s ∧ s.take 19 = (E.printTime ns).take 19
  name : ∀ n, sameName (S.showName n) n = true

/-- Types that are as good as the one that has been asked for: some servers report a display width. -/
def typeNames : ColType → List Bytes
  | .dropped => []
  | .varchar => [b! "varchar(255)"]
  | .bool => [b! "tinyint(1)", b! "tinyint"]
  | .int => [b! "int(11)", b! "int"]
  | .int64 => [b! "bigint(20)", b! "bigint"]
  | .double => [b! "double"]
  | .blob => [b! "longblob"]
  | .datetime => [b! "datetime(6)"]
  | .autoIncrement => [b! "bigint(20)", b! "bigint"]

/-- Two defaults are the same: one from the program, one as reported by the server. -/
def SameDefault (E : Env) : Val → Val → Prop
  | .null, x => x = .null
  | .integer n, x => ∃ s, x = .blob s ∧ E.parseInt s = n
  | .double d, x => ∃ s, x = .blob s ∧ E.deq (E.parseDouble s) d = true
  | .blob b, x => x = .blob b
  | .datetime ns, x => ∃ s, x = .blob s ∧ s.take 19 = (E.printTime ns).take 19

/-- An existent column is as it should be. -/
def ColumnMatches (E : Env) (c : Column) : Option ExColumn → Prop
  | none => c.type = .dropped
  | some x =>
    c.type ≠ .dropped ∧ x.type ∈ typeNames c.type ∧
      (if c.type = .autoIncrement then x.extra = b! "auto_increment" else x.extra = [] ∧ x.nullable = c.nullable ∧ SameDefault E c.default x.default)

/-- An existent index is as it should be. -/
def IndexMatches (i : Index) : Option ExIndex → Prop
  | none => i.type = .dropped
  | some x => i.type ≠ .dropped ∧ x.multi = decide (i.type = .multi) ∧ x.columns.map (·.map DateTime.lower) = i.columns.map (·.map DateTime.lower)

/-- A table is as it should be. -/
def Matches (E : Env) (t : Table) (s : Schema) : Prop :=
  (∀ c ∈ t.columns, ColumnMatches E c (s.columns c.name)) ∧ (∀ i ∈ t.indexes, IndexMatches i (s.indexes i.name))

/-- Structures for which the check makes sense: each column and index occurs once; the primary key has its name in upper case and is unique; an index has columns, and these are
not dropped. -/
structure Sound (t : Table) : Prop where
  typed : ∀ c ∈ t.columns, wellTyped c = true
  columns : (t.columns.map (·.name)).Nodup
  indexes : (t.indexes.map (·.name)).Nodup
  primary : ∀ i ∈ t.indexes, sameName i.name (b! "PRIMARY") = true → i.name = primary ∧ i.type ≠ .multi
  nonempty : ∀ i ∈ t.indexes, i.type ≠ .dropped → i.columns ≠ []
  present : ∀ i ∈ t.indexes, i.type ≠ .dropped → ∀ n ∈ i.columns, ∀ c ∈ t.columns, c.type = .dropped → sameName n c.name = false

/-- A clause is about a column or an index in the structure that is not as it should be: what is missing is added, what differs is modified or replaced, and what is dropped has been
declared so, or is an index that is replaced. -/
def Needed (E : Env) (t : Table) (s : Schema) : Clause → Prop
  | .addColumn d => ∃ c ∈ t.columns, c.name = d.name ∧ c.type ≠ .dropped ∧ s.columns c.name = none
  | .modifyColumn d => ∃ c ∈ t.columns, c.name = d.name ∧ c.type ≠ .dropped ∧ ∃ x, s.columns c.name = some x ∧ ¬ColumnMatches E c (some x)
  | .dropColumn n => ∃ c ∈ t.columns, c.name = n ∧ c.type = .dropped ∧ s.columns n ≠ none
  | .addIndex d => ∃ i ∈ t.indexes, i.name = d.name.getD primary ∧ i.type ≠ .dropped ∧ d.columns = i.columns ∧ ¬IndexMatches i (s.indexes i.name)
  | .dropIndex n => ∃ i ∈ t.indexes, i.name = n ∧ n ≠ primary ∧ ∃ x, s.indexes n = some x ∧ ¬IndexMatches i (some x)
  | .dropPrimaryKey => ∃ i ∈ t.indexes, i.name = primary ∧ ∃ x, s.indexes primary = some x ∧ ¬IndexMatches i (some x)

end Verif.MysqlCheck
