import Verif.Model.SqlText
import Verif.Spec.Mysql
/-!
# How a MySQL server reads a statement

From the MySQL manual, sections Literal Values and Schema Object Names: a statement is a sequence of names in backticks, in which two backticks denote one; strings in quotes (see `Verif/Spec/Mysql.lean`);
words, which include numbers with their signs; and other characters.  White space separates them.  Comments are not recognized; nothing that begins one occurs in the statements below, outside of names and strings.
-/
namespace Verif.Sql
open Verif.MysqlCheck

inductive Tok where
  | name (s : Bytes)
  | str (s : Bytes)
  | word (s : Bytes)
  | sym (c : Byte)
deriving DecidableEq, Repr

/-- Where the reader is. -/
inductive St where
  | idle
  | word (s : Bytes)
  | name (s : Bytes)
  /-- after a backtick in a name: the name ends here, unless another one follows -/
  | tick (s : Bytes)
  | str (s : Bytes)
  | esc (s : Bytes)
  /-- after a quote in a string -/
  | quote (s : Bytes)
deriving DecidableEq, Repr

def wordByte (c : Byte) : Bool := (48 ≤ c && c ≤ 57) || (65 ≤ c && c ≤ 90) || (97 ≤ c && c ≤ 122) || c = chr '_' || c = chr '-' || c = chr '+' || c = chr '.'

def begins (c : Byte) : List Tok × St :=
  if c = chr '`' then ([], .name [])
  else if c = chr '\'' then ([], .str [])
  else if wordByte c then ([], .word [c])
  else if c = chr ' ' ∨ c = 10 then ([], .idle)
  else ([.sym c], .idle)

def step : St → Byte → List Tok × St
  | .idle, c => begins c
  | .word s, c => if wordByte c then ([], .word (s ++ [c])) else (.word s :: (begins c).1, (begins c).2)
  | .name s, c => if c = chr '`' then ([], .tick s) else ([], .name (s ++ [c]))
  | .tick s, c => if c = chr '`' then ([], .name (s ++ [c])) else (.name s :: (begins c).1, (begins c).2)
  | .str s, c => if c = chr '\\' then ([], .esc s) else if c = chr '\'' then ([], .quote s) else ([], .str (s ++ [c]))
  | .esc s, c => ([], .str (s ++ Mysql.unescape c))
  | .quote s, c => if c = chr '\'' then ([], .str (s ++ [c])) else (.str s :: (begins c).1, (begins c).2)

def run (st : St) : Bytes → List Tok × St
  | [] => ([], st)
  | c :: s => ((step st c).1 ++ (run (step st c).2 s).1, (run (step st c).2 s).2)

/-- The tokens of a statement; `none` if a name or a string is not terminated. -/
def tokens (text : Bytes) : Option (List Tok) :=
  match run .idle text with
  | (l, .idle) => some l
  | (l, .word s) => some (l ++ [.word s])
  | (l, .tick s) => some (l ++ [.name s])
  | (l, .quote s) => some (l ++ [.str s])
  | _ => none

/-! ## What statements should say -/

/-- Keywords. -/
def words (l : List Bytes) : List Tok := l.map .word

/-- Items, separated by commas. -/
def commas : List (List Tok) → List Tok
  | [] => []
  | x :: xs => x ++ xs.flatMap (.sym (chr ',') :: ·)

def parens (l : List Tok) : List Tok := .sym (chr '(') :: l ++ [.sym (chr ')')]

/-- A literal. -/
def valueTokens (double : UInt64 → Bytes) (zone : Int → Int) : Val → List Tok
  | .null => words [b! "NULL"]
  | .integer n => [.word ((if n < 0 then [chr '-'] else []) ++ (Nat.toDigits 10 n.natAbs).map chr)]
  | .double d => [.word (double d)]
  | .blob s => [.str s]
  | .datetime ns => [.str ((DateTime.print_git_partial zone ns).take 19)]

/-- The definition of a column. -/
def columnTokens (double : UInt64 → Bytes) (zone : Int → Int) (d : ColumnDef) : List Tok :=
  .name d.name ::
  (if d.type = b! "varchar(255)" then .word (b! "varchar") :: parens (words [b! "255"])
   else if d.type = b! "datetime(6)" then .word (b! "datetime") :: parens (words [b! "6"])
   else [.word d.type]) ++
  (if d.autoIncrement then words [b! "AUTO_INCREMENT"] else []) ++
  (if d.notNull then words [b! "NOT", b! "NULL"] else []) ++
  match d.default with
  | none => []
  | some v => words [b! "DEFAULT"] ++ valueTokens double zone v

/-- The definition of an index. -/
def indexTokens (d : IndexDef) : List Tok :=
  (match d.name with
    | none => words [b! "PRIMARY", b! "KEY"]
    | some n => (if d.unique then words [b! "UNIQUE", b! "INDEX"] else words [b! "INDEX"]) ++ [.name n]) ++
  parens (commas (d.columns.map fun n => [.name n]))

/-- A part of an `ALTER TABLE` statement. -/
def clauseTokens (double : UInt64 → Bytes) (zone : Int → Int) : Clause → List Tok
  | .addColumn d => words [b! "ADD", b! "COLUMN"] ++ columnTokens double zone d
  | .modifyColumn d => words [b! "MODIFY", b! "COLUMN"] ++ columnTokens double zone d
  | .dropColumn n => words [b! "DROP", b! "COLUMN"] ++ [.name n]
  | .addIndex d => words [b! "ADD"] ++ indexTokens d
  | .dropIndex n => words [b! "DROP", b! "INDEX"] ++ [.name n]
  | .dropPrimaryKey => words [b! "DROP", b! "PRIMARY", b! "KEY"]

def equals (w : Bytes) (v : List Tok) : List Tok := .word w :: .sym (chr '=') :: v

def engineName : SqlText.Engine → Bytes
  | .innodb => b! "InnoDB"
  | .myisam => b! "MyISAM"
  | .memory => b! "MEMORY"
  | .archive => b! "ARCHIVE"

/-- A `CREATE TABLE` statement, with the first value of each column that is counted. -/
def createTokens (double : UInt64 → Bytes) (zone : Int → Int) (name : Bytes) (e : SqlText.Engine) (columns : List ColumnDef) (indexes : List IndexDef) (firsts : List Val) : List Tok :=
  words [b! "CREATE", b! "TABLE", b! "IF", b! "NOT", b! "EXISTS"] ++ [.name name] ++
  parens (commas (columns.map (columnTokens double zone) ++ indexes.map indexTokens)) ++
  commas (equals (b! "ENGINE") [.str (engineName e)] :: equals (b! "CHARSET") [.str (b! "utf8mb4")] :: firsts.map fun v => equals (b! "AUTO_INCREMENT") (valueTokens double zone v))

/-- How doubles are printed: as words. -/
def PrintsDoubles (double : UInt64 → Bytes) : Prop := ∀ d, double d ≠ [] ∧ ∀ c ∈ double d, wordByte c = true

/-- No name has a backtick in it. -/
def Plain (name : Bytes) (t : Table) : Prop :=
  chr '`' ∉ name ∧ (∀ c ∈ t.columns, chr '`' ∉ c.name) ∧ ∀ i ∈ t.indexes, chr '`' ∉ i.name ∧ ∀ n ∈ i.columns, chr '`' ∉ n

end Verif.Sql
