import Verif.Model.Connection
import Verif.Model.Mysql
/-!
# MySQL statements, and queries

Models `MySQL_Connection::execute()`, `fetch_fields()` and `fetch_row()` (mysql_connection.cpp:40-187, 220-374) and
`MySQL_Query_Future` (mysql_query_future.cpp:35-53).

The MySQL library and the server are a parameter.  Buffers are pointers, which the library follows when the statement is
executed; a pointer into a vector that has been reallocated is dangling.
-/
namespace Verif.MysqlQuery
open Verif.Mysql Verif.Connection

/-- `MySQL_Value`; a double is its bits.  (mysql_value.hpp:14-25) -/
inductive Value where
  | null
  | integer (n : Int)
  | double (d : UInt64)
  | blob (s : Bytes)
  | datetime (ns : Int)
deriving DecidableEq, Repr

/-! ## Arguments -/

/-- `buffer_type` -/
inductive BufType where
  | null | longlong | double | blob | datetime
deriving DecidableEq, Repr

/-- A pointer to an argument, or to an element of `time_buf` when it was at some place in memory. -/
inductive Ptr where
  | null
  | arg (col : Nat)
  | time (place col : Nat)
deriving DecidableEq, Repr

/-- `::MYSQL_BIND` -/
structure Bind where
  type : BufType
  buffer : Ptr := .null
  length : Nat := 0
deriving DecidableEq, Repr

/-- `time_buf`, with its place in memory. -/
structure TimeBuf where
  place : Nat := 0
  data : List Time := []
deriving DecidableEq, Repr

def Time.zero : Time := ⟨0, 0, 0, 0, 0, 0, 0⟩

/-- `time_buf.resize(n)`.  Simplified: if it becomes larger, then it always moves to another place. -/
def TimeBuf.resize (b : TimeBuf) (n : Nat) : TimeBuf :=
  if n ≤ b.data.length then { b with data := b.data.take n }
  else { place := b.place + 1, data := b.data ++ List.replicate (n - b.data.length) Time.zero }

/-- One iteration.  (mysql_connection.cpp:116-165) -/
def bindOne (zone : Int → Int) (nargs col : Nat) (tb : TimeBuf) : Value → TimeBuf × Bind
  | .null => (tb, { type := .null })
  | .integer _ => (tb, { type := .longlong, buffer := .arg col, length := 8 })
  | .double _ => (tb, { type := .double, buffer := .arg col, length := 8 })
  | .blob s => (tb, { type := .blob, buffer := .arg col, length := s.length })
  | .datetime ns =>
    let tb := tb.resize nargs
    let tb := { tb with data := tb.data.set col (bindTime zone ns) }
    (tb, { type := .datetime, buffer := .time tb.place col })

/-- The loop over the parameters from `col` on, given as the arguments for them.  (mysql_connection.cpp:110-165) -/
def bindLoop (zone : Int → Int) (nargs : Nat) : List Value → Nat → TimeBuf → List Bind → TimeBuf × List Bind
  | [], _, tb, binds => (tb, binds)
  | v :: vs, col, tb, binds =>
    let (tb, b) := bindOne zone nargs col tb v
    bindLoop zone nargs vs (col + 1) tb (binds ++ [b])

/-- What the server gets for a parameter. -/
inductive Param where
  | null
  | longlong (n : Int)
  | double (d : UInt64)
  | blob (s : Bytes)
  | datetime (t : Time)
deriving DecidableEq, Repr

/-- The library follows a pointer; `none` is undefined behavior. -/
def deref (args : List Value) (tb : TimeBuf) (b : Bind) : Option Param :=
  match b.type, b.buffer with
  | .null, _ => some .null
  | .longlong, .arg col => match args[col]? with | some (.integer n) => if b.length = 8 then some (.longlong n) else none | _ => none
  | .double, .arg col => match args[col]? with | some (.double d) => if b.length = 8 then some (.double d) else none | _ => none
  | .blob, .arg col => match args[col]? with | some (.blob s) => if b.length ≤ s.length then some (.blob (s.take b.length)) else none | _ => none
  | .datetime, .time place col => if place = tb.place then (tb.data[col]?).map .datetime else none
  | _, _ => none

/-! ## Results -/

/-- The type of a column.  `other` is any other type: strings, blobs, decimals and so on. -/
inductive FieldType where
  | null | tiny | short | int24 | long | longlong | float | double | timestamp | datetime | date | time | other
deriving DecidableEq, Repr

/-- What there is in a row, for a column. -/
inductive Cell where
  | null
  | int (n : Int)
  | real (d : UInt64)
  | time (t : Time)
  | bytes (s : Bytes)
deriving DecidableEq, Repr

/-- The result of `mysql_stmt_fetch()` for a row. -/
inductive Row where
  | cells (cs : List Cell)
  | error
deriving DecidableEq, Repr

/-- `fields` is what `mysql_stmt_result_metadata()` gives; without it there are no columns. -/
structure ResultSet where
  fields : Option (List (Bytes × FieldType)) := none
  rows : List Row := []
  warnings : Nat := 0
  matched : Nat := 0
  insertId : Nat := 0
deriving DecidableEq, Repr

/-- What the server sees. -/
inductive Ev where
  | connect (t : Target) (password : Bytes) (ok : Bool)
  | prepare (stmt : Bytes) (nparams : Option Nat)
  | execute (stmt : Bytes) (params : List Param) (r : Option ResultSet)
deriving DecidableEq, Repr

/-- The library and the server.  `toInt` and so on are conversions between types, which are not needed if a value is of the type that
the field is said to have. -/
structure Net where
  connect : List Ev → Target → Bytes → Bool
  prepare : List Ev → Bytes → Option Nat
  execute : List Ev → Bytes → List Param → Option ResultSet
  zone : Int → Int
  timelocal : DateTime.Tm → Int → Int
  isdst : Int
  toInt : Cell → Int
  toReal : Cell → UInt64
  toTime : Cell → Time
  toBytes : Cell → Bytes

/-- `MySQL_Connection`.  `stmt` is `m_stmt`: its result, from the next row on, if it has been executed.
(mysql_connection.hpp:14-30) -/
structure Conn where
  uri : Bytes
  password : Bytes
  connected : Bool := false
  clear : Bool := true
  stmt : Option ResultSet := none
  trace : List Ev := []

/-- How `execute()` ends.  All but `ok` are exceptions, but `ub` is undefined behavior. -/
inductive Res where
  | empty | uri | connect | prepare | few | execute | ok | ub
deriving DecidableEq, Repr

/-- `if(!m_connected) { ... }`, without the condition.  (mysql_connection.cpp:46-90) -/
def login (net : Net) (c : Conn) : Conn × Option Res :=
  match service_target mysqlDefaults c.uri with
  | none => (c, some .uri)
  | some t =>
    let t := { t with user := cstr t.user, host := cstr t.host, database := cstr t.database }
    let ok := net.connect c.trace t (cstr c.password)
    let c := { c with trace := c.trace ++ [.connect t (cstr c.password) ok] }
    if !ok then (c, some .connect) else ({ c with password := [], connected := true }, none)

/-- The parameters are bound, and the statement is executed.  (mysql_connection.cpp:110-187) -/
def bindAndExecute (net : Net) (c : Conn) (stmt : Bytes) (args : List Value) (nparams : Nat) : Conn × Res :=
  let (tb, binds) := bindLoop net.zone args.length (args.take nparams) 0 {} []
  let c := { c with clear := false }
  match binds.mapM (deref args tb) with
  | none => (c, .ub)
  | some params =>
    let r := net.execute c.trace stmt params
    let c := { c with stmt := some (r.getD {}), trace := c.trace ++ [.execute stmt params r] }
    (c, if r.isSome then .ok else .execute)

/-- `execute()` on a connection.  `mysql_stmt_init()` does not fail here.  (mysql_connection.cpp:92-187) -/
def prepare (net : Net) (c : Conn) (stmt : Bytes) (args : List Value) : Conn × Res :=
  let n := net.prepare c.trace stmt
  let c := { c with stmt := some {}, trace := c.trace ++ [.prepare stmt n] }
  match n with
  | none => (c, .prepare)
  | some nparams => if args.length < nparams then (c, .few) else bindAndExecute net c stmt args nparams

/-- `execute(stmt, args)`.  (mysql_connection.cpp:40-187) -/
def execute (net : Net) (c : Conn) (stmt : Bytes) (args : List Value) : Conn × Res :=
  if stmt.isEmpty then (c, .empty)
  else if c.connected then prepare net c stmt args
  else match login net c with
    | (c, some e) => (c, e)
    | (c, none) => prepare net c stmt args

/-- `fetch_fields()`.  (mysql_connection.cpp:220-245) -/
def fetch_fields (c : Conn) : Bool × List Bytes :=
  match c.stmt with
  | none => (false, [])
  | some r => match r.fields with
    | none => (false, [])
    | some fs => (true, fs.map Prod.fst)

/-- A 64-bit integer is stored into a signed one. -/
def wrap64 (n : Int) : Int := (n + 9223372036854775808) % 18446744073709551616 - 9223372036854775808

/-- The buffer for a column.  (mysql_connection.cpp:276-318) -/
def bufType : FieldType → BufType
  | .null => .null
  | .tiny => .longlong
  | .short => .longlong
  | .int24 => .longlong
  | .long => .longlong
  | .longlong => .longlong
  | .float => .double
  | .double => .double
  | .timestamp => .datetime
  | .datetime => .datetime
  | .date => .datetime
  | .time => .datetime
  | .other => .blob

def Net.int (net : Net) : Cell → Int
  | .int n => wrap64 n
  | c => wrap64 (net.toInt c)

def Net.real (net : Net) : Cell → UInt64
  | .real d => d
  | c => net.toReal c

def Net.datetime (net : Net) : Cell → Time
  | .time t => t
  | c => net.toTime c

def Net.bytes (net : Net) : Cell → Bytes
  | .bytes s => s
  | c => net.toBytes c

/-- `resize(n)` of a string. -/
def resize (s : Bytes) (n : Nat) : Bytes := s.take n ++ List.replicate (n - s.length) 0

/-- The library writes as much as there is room for. -/
def writeInto (buf s : Bytes) : Bytes := s.take buf.length ++ buf.drop s.length

/-- A blob: the buffer has 255 bytes; if there are more, they are fetched again.  (mysql_connection.cpp:312-317, 360-370) -/
def fetchBlob (s : Bytes) : Bytes :=
  let buf := writeInto (List.replicate 255 0) s
  let out := resize buf s.length
  if 255 < s.length then writeInto out s else out

/-- A column; `none` is undefined behavior.  (mysql_connection.cpp:276-326, 336-371) -/
def fetchCell (net : Net) (ty : FieldType) (c : Cell) : Option Value :=
  match c with
  | .null => some .null
  | c => match bufType ty with
    | .null => some .null
    | .longlong => some (.integer (net.int c))
    | .double => some (.double (net.real c))
    | .datetime => match fetchTime net.timelocal net.isdst (net.datetime c) with
      | .ok ns _ => some (.datetime ns)
      | _ => none
    | .blob => some (.blob (fetchBlob (net.bytes c)))

inductive Fetched where
  | row (vs : List Value)
  | no
  | throw
  | ub
deriving DecidableEq, Repr

/-- A row; there are as many cells as fields. -/
def fetchCells (net : Net) : List (Bytes × FieldType) → List Cell → Option (List Value)
  | f :: fs, c :: cs => match fetchCell net f.2 c with
    | none => none
    | some v => (fetchCells net fs cs).map (v :: ·)
  | _, _ => some []

/-- `fetch_row()`.  If there are no columns, then `mysql_stmt_bind_result()` fails.  (mysql_connection.cpp:247-374) -/
def fetch_row (net : Net) (c : Conn) : Conn × Fetched :=
  match c.stmt with
  | none => (c, .no)
  | some r => match r.fields with
    | none => (c, .no)
    | some fs =>
      if fs.isEmpty then (c, .no)
      else match r.rows with
        | [] => (c, .no)
        | row :: rows =>
          let c := { c with stmt := some { r with rows := rows } }
          match row with
          | .error => (c, .throw)
          | .cells cs => match fetchCells net fs cs with
            | none => (c, .ub)
            | some vs => (c, .row vs)

/-- `while(fetch_row(row)) m_result_rows.push_back(row)`; `none` is an exception, or undefined behavior; the number of iterations is
limited.  (mysql_query_future.cpp:50-52) -/
def fetchAll (net : Net) : Nat → Conn → List (List Value) → Conn × Option (List (List Value))
  | 0, c, _ => (c, none)
  | n + 1, c, acc => match fetch_row net c with
    | (c, .row vs) => fetchAll net n c (acc ++ [vs])
    | (c, .no) => (c, some acc)
    | (c, _) => (c, none)

/-- What a future gives. -/
structure Result where
  warning_count : Nat
  match_count : Nat
  insert_id : Nat
  fields : List Bytes
  rows : List (List Value)
deriving DecidableEq, Repr

/-- Inaccessible unless there is a statement.  (mysql_connection.cpp:189-218) -/
def Conn.result (c : Conn) : ResultSet := c.stmt.getD {}

/-- `do_on_abstract_future_initialize()` with a connection; `none` is an exception.  (mysql_query_future.cpp:35-53) -/
def query (net : Net) (c : Conn) (stmt : Bytes) (args : List Value) : Conn × Option Result :=
  match execute net c stmt args with
  | (c, .ok) =>
    let r := c.result
    match fetchAll net (r.rows.length + 1) c [] with
    | (c', some rows) => (c', some ⟨r.warnings, r.matched, r.insertId, (fetch_fields c).2, rows⟩)
    | (c', none) => (c', none)
  | (c, _) => (c, none)

end Verif.MysqlQuery
