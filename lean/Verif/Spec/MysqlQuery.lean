import Verif.Model.MysqlQuery
/-! # Specification vocabulary for MySQL queries -/
namespace Verif.Spec
open Verif.MysqlQuery Verif.Mysql

/-- What an argument is for the server; see C44 for date-times. -/
def paramOf (zone : Int → Int) : Value → Param
  | .null => .null
  | .integer n => .longlong n
  | .double d => .double d
  | .blob s => .blob s
  | .datetime ns => .datetime (bindTime zone ns)

/-- What a column of a row is for the client.  Integers have to fit into signed 64-bit ones; see C44 for date-times. -/
inductive ReadsCell (net : Net) : FieldType → Cell → Value → Prop
  | null {ty} : ReadsCell net ty .null .null
  | integer {ty n} : ty ∈ [FieldType.tiny, .short, .int24, .long, .longlong] → -9223372036854775808 ≤ n → n ≤ 9223372036854775807 →
      ReadsCell net ty (.int n) (.integer n)
  | double {ty d} : ty ∈ [FieldType.float, .double] → ReadsCell net ty (.real d) (.double d)
  | datetime {ty t ns k} : ty ∈ [FieldType.timestamp, .datetime, .date, .time] → fetchTime net.timelocal net.isdst t = .ok ns k →
      ReadsCell net ty (.time t) (.datetime ns)
  | blob {s} : ReadsCell net .other (.bytes s) (.blob s)

/-- … a row … -/
inductive ReadsRow (net : Net) : List (Bytes × FieldType) → List Cell → List Value → Prop
  | nil : ReadsRow net [] [] []
  | cons {f fs c cs v vs} : ReadsCell net f.2 c v → ReadsRow net fs cs vs → ReadsRow net (f :: fs) (c :: cs) (v :: vs)

/-- … and all rows. -/
inductive ReadsRows (net : Net) (fs : List (Bytes × FieldType)) : List Row → List (List Value) → Prop
  | nil : ReadsRows net fs [] []
  | cons {cs vs rows vss} : ReadsRow net fs cs vs → ReadsRows net fs rows vss → ReadsRows net fs (.cells cs :: rows) (vs :: vss)

/-- What the owner of a connection does. -/
inductive MysqlAct
  | execute (stmt : Bytes) (args : List Value)
  | fetch
  | reset (ok : Bool)

def mysqlRun (net : Net) (c : Conn) : List MysqlAct → Conn
  | [] => c
  | .execute stmt args :: as => mysqlRun net (execute net c stmt args).1 as
  | .fetch :: as => mysqlRun net (fetch_row net c).1 as
  -- `reset()`: the statement is closed
  | .reset ok :: as => mysqlRun net { c with stmt := none, clear := !(c.connected && !ok) } as

end Verif.Spec
