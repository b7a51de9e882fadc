import Verif.Model.Fiber
import Verif.Model.Pool
import Verif.Model.Queries
import Verif.Model.MysqlQuery
/-!
# Fibers, futures, connection pools and database servers together

Models how `Redis_Query_Future`, `MySQL_Query_Future` and `Mongo_Query_Future` (fiber/redis_query_future.cpp, fiber/mysql_query_future.cpp, fiber/mongo_query_future.cpp) take part in
everything else: the scheduler of fibers and the threads that execute futures (`Verif.Fiber`), the pool of connections (`Verif.Pool`), and the conversations of connections with servers
(`Verif.Connection`, `Verif.MysqlQuery`, `Verif.MongoQuery`).  Lines are those in redis_query_future.cpp.

Any number of threads execute futures.  There are also users of the API who allocate connections by themselves, use them in any way, give them back, or lend them to futures.  Whatever can be
interleaved is a step of its own: reading the configuration, taking a connection from the pool, sending a command, reading its reply, resetting the connection, and giving it back.  The server
may give any answer to any call, and another one every time.

Simplified: a future which has not given back its connection, because it could not be reset or because the pool has refused it, keeps it; its destruction is not modelled.
-/
namespace Verif.DbAsk
open Verif.Fiber (upd)

/-- What a call to `execute()` has done, as far as the pool is concerned: nothing, or it has only connected, or it has sent the command; and whether there has been an I/O error. -/
inductive Use where
  | nothing
  | connects
  | sends (err : Bool)
deriving DecidableEq, Repr

/-- A kind of connections. -/
structure Driver where
  kind : Pool.Kind
  Conn : Type
  Cmd : Type
  Res : Type
  Net : Type
  Ev : Type
  /-- the constructor, with a service URI and a password -/
  fresh : Bytes → Bytes → Conn
  uri : Conn → Bytes
  /-- `m_reset_clear` -/
  clear : Conn → Bool
  /-- what the server has seen on this connection -/
  trace : Conn → List Ev
  /-- `execute()`; false is an exception -/
  execute : Net → Conn → Cmd → Conn × Bool
  use : Net → Conn → Cmd → Use
  /-- what a query future does after `execute()`; `none` is an exception -/
  fetch : Net → Conn → Conn × Option Res
  /-- fetching one reply, one row or one document -/
  next : Net → Conn → Conn
  /-- `reset()`, where the first argument is what `mysql_reset_connection()` says -/
  reset : Bool → Conn → Conn × Bool

/-- How far the query of a future has got. -/
inductive Phase (D : Driver) where
  /-- constructed without a connection, or with one -/
  | new
  | lent (id : Nat)
  /-- in `do_on_abstract_future_initialize()`: about to read the configuration -/
  | started
  /-- about to take a connection from the pool, or to make one -/
  | reading
  /-- about to call `execute()` -/
  | holding (id : Nat)
  /-- about to fetch -/
  | executed (id : Nat)
  /-- about to leave the initializer, with a result or an exception, and then to notify waiters -/
  | ended (id : Nat) (r : Option D.Res)
  /-- in `do_on_abstract_future_finalize()`, after a successful reset: about to read the configuration -/
  | cleared (id : Nat) (r : Option D.Res)
  /-- about to give back the connection -/
  | returning (id : Nat) (r : Option D.Res)
  | over (r : Option D.Res)

/-- The connection that a future has, unless it is through. -/
def Phase.conn {D : Driver} : Phase D → Option Nat
  | .lent id => some id
  | .holding id => some id
  | .executed id => some id
  | .ended id _ => some id
  | .cleared id _ => some id
  | .returning id _ => some id
  | _ => none

/-- `result()` and so on.  (redis_query_future.hpp:44-59) -/
def Phase.result {D : Driver} : Phase D → Option D.Res
  | .ended _ r => r
  | .cleared _ r => r
  | .returning _ r => r
  | .over r => r
  | _ => none

/-- What can be seen: what happens to fibers and futures, and what a server sees on a connection because of a call of its owner. -/
inductive Item (D : Driver) where
  | fiber (e : Fiber.Ev)
  | server (owner id : Nat) (e : D.Ev)

structure Sys (D : Driver) where
  fib : Fiber.Sys
  pool : Pool.Sys
  real : Nat → D.Conn
  phase : Nat → Phase D := fun _ => .new
  /-- the configurations that have been loaded; the latest first -/
  confs : List Pool.Conf := [{}]
  /-- earliest first -/
  log : List (Item D) := []

/-- A future owns connections by one number, and a user of the API by another. -/
def future (f : Nat) : Nat := 2 * f
def user (h : Nat) : Nat := 2 * h + 1

/-- What a user of the API does with connections. -/
inductive UserAct (D : Driver) where
  | readConf
  | allocate (uri password : Bytes)
  | allocateDefault
  | execute (id : Nat) (net : D.Net) (cmd : D.Cmd)
  | next (id : Nat) (net : D.Net)
  | reset (id : Nat) (ok : Bool)
  | giveBack (id : Nat)
  | destroy (id : Nat)
  /-- constructs a future with a connection -/
  | lend (id f : Nat)

inductive Act (D : Driver) where
  | fiber (a : Fiber.Act)
  | reload (c : Pool.Conf)
  | tick (n : Nat)
  | user (h : Nat) (a : UserAct D)
  /-- In `do_on_abstract_future_initialize()`, by thread `t`. -/
  | readConf (t : Nat)
  | allocate (t : Nat)
  | execute (t : Nat) (net : D.Net)
  | fetch (t : Nat) (net : D.Net)
  /-- In `do_on_abstract_future_finalize()`, by thread `t`. -/
  | reset (t : Nat) (ok : Bool)
  | rereadConf (t : Nat)
  | giveBack (t : Nat)

/-- The events by which the history of fibers has grown. -/
def news (s s' : Fiber.Sys) : List Fiber.Ev := (s'.trace.take (s'.trace.length - s.trace.length)).reverse

variable {D : Driver}

/-- A step of the pool, without an effect on connections.  (redis_connector.cpp) -/
def onPool (s : Sys D) (a : Pool.Act) : Option (Sys D) := (Pool.step s.pool a).map fun p => { s with pool := p }

/-- An allocation: the connection that has been given, which is constructed if it is new.  (redis_connector.cpp:83-112) -/
def onAllocate (s : Sys D) (a : Pool.Act) : Option (Sys D × Nat) :=
  match Pool.step s.pool a with
  | none => none
  | some p => match p.trace.head? with
    | some (.given _ id uri password true) => some ({ s with pool := p, real := upd s.real id (D.fresh uri password) }, id)
    | some (.given _ id _ _ false) => some ({ s with pool := p }, id)
    | _ => none

/-- What the pool has to know about a call to `execute()`.  Sessions on servers are not considered here. -/
def Use.act (h id : Nat) : Use → Pool.Act
  | .nothing => .tick 0
  | .connects => .connect h id
  | .sends err => .execute h id 0 err

/-- `execute()` by the owner of a connection: the connection, and what its server has seen.  (redis_connection.cpp:38-149, mysql_connection.cpp:40-187, mongo_connection.cpp:64-249) -/
def onExecute (s : Sys D) (h id : Nat) (net : D.Net) (cmd : D.Cmd) : Option (Sys D) :=
  if (h, id) ∈ s.pool.owned then
    let c := (D.execute net (s.real id) cmd).1
    (Pool.step s.pool ((D.use net (s.real id) cmd).act h id)).map fun p =>
      { s with pool := p, real := upd s.real id c, log := s.log ++ ((D.trace c).drop (D.trace (s.real id)).length).map (.server h id) }
  else none

/-- `reset()` by the owner of a connection.  (redis_connection.cpp:24-36, mysql_connection.cpp:24-38, mongo_connection.cpp:51-62) -/
def onReset (s : Sys D) (h id : Nat) (ok : Bool) : Option (Sys D) :=
  (Pool.step s.pool (.reset h id ok)).map fun p => { s with pool := p, real := upd s.real id (D.reset ok (s.real id)).1 }

/-- What users of the API do.  A future can be constructed with a connection. -/
def onUser (s : Sys D) (h : Nat) : UserAct D → Option (Sys D)
  | .readConf => onPool s (.read (user h))
  | .allocate uri password => (onAllocate s (.allocate (user h) uri password)).map (·.1)
  | .allocateDefault => (onAllocate s (.allocateDefault (user h))).map (·.1)
  | .execute id net cmd => onExecute s (user h) id net cmd
  | .next id net => if (user h, id) ∈ s.pool.owned then some { s with real := upd s.real id (D.next net (s.real id)) } else none
  | .reset id ok => onReset s (user h) id ok
  | .giveBack id => onPool s (.giveBack (user h) id)
  | .destroy id => onPool s (.destroy (user h) id)
  /- (11-18) -/
  | .lend id f => match s.phase f with
    | .new => (onPool s (.move (user h) (future f) id)).map fun s =>
      { s with phase := upd s.phase f (.lent id) }
    | _ => none

/-- Fibers, and what futures do when they are executed; the initializer exits in accordance with its query, and the finalizer is what is below.  (abstract_future.cpp:24-58) -/
def onFiber (s : Sys D) (a : Fiber.Act) : Option (Sys D) :=
  match Fiber.step s.fib a with
  | none => none
  | some fib =>
    let s' : Sys D := { s with fib := fib, log := s.log ++ (news s.fib fib).map .fiber }
    match a with
    | .call _ f =>
      if (s.fib.fut f).init then some s'
      /- (38-39) -/
      else some { s' with phase := upd s.phase f (match s.phase f with | .lent id => .holding id | _ => .started) }
    | .exit t e => match s.fib.thr t with
      | .initing f => match s.phase f with
        | .ended _ r => if e = (if r.isSome then .ok else .threw) then some s' else none
        | _ => none
      | _ => none
    | .finalize t => match s.fib.thr t with
      | .notifying f _ _ => match s.phase f with
        | .over _ => some s'
        | _ => none
      | _ => none
    | _ => some s'

/-- The future that a thread initializes. -/
def initing (s : Sys D) (t : Nat) : Option Nat := match s.fib.thr t with | .initing f => some f | _ => none

/-- The future that a thread finalizes, after it has notified all waiters. -/
def finalizing (s : Sys D) (t : Nat) : Option Nat := match s.fib.thr t with | .notifying f _ [] => some f | _ => none

/-- A step.  `cmd` is what each future is to ask. -/
def step (cmd : Nat → D.Cmd) (s : Sys D) : Act D → Option (Sys D)
  | .fiber a => onFiber s a
  | .reload c => (onPool s (.reload c)).map fun s => { s with confs := c :: s.confs }
  | .tick n => onPool s (.tick n)
  | .user h a => onUser s h a
  /- `allocate_default_connection()` (38-39; redis_connector.cpp:98-112) -/
  | .readConf t => match initing s t with
    | none => none
    | some f => match s.phase f with
      | .started => (onPool s (.read (future f))).map fun s => { s with phase := upd s.phase f .reading }
      | _ => none
  | .allocate t => match initing s t with
    | none => none
    | some f => match s.phase f with
      | .reading => (onAllocate s (.allocateDefault (future f))).map fun r => { r.1 with phase := upd r.1.phase f (.holding r.2) }
      | _ => none
  /- (41) -/
  | .execute t net => match initing s t with
    | none => none
    | some f => match s.phase f with
      | .holding id => (onExecute s (future f) id net (cmd f)).map fun s' =>
        { s' with phase := upd s'.phase f (if (D.execute net (s.real id) (cmd f)).2 then .executed id else .ended id none) }
      | _ => none
  /- (43-45) -/
  | .fetch t net => match initing s t with
    | none => none
    | some f => match s.phase f with
      | .executed id => some { s with real := upd s.real id (D.fetch net (s.real id)).1, phase := upd s.phase f (.ended id (D.fetch net (s.real id)).2) }
      | _ => none
  /- (55) -/
  | .reset t ok => match finalizing s t with
    | none => none
    | some f => match s.phase f with
      | .ended id r => (onReset s (future f) id ok).map fun s' => { s' with phase := upd s'.phase f (if (D.reset ok (s.real id)).2 then .cleared id r else .over r) }
      | _ => none
  /- `pool_connection()` (56; redis_connector.cpp:114-154) -/
  | .rereadConf t => match finalizing s t with
    | none => none
    | some f => match s.phase f with
      | .cleared id r => (onPool s (.read (future f))).map fun s => { s with phase := upd s.phase f (.returning id r) }
      | _ => none
  | .giveBack t => match finalizing s t with
    | none => none
    | some f => match s.phase f with
      | .returning id r => (onPool s (.giveBack (future f) id)).map fun s => { s with phase := upd s.phase f (.over r) }
      | _ => none

def run (cmd : Nat → D.Cmd) (s : Sys D) : List (Act D) → Option (Sys D)
  | [] => some s
  | a :: as => match step cmd s a with
    | none => none
    | some s => run cmd s as

/-- Before anything has happened. -/
def start (D : Driver) (warn fail : Nat) : Sys D := { fib := { warn := warn, fail := fail }, pool := { kind := D.kind }, real := fun _ => D.fresh [] [] }

inductive Reachable (cmd : Nat → D.Cmd) : Sys D → Prop
  | init (warn fail : Nat) : Reachable cmd (start D warn fail)
  | step {s s' : Sys D} {a : Act D} : Reachable cmd s → step cmd s a = some s' → Reachable cmd s'

/-! ## Redis, MySQL and MongoDB -/

/-- `Redis_Connection`.  (redis_connection.cpp, redis_query_future.cpp:35-46) -/
def redis : Driver where
  kind := .redis
  Conn := Connection.Conn
  Cmd := List Bytes
  Res := Bytes × Redis.Value
  Net := Connection.Net
  Ev := Connection.Ev
  fresh uri password := { uri := uri, password := password }
  uri := Connection.Conn.uri
  clear := Connection.Conn.clear
  trace := Connection.Conn.trace
  execute net c cmd := match Connection.execute net c cmd with
    | (c, .sent r) => (c, Connection.accepted r)
    | (c, _) => (c, false)
  use net c cmd := match (Connection.execute net c cmd).2 with
    | .sent r => .sends r.isNone
    | _ => .nothing
  fetch _ c := match Connection.fetch c with
    | (c, some (_, status, value)) => (c, some (status, value))
    | (c, none) => (c, none)
  next _ c := (Connection.fetch c).1
  reset _ c := Connection.reset c

/-- `MySQL_Connection`.  (mysql_connection.cpp, mysql_query_future.cpp:35-53) -/
def mysql : Driver where
  kind := .mysql
  Conn := MysqlQuery.Conn
  Cmd := Bytes × List MysqlQuery.Value
  Res := MysqlQuery.Result
  Net := MysqlQuery.Net
  Ev := MysqlQuery.Ev
  fresh uri password := { uri := uri, password := password }
  uri := MysqlQuery.Conn.uri
  clear := MysqlQuery.Conn.clear
  trace := MysqlQuery.Conn.trace
  execute net c cmd := match MysqlQuery.execute net c cmd.1 cmd.2 with
    | (c, .ok) => (c, true)
    | (c, _) => (c, false)
  use net c cmd := match (MysqlQuery.execute net c cmd.1 cmd.2).2 with
    | .ok => .sends false
    | .execute => .sends true
    | .ub => .sends true
    | .prepare => .connects
    | .few => .connects
    | _ => .nothing
  fetch net c := match MysqlQuery.fetchAll net (c.result.rows.length + 1) c [] with
    | (c', some rows) => (c', some ⟨c.result.warnings, c.result.matched, c.result.insertId, (MysqlQuery.fetch_fields c).2, rows⟩)
    | (c', none) => (c', none)
  next net c := (MysqlQuery.fetch_row net c).1
  reset ok c := ({ c with stmt := none, clear := !(c.connected && !ok) }, !(c.connected && !ok))

/-- `Mongo_Connection`, with its URI; what the cursor in the latest reply is; and what its server has been sent and has replied. -/
structure MongoConn where
  uri : Bytes
  conn : MongoQuery.Conn := {}
  cursor : MongoQuery.Cursor := ⟨[], false⟩
  log : List (MongoQuery.Bdoc × Option (MongoQuery.Bdoc × MongoQuery.Cursor)) := []

/-- What there is to be fetched. -/
def MongoConn.net (net : MongoQuery.Net) (c : MongoConn) : MongoQuery.Net := { net with cursor := fun _ _ => c.cursor }

/-- `Mongo_Connection`.  Simplified: the documents of a cursor are what they are when the command is replied to.  (mongo_connection.cpp, mongo_query_future.cpp:35-46) -/
def mongo : Driver where
  kind := .mongo
  Conn := MongoConn
  Cmd := List (Bytes × Mongo.Value)
  Res := List (List (Bytes × Mongo.Value))
  Net := MongoQuery.Net
  Ev := MongoQuery.Bdoc × Option (MongoQuery.Bdoc × MongoQuery.Cursor)
  fresh uri _ := { uri := uri }
  uri := MongoConn.uri
  clear c := c.conn.clear
  trace := MongoConn.log
  execute net c cmd :=
    let r := MongoQuery.execute net c.conn cmd
    match Mongo.execute net.ok net.valid cmd with
    | none => ({ c with conn := r.1 }, r.2)
    | some b =>
      let cur := match r.1.reply with | none => ⟨[], false⟩ | some rep => net.cursor r.1.trace rep
      ({ c with conn := r.1, cursor := cur, log := c.log ++ [(b, r.1.reply.map fun rep => (rep, cur))] }, r.2)
  use net _ cmd := match Mongo.execute net.ok net.valid cmd with
    | none => .nothing
    | some _ => .sends false
  fetch net c :=
    let r := MongoQuery.fetchAll (c.net net) (c.conn.bound (c.net net) + 1) c.conn []
    ({ c with conn := r.1 }, r.2)
  next net c := { c with conn := (MongoQuery.fetch_reply (c.net net) c.conn).1 }
  reset _ c := ({ c with conn := MongoQuery.reset c.conn }, true)

end Verif.DbAsk
