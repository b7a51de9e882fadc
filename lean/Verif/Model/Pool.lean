import Verif.Base.Bytes
/-!
# Pools of connections

Models `Redis_Connector`, `MySQL_Connector` and `Mongo_Connector` (static/redis_connector.cpp, static/mysql_connector.cpp, static/mongo_connector.cpp), which are the same but for names
and for the secondary and tertiary services, which only MySQL has; lines are those in redis_connector.cpp.  Of connections, what decides about their reuse is modelled: `m_connected`, `m_reset_clear`, and the
state of the session on the server, where zero means that there is none.  Connections are objects with numbers; ownership by `uniptr` is recorded as pairs of an owner and a connection.
A thread reads the configuration with one mutex, and then uses the pool with another; each is one step.
-/
namespace Verif.Pool

inductive Kind where
  | redis | mysql | mongo
deriving DecidableEq, Repr

structure Conf where
  size : Nat := 0
  idle : Nat := 0
  /-- `m_conf_default_service_uri` and `m_conf_default_password` -/
  uri : Bytes := []
  password : Bytes := []
  /-- `m_conf_secondary_*`, for MySQL -/
  uri2 : Bytes := []
  password2 : Bytes := []
  /-- `m_conf_tertiary_*`, for MySQL -/
  uri3 : Bytes := []
  password3 : Bytes := []
deriving DecidableEq, Repr

/-- A connection.  (redis_connection.hpp, mysql_connection.hpp, mongo_connection.hpp) -/
structure Conn where
  uri : Bytes := []
  password : Bytes := []
  connected : Bool := false
  clear : Bool := true
  /-- `m_redis->err != 0`, for Redis -/
  err : Bool := false
  /-- state of the session on the server: a selected database, a transaction, variables and so on -/
  session : Nat := 0
deriving DecidableEq, Repr

/-- `Pooled_Connection` (12-16) -/
structure Entry where
  time : Nat
  id : Nat
deriving DecidableEq, Repr

/-- What can be seen. -/
inductive Ev where
  | reload (size : Nat)
  /-- A connection is given to an owner: a new one, or one from the pool. -/
  | given (owner id : Nat) (uri password : Bytes) (new : Bool)
  | moved (owner owner' id : Nat)
  /-- A command has been sent. -/
  | executed (id : Nat)
  | reset (id : Nat) (ok : Bool)
  /-- `pool_connection()` returns true or false. -/
  | pooled (owner id : Nat)
  | refused (owner id : Nat)
  /-- A connection has been closed. -/
  | closed (id : Nat)
deriving DecidableEq, Repr

structure Sys where
  kind : Kind
  conf : Conf := {}
  /-- what a thread has read from the configuration -/
  snap : Nat → Option Conf := fun _ => none
  now : Nat := 0
  /-- `m_pool` -/
  pool : List Entry := []
  conn : Nat → Conn := fun _ => {}
  owned : List (Nat × Nat) := []
  next : Nat := 0
  trace : List Ev := []

/-- `while(!pool.empty() && (now - pool.back().time > idle_timeout)) pool.pop_back();`: what remains, and what is closed.  The pool is given in reverse.  (77-78, 142-143) -/
def dropIdle (now idle : Nat) : List Entry → List Entry × List Entry
  | [] => ([], [])
  | e :: r => if now - e.time > idle then ((dropIdle now idle r).1, e :: (dropIdle now idle r).2) else (e :: r, [])

/-- `while(pool.size() + 1 > pool_size) pool.pop_back();`, which is not reached if the size is zero.  The pool is given in reverse.  (146-147) -/
def trim (size : Nat) : List Entry → List Entry × List Entry
  | [] => ([], [])
  | e :: r => if (e :: r).length + 1 > size then ((trim size r).1, e :: (trim size r).2) else (e :: r, [])

/-- The first connection to a service, and the others.  (69-74) -/
def findMatch (conn : Nat → Conn) (uri : Bytes) : List Entry → Option Entry × List Entry
  | [] => (none, [])
  | e :: r => if (conn e.id).uri = uri then (some e, r) else ((findMatch conn uri r).1, e :: (findMatch conn uri r).2)

/-- `do_get_pooled_connection_opt()`, then a new connection if there is none.  (60-96) -/
def allocate (s : Sys) (h : Nat) (idle : Nat) (uri password : Bytes) : Sys :=
  let (found, rest) := findMatch s.conn uri s.pool
  let (keep, gone) := dropIdle s.now idle rest.reverse
  let closed := gone.map fun e => Ev.closed e.id
  match found with
  | some e =>
    { s with snap := fun t => if t = h then none else s.snap t, pool := keep.reverse, owned := (h, e.id) :: s.owned, trace := .given h e.id uri password false :: (closed ++ s.trace) }
  | none =>
    { s with
      snap := fun t => if t = h then none else s.snap t, pool := keep.reverse, owned := (h, s.next) :: s.owned, next := s.next + 1,
      conn := fun i => if i = s.next then { uri := uri, password := password } else s.conn i, trace := .given h s.next uri password true :: (closed ++ s.trace) }

/-- `pool_connection()`.  If it returns false, the caller still has the connection.  (114-154) -/
def giveBack (s : Sys) (h id : Nat) (c : Conf) : Sys :=
  let snap := fun t => if t = h then none else s.snap t
  if !(s.conn id).clear then { s with snap := snap, trace := .refused h id :: s.trace }
  else if c.size = 0 then { s with snap := snap, trace := .refused h id :: s.trace }
  else
    let (keep, gone) := dropIdle s.now c.idle s.pool.reverse
    let (keep', gone') := trim c.size keep
    { s with
      snap := snap, pool := { time := s.now, id := id } :: keep'.reverse, owned := s.owned.filter (· ≠ (h, id)),
      trace := .pooled h id :: ((gone ++ gone').map (fun e => Ev.closed e.id) ++ s.trace) }

/-- `reset()`, where `ok` is what `mysql_reset_connection()` says.  (redis_connection.cpp:24-36, mysql_connection.cpp:24-38, mongo_connection.cpp:51-62) -/
def resetConn (k : Kind) (ok : Bool) (c : Conn) : Conn :=
  match k with
  | .redis => { c with clear := !(c.connected && c.err) }
  | .mysql => { c with clear := !(c.connected && !ok), session := if c.connected && ok then 0 else c.session }
  | .mongo => { c with clear := true }

/-- `execute()`: the command has been sent.  MongoDB has no sessions; the error is noted only by Redis.  (redis_connection.cpp:39-149, mysql_connection.cpp:40-187,
mongo_connection.cpp:64-89) -/
def executeConn (k : Kind) (session : Nat) (err : Bool) (c : Conn) : Conn :=
  match k with
  | .redis => { c with connected := true, clear := false, session := session, err := c.err || err }
  | .mysql => { c with connected := true, clear := false, session := session }
  | .mongo => { c with clear := false }

def update (s : Sys) (id : Nat) (c : Conn) : Nat → Conn := fun i => if i = id then c else s.conn i

inductive Act where
  | reload (c : Conf)
  | tick (n : Nat)
  /-- The configuration is read. -/
  | read (h : Nat)
  | allocate (h : Nat) (uri password : Bytes)
  | allocateDefault (h : Nat)
  | allocateSecondary (h : Nat)
  | allocateTertiary (h : Nat)
  | giveBack (h id : Nat)
  | move (h h' id : Nat)
  /-- `execute()` connects, but fails before anything is sent: in particular, a statement cannot be prepared. -/
  | connect (h id : Nat)
  | execute (h id session : Nat) (err : Bool)
  | reset (h id : Nat) (ok : Bool)
  | destroy (h id : Nat)

def step (s : Sys) : Act → Option Sys
  | .reload c => some { s with conf := c, trace := .reload c.size :: s.trace }
  | .tick n => some { s with now := s.now + n }
  | .read h => some { s with snap := fun t => if t = h then some s.conf else s.snap t }
  | .allocate h uri password => (s.snap h).map fun c => allocate s h c.idle uri password
  | .allocateDefault h => (s.snap h).map fun c => allocate s h c.idle c.uri c.password
  -- mysql_connector.cpp:134-162
  | .allocateSecondary h => if s.kind = .mysql then (s.snap h).map fun c => allocate s h c.idle c.uri2 c.password2 else none
  | .allocateTertiary h => if s.kind = .mysql then (s.snap h).map fun c => allocate s h c.idle c.uri3 c.password3 else none
  | .giveBack h id => if (h, id) ∈ s.owned then (s.snap h).map fun c => giveBack s h id c else none
  | .move h h' id =>
    if (h, id) ∈ s.owned then some { s with owned := (h', id) :: s.owned.filter (· ≠ (h, id)), trace := .moved h h' id :: s.trace } else none
  | .connect h id => if (h, id) ∈ s.owned then some { s with conn := update s id { s.conn id with connected := true } } else none
  | .execute h id session err =>
    if (h, id) ∈ s.owned then some { s with conn := update s id (executeConn s.kind session err (s.conn id)), trace := .executed id :: s.trace } else none
  | .reset h id ok =>
    if (h, id) ∈ s.owned then
      some { s with conn := update s id (resetConn s.kind ok (s.conn id)), trace := .reset id (resetConn s.kind ok (s.conn id)).clear :: s.trace }
    else none
  | .destroy h id => if (h, id) ∈ s.owned then some { s with owned := s.owned.filter (· ≠ (h, id)), trace := .closed id :: s.trace } else none

def run : Sys → List Act → Option Sys
  | s, [] => some s
  | s, a :: as => match step s a with
    | none => none
    | some s' => run s' as

inductive Reachable : Sys → Prop
  | init (k : Kind) : Reachable { kind := k }
  | step {s s' : Sys} {a : Act} : Reachable s → step s a = some s' → Reachable s'

end Verif.Pool
