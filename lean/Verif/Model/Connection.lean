import Verif.Model.Uri
import Verif.Model.Redis
/-!
# Connections to Redis servers, and service URIs

Models how `Redis_Connection::execute()` (redis_connection.cpp:38-149) and `MySQL_Connection::execute()`
(mysql_connection.cpp:40-90) find their server, and the conversation of a `Redis_Connection` with it.

hiredis and the server are a parameter: the result of `redisConnect()`, and the reply to each command, or that there is none,
may depend on all that has happened before.
-/
namespace Verif.Connection
open Verif.Uri Verif.Redis

/-- Where and as whom to log in. -/
structure Target where
  user : Bytes
  host : Bytes
  port : Nat
  database : Bytes
deriving DecidableEq, Repr

/-- (redis_connection.cpp:47-50) -/
def redisDefaults : Target := ⟨b! "default", b! "localhost", 6379, b! "0"⟩

/-- (mysql_connection.cpp:48-51) -/
def mysqlDefaults : Target := ⟨b! "root", b! "localhost", 3306, []⟩

/-- `uri.find_of("@/")`, then `user.assign()` and `uri.erase()`: the user and the rest.
(redis_connection.cpp:52-57, mysql_connection.cpp:53-58) -/
def split_user (user uri : Bytes) : Bytes × Bytes :=
  match uri.findIdx? (fun c => c = chr '@' || c = chr '/') with
  | none => (user, uri)
  | some t => if uri[t]? = some (chr '@') then (uri.take t, uri.drop (t + 1)) else (user, uri)

/-- The service URI; `none` is an exception.  (redis_connection.cpp:46-73, mysql_connection.cpp:47-74) -/
def service_target (d : Target) (service_uri : Bytes) : Option Target :=
  let (user, uri) := split_user d.user service_uri
  let (r, n) := parse_network_reference {} uri
  if n ≠ uri.length then none
  else some {
    user := user
    host := if r.host.length ≠ 0 then r.host else d.host
    port := if r.port.length ≠ 0 then r.port_num else d.port
    database := if r.path.length ≠ 0 then r.path.drop 1 else d.database }

/-- A string that is passed as a pointer ends before its first null character. -/
def cstr (s : Bytes) : Bytes := s.takeWhile (· ≠ 0)

/-! ## Redis -/

/-- The result of `redisConnect()`: a null pointer, a context with an error, or a connection. -/
inductive Link
  | null
  | err
  | ok
deriving DecidableEq, Repr

/-- What the server can see, and what it replies. -/
inductive Ev
  | connect (host : Bytes) (port : Nat) (r : Link)
  | command (args : List Bytes) (r : Option Reply)

structure Net where
  connect : List Ev → Bytes → Nat → Link
  reply : List Ev → List Bytes → Option Reply

/-- `Redis_Connection`.  `err` is `m_redis->err != 0`.  (redis_connection.hpp:14-25) -/
structure Conn where
  uri : Bytes
  password : Bytes
  connected : Bool := false
  clear : Bool := true
  err : Bool := false
  reply : Option Reply := none
  trace : List Ev := []

/-- How `execute()` ends.  All but `sent` are exceptions; `sent` is an exception if there is no reply, or if it is an error. -/
inductive Res
  | empty
  | uri
  | connect
  | auth
  | select
  | sent (r : Option Reply)

def Reply.isError : Reply → Bool
  | .error _ => true
  | _ => false

/-- The reply is there, and is not an error. -/
def accepted : Option Reply → Bool
  | none => false
  | some r => !Reply.isError r

/-- `m_reply.reset(redisCommand(...))`. -/
def command (net : Net) (c : Conn) (args : List Bytes) : Conn :=
  let r := net.reply c.trace args
  { c with reply := r, err := c.err || r.isNone, trace := c.trace ++ [.command args r] }

/-- `AUTH`, if there is a password; false is an exception.  (redis_connection.cpp:88-102) -/
def auth (net : Net) (c : Conn) (t : Target) : Conn × Bool :=
  if c.password.length ≠ 0 then
    let c := command net c [b! "AUTH", cstr t.user, cstr c.password]
    (c, accepted c.reply)
  else (c, true)

/-- `SELECT`, if there is a database; false is an exception.  (redis_connection.cpp:104-117) -/
def select (net : Net) (c : Conn) (t : Target) : Conn × Bool :=
  if t.database.length ≠ 0 then
    let c := command net c [b! "SELECT", cstr t.database]
    (c, accepted c.reply)
  else (c, true)

/-- `if(!m_connected) { ... }`, without the condition; the result is an exception, if there is one.
(redis_connection.cpp:45-122) -/
def login (net : Net) (c : Conn) : Conn × Option Res :=
  match service_target redisDefaults c.uri with
  | none => (c, some .uri)
  | some t =>
    let l := net.connect c.trace (cstr t.host) t.port
    let c := { c with err := decide (l ≠ .ok), trace := c.trace ++ [.connect (cstr t.host) t.port l] }
    if l ≠ .ok then (c, some .connect)
    else
      let (c, ok) := auth net c t
      if !ok then (c, some .auth)
      else
        let (c, ok) := select net c t
        if !ok then (c, some .select)
        else ({ c with password := [], connected := true }, none)

/-- (redis_connection.cpp:124-148) -/
def send (net : Net) (c : Conn) (cmd : List Bytes) : Conn × Res :=
  let c := command net { c with reply := none, clear := false } cmd
  (c, .sent c.reply)

/-- `execute(cmd)`.  (redis_connection.cpp:38-149) -/
def execute (net : Net) (c : Conn) (cmd : List Bytes) : Conn × Res :=
  if cmd.isEmpty then (c, .empty)
  else if c.connected then send net c cmd
  else match login net c with
    | (c, some e) => (c, e)
    | (c, none) => send net c cmd

/-- `reset()`: whether it succeeds.  (redis_connection.cpp:24-36) -/
def reset (c : Conn) : Conn × Bool :=
  let error := c.connected && c.err
  ({ c with reply := none, clear := !error }, !error)

/-- `fetch_reply()`; the conversion is `fetchReply`.  (redis_connection.cpp:151-160) -/
def fetch (c : Conn) : Conn × Option (Bool × Bytes × Value) := ({ c with reply := none }, fetchReply c.reply)

/-- What the owner of a connection does. -/
inductive Act
  | execute (cmd : List Bytes)
  | fetch
  | reset
deriving DecidableEq, Repr

/-- A history: the connection, and how the calls of `execute()` have ended, with their commands. -/
def run (net : Net) (c : Conn) : List Act → Conn × List (List Bytes × Res)
  | [] => (c, [])
  | .execute cmd :: as =>
    let (c, r) := execute net c cmd
    let (c, rs) := run net c as
    (c, (cmd, r) :: rs)
  | .fetch :: as => run net (fetch c).1 as
  | .reset :: as => run net (reset c).1 as

end Verif.Connection
