import Verif.Model.DbAsk
import Verif.Spec.Redis
import Verif.Spec.Mongo
/-!
# What a database is asked on behalf of a future

Functions of what can be seen.
-/
namespace Verif.DbAsk
variable {D : Driver}

/-- What servers have seen on behalf of future `f`, and on which connections. -/
def asked (f : Nat) (log : List (Item D)) : List (Nat × D.Ev) :=
  log.filterMap fun
    | .server o id e => if o = future f then some (id, e) else none
    | .fiber _ => none

/-- What the server has seen on a connection, from anyone. -/
def heard (id : Nat) (log : List (Item D)) : List D.Ev :=
  log.filterMap fun
    | .server _ i e => if i = id then some e else none
    | .fiber _ => none

/-- What has happened to fibers and futures, earliest first. -/
def fibers (log : List (Item D)) : List Fiber.Ev :=
  log.filterMap fun
    | .server _ _ _ => none
    | .fiber e => some e

/-- Something is seen by a server on behalf of a future after its initializer has begun, and before it has completed. -/
def Between (log : List (Item D)) : Prop :=
  ∀ a f id e b, log = a ++ .server (future f) id e :: b → .fiber (.initBegan f) ∈ a ∧ .fiber (.completed f) ∉ a

/-- Connection `id`, which future `f` has, was made for the service `uri`.  It was lent by a user of the API; or it has been got from the pool, and the service is the default one of a
configuration that had been loaded. -/
def ConnOf (s : Sys D) (f id : Nat) (uri : Bytes) : Prop :=
  (∃ o pw, Pool.Ev.given o id uri pw true ∈ s.pool.trace) ∧
  ((∃ h, Pool.Ev.moved (user h) (future f) id ∈ s.pool.trace) ∨ (∃ c ∈ s.confs, c.uri = uri ∧ ∃ pw new, Pool.Ev.given (future f) id c.uri pw new ∈ s.pool.trace))

end Verif.DbAsk

namespace Verif.DbAsk
open Verif.Connection

/-- The kinds of databases. -/
inductive Known : Driver → Prop
  | redis : Known redis
  | mysql : Known mysql
  | mongo : Known mongo

/-- A part of an attempt to log in to a Redis server. -/
inductive RedisLogin (t : Target) : Connection.Ev → Prop
  | connect (l : Link) : RedisLogin t (.connect (cstr t.host) t.port l)
  | auth (pw : Bytes) (r : Option Redis.Reply) : RedisLogin t (.command [b! "AUTH", cstr t.user, pw] r)
  | select (r : Option Redis.Reply) : RedisLogin t (.command [b! "SELECT", cstr t.database] r)

/-- The connection has been made, or the reply is there and is no error. -/
def Succeeds : Connection.Ev → Prop
  | .connect _ _ l => l = .ok
  | .command _ r => ∃ x, r = some x ∧ ∀ e, x ≠ .error e

/-- The status and the value that a reply stands for. -/
def redisResult : Redis.Reply → Bytes × Redis.Value
  | .status s => (s, .nil)
  | r => ([], r.value)

/-- A part of an attempt to log in to a MySQL server, and whether it succeeds.  See C88 about what `cstr` does. -/
def MysqlLogin (uri : Bytes) (ok : Bool) (e : MysqlQuery.Ev) : Prop :=
  ∃ t pw, service_target mysqlDefaults uri = some t ∧ e = .connect { t with user := cstr t.user, host := cstr t.host, database := cstr t.database } pw ok

/-- The documents that a reply of a MongoDB server stands for: those of the cursor in it; or if there is no cursor in it, itself. -/
inductive MongoDocs : MongoQuery.Bdoc × MongoQuery.Cursor → List MongoQuery.Bdoc → Prop
  | cursor {r cur v} : (b! "cursor", v) ∈ r → cur.error = false → MongoDocs (r, cur) cur.docs
  | reply {r cur} : (∀ v, (b! "cursor", v) ∉ r) → MongoDocs (r, cur) [r]

end Verif.DbAsk
