import Verif.Model.Connection
import Verif.Model.Mongo
/-!
# Replies of MongoDB servers, and queries to MongoDB and Redis

Models `Mongo_Connection::reset()`, `execute_bson()`, the end of `execute()`, `fetch_reply_bson_opt()` and `fetch_reply()` (mongo_connection.cpp:50-93, 238-313), `Mongo_Query_Future`
(mongo_query_future.cpp:35-46) and `Redis_Query_Future` (redis_query_future.cpp:35-46).  The driver and the server are a parameter.  Conversions of documents are those in
`Verif.Mongo`.
-/
namespace Verif.MongoQuery
open Verif.Mongo

/-- A document in BSON. -/
abbrev Bdoc := List (Bytes × Bson)

/-- A cursor: the documents that remain, and whether there is an error after them.  The driver gets further batches from the server. -/
structure Cursor where
  docs : List Bdoc
  error : Bool

/-- The driver and the server: the reply to a command after other ones, or an error; and what a cursor in a reply is. -/
structure Net where
  command : List Bdoc → Bdoc → Option Bdoc
  cursor : List Bdoc → Bdoc → Cursor
  /-- whether the driver accepts a key or a string; see `Verif.Mongo.append` -/
  ok : Bytes → Bool
  valid : Bdoc → Bool

/-- `Mongo_Connection`.  `reply` is `m_reply` if `m_reply_available` is set.  `trace` is the commands that have been sent.  (mongo_connection.hpp:14-27) -/
structure Conn where
  reply : Option Bdoc := none
  cursor : Option Cursor := none
  clear : Bool := true
  trace : List Bdoc := []

/-- `reset()`.  (mongo_connection.cpp:50-62) -/
def reset (c : Conn) : Conn := { c with cursor := none, reply := none, clear := true }

/-- `execute_bson()`; false is an exception.  An empty document has five bytes.  (mongo_connection.cpp:64-89) -/
def execute_bson (net : Net) (c : Conn) (cmd : Bdoc) : Conn × Bool :=
  let r := net.command c.trace cmd
  ({ cursor := none, reply := r, clear := false, trace := c.trace ++ [cmd] }, r.isSome)

/-- `execute()`; false is an exception.  (mongo_connection.cpp:91-249) -/
def execute (net : Net) (c : Conn) (cmd : List (Bytes × Value)) : Conn × Bool :=
  match Mongo.execute net.ok net.valid cmd with
  | none => (c, false)
  | some b => execute_bson net c b

/-- A document, a null pointer, or an exception. -/
inductive Fetched where
  | doc (d : Bdoc)
  | no
  | throw

/-- `mongoc_cursor_next()`, and then `mongoc_cursor_error()`.  The error persists.  (mongo_connection.cpp:275-287) -/
def next (c : Conn) (cur : Cursor) : Conn × Fetched :=
  match cur.docs with
  | d :: ds => ({ c with cursor := some { cur with docs := ds } }, .doc d)
  | [] => ({ c with cursor := some cur }, if cur.error then .throw else .no)

/-- `bson_has_field(m_reply, "cursor")` -/
def hasCursor (d : Bdoc) : Bool := d.any fun f => f.1 = b! "cursor"

/-- `fetch_reply_bson_opt()`.  (mongo_connection.cpp:251-288) -/
def fetch_bson (net : Net) (c : Conn) : Conn × Fetched :=
  match c.cursor with
  | some cur => next c cur
  | none => match c.reply with
    | none => (c, .no)
    | some r => if !hasCursor r then ({ c with reply := none }, .doc r) else next { c with reply := none } (net.cursor c.trace r)

/-- How `fetch_reply()` ends: true with a document, false, an exception, or undefined behavior. -/
inductive Got where
  | doc (d : List (Bytes × Value))
  | no
  | throw
  | ub

/-- `fetch_reply()`.  (mongo_connection.cpp:290-423) -/
def fetch_reply (net : Net) (c : Conn) : Conn × Got :=
  match fetch_bson net c with
  | (c, .no) => (c, .no)
  | (c, .throw) => (c, .throw)
  | (c, .doc d) => match unpack d with
    | none => (c, .ub)
    | some v => (c, .doc v)

/-- `while(fetch_reply(doc)) m_res.push_back(move(doc));`, for a limited number of iterations; `none` is an exception or undefined behavior.  (mongo_query_future.cpp:43-45) -/
def fetchAll (net : Net) : Nat → Conn → List (List (Bytes × Value)) → Conn × Option (List (List (Bytes × Value)))
  | 0, c, _ => (c, none)
  | n + 1, c, acc => match fetch_reply net c with
    | (c, .doc d) => fetchAll net n c (acc ++ [d])
    | (c, .no) => (c, some acc)
    | (c, .throw) => (c, none)
    | (c, .ub) => (c, none)

/-- How many documents there are at most. -/
def Conn.bound (net : Net) (c : Conn) : Nat :=
  (match c.cursor with | some cur => cur.docs.length | none => 0) + (match c.reply with | some r => (net.cursor c.trace r).docs.length + 1 | none => 0)

/-- `do_on_abstract_future_initialize()` with a connection; `none` is an exception.  (mongo_query_future.cpp:35-46) -/
def query (net : Net) (c : Conn) (cmd : List (Bytes × Value)) : Conn × Option (List (List (Bytes × Value))) :=
  match execute net c cmd with
  | (c, false) => (c, none)
  | (c, true) => fetchAll net (c.bound net + 1) c []

end Verif.MongoQuery

namespace Verif.Connection
open Verif.Redis

/-- `Redis_Query_Future::do_on_abstract_future_initialize()` with a connection: `m_status` and `m_res`; `none` is an exception.  (redis_query_future.cpp:35-46) -/
def redisQuery (net : Net) (c : Conn) (cmd : List Bytes) : Conn × Option (Bytes × Value) :=
  match execute net c cmd with
  | (c, .sent r) =>
    if !accepted r then (c, none)
    else match fetch c with
      | (c, some (_, status, value)) => (c, some (status, value))
      | (c, none) => (c, none)
  | (c, _) => (c, none)

end Verif.Connection
