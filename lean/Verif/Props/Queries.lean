import Verif.Proofs.MysqlConversation
import Verif.Proofs.Queries
import Verif.Props.Connection
import Verif.Props.Redis
/-!
# C88, C89: MySQL statements, and queries
-/
namespace Verif.Props
open Verif Verif.Spec

section mysql
open Verif.MysqlQuery Verif.Mysql
open Verif.Connection (Target service_target mysqlDefaults)

/-! ## C88 -/

/-- C88: if there are enough arguments for a statement, then the server executes it with exactly these arguments in their order, whatever types they have, and `execute()` returns if
the server says that the statement has been executed, and throws an exception otherwise. -/
theorem C88_arguments (net : Net) (c : Conn) (stmt : Bytes) (args : List Value) (n : Nat) (hs : stmt ≠ []) (hc : c.connected = true)
    (hp : net.prepare c.trace stmt = some n) (hn : n ≤ args.length) :
    ∃ r : Option ResultSet, r = net.execute (c.trace ++ [.prepare stmt (some n)]) stmt ((args.take n).map (paramOf net.zone)) ∧
      (MysqlQuery.execute net c stmt args).1.trace = c.trace ++ [.prepare stmt (some n), .execute stmt ((args.take n).map (paramOf net.zone)) r] ∧
      (MysqlQuery.execute net c stmt args).2 = if r.isSome then .ok else .execute := by
  refine ⟨_, rfl, ?_⟩
  unfold MysqlQuery.execute
  rw [if_neg (by cases stmt with | nil => exact absurd rfl hs | cons _ _ => simp), if_pos hc]
  unfold prepare
  rw [hp]
  dsimp only
  rw [if_neg (by omega), bindAndExecute_eq _ _ _ _ _ hn]
  exact ⟨by simp, rfl⟩

/-- C88: if there are too few, then nothing is executed. -/
theorem C88_few (net : Net) (c : Conn) (stmt : Bytes) (args : List Value) (n : Nat) (hs : stmt ≠ []) (hc : c.connected = true)
    (hp : net.prepare c.trace stmt = some n) (hn : args.length < n) :
    (MysqlQuery.execute net c stmt args).1.trace = c.trace ++ [.prepare stmt (some n)] ∧ (MysqlQuery.execute net c stmt args).2 = .few := by
  unfold MysqlQuery.execute
  rw [if_neg (by cases stmt with | nil => exact absurd rfl hs | cons _ _ => simp), if_pos hc]
  unfold prepare
  rw [hp]
  dsimp only
  rw [if_pos hn]
  exact ⟨rfl, rfl⟩

/-- C88: no pointer is followed that is not valid, in whatever state the connection is. -/
theorem C88_safe (net : Net) (c : Conn) (stmt : Bytes) (args : List Value) : (MysqlQuery.execute net c stmt args).2 ≠ .ub := by
  have key : ∀ c', (prepare net c' stmt args).2 ≠ .ub := by
    intro c'
    unfold prepare
    dsimp only
    split
    · simp
    · split
      · simp
      · rw [bindAndExecute_eq _ _ _ _ _ (by omega)]
        dsimp only
        split <;> simp
  unfold MysqlQuery.execute
  split
  · simp
  · split
    · exact key c
    · have hl : (MysqlQuery.login net c).2 ≠ some .ub := by
        unfold MysqlQuery.login
        split
        · simp
        · dsimp only
          split <;> simp
      generalize MysqlQuery.login net c = l at hl
      obtain ⟨c', e⟩ := l
      cases e with
      | some e => intro h; exact hl (by rw [show e = .ub from h])
      | none => exact key c'

/-- C88: whatever the owner of a connection does, the server sees first some attempts to log in that fail, and then at most one that succeeds, all with the user, the password, the
host, the port and the database of the service; and statements only after that. -/
theorem C88_conversation (net : Net) (uri password : Bytes) (t : Target) (ht : service_target mysqlDefaults uri = some t)
    (hu : (0 : Byte) ∉ t.user) (hh : (0 : Byte) ∉ t.host) (hd : (0 : Byte) ∉ t.database) (hp : (0 : Byte) ∉ password) (acts : List MysqlAct) :
    ∃ k, (mysqlRun net { uri := uri, password := password } acts).trace = List.replicate k (.connect t password false) ∨
      ∃ evs, (∀ t' p' ok, Ev.connect t' p' ok ∉ evs) ∧
        (mysqlRun net { uri := uri, password := password } acts).trace = List.replicate k (.connect t password false) ++ .connect t password true :: evs := by
  obtain ⟨_, k, h⟩ := run_inv (net := net) ht hu hh hd hp acts (c := { uri := uri, password := password }) ⟨rfl, 0, Or.inl ⟨rfl, rfl, rfl⟩⟩
  refine ⟨k, ?_⟩
  rcases h with ⟨_, _, h⟩ | ⟨_, evs, h1, h2⟩
  · exact Or.inl h
  · exact Or.inr ⟨evs, fun t' p' ok hm => Bool.noConfusion (h1 _ hm), h2⟩

/-- C88: if the service URI is malformed, then nothing is sent. -/
theorem C88_malformed (net : Net) (uri password : Bytes) (ht : service_target mysqlDefaults uri = none) (acts : List MysqlAct) :
    (mysqlRun net { uri := uri, password := password } acts).trace = [] := MysqlQuery.run_malformed ht acts rfl rfl

/-- C88: a row is fetched with the values that the columns have.  Missing: integers that do not fit into signed 64-bit ones, and date-times that cannot be represented. -/
theorem C88_rows_partial (net : Net) (c : Conn) (r : ResultSet) (fs : List (Bytes × FieldType)) (cs : List Cell) (rest : List Row) (vs : List Value)
    (hs : c.stmt = some r) (hf : r.fields = some fs) (hne : fs ≠ []) (hr : r.rows = .cells cs :: rest) (h : ReadsRow net fs cs vs) :
    fetch_row net c = ({ c with stmt := some { r with rows := rest } }, .row vs) := by
  unfold fetch_row
  rw [hs]
  dsimp only
  rw [hf]
  dsimp only
  rw [if_neg (by cases fs with | nil => exact absurd rfl hne | cons _ _ => simp), hr]
  dsimp only
  rw [fetchCells_eq h]

/-- C88: an unsigned integer that does not fit becomes a negative one. -/
theorem C88_unsigned (net : Net) (n : Int) (h1 : 9223372036854775807 < n) (h2 : n ≤ 18446744073709551615) :
    fetchCell net .longlong (.int n) = some (.integer (n - 18446744073709551616)) := by
  show some (Value.integer (wrap64 n)) = _
  unfold wrap64
  congr 2
  omega

/-! ## C89 -/

/-- C89: a MySQL query gives all rows of the result in their order, the names of the columns, and the numbers that the server has said. -/
theorem C89_mysql (net : Net) (c : Conn) (stmt : Bytes) (args : List Value) (r : ResultSet) (fs : List (Bytes × FieldType)) (vss : List (List Value))
    (he : (MysqlQuery.execute net c stmt args).2 = .ok) (hr : (MysqlQuery.execute net c stmt args).1.stmt = some r) (hf : r.fields = some fs)
    (hne : fs ≠ []) (h : ReadsRows net fs r.rows vss) :
    (MysqlQuery.query net c stmt args).2 = some ⟨r.warnings, r.matched, r.insertId, fs.map Prod.fst, vss⟩ := by
  unfold MysqlQuery.query
  generalize MysqlQuery.execute net c stmt args = x at he hr
  obtain ⟨c', e⟩ := x
  dsimp only at he hr
  subst he
  dsimp only
  have : c'.result = r := by unfold Conn.result; rw [hr]; rfl
  rw [this, fetchAll_eq hne h c' r [] _ hr hf rfl (by omega)]
  dsimp only [List.nil_append]
  unfold fetch_fields
  rw [hr]
  dsimp only
  rw [hf]

/-- C89: a statement without a result has no columns and no rows. -/
theorem C89_mysql_none (net : Net) (c : Conn) (stmt : Bytes) (args : List Value) (r : ResultSet)
    (he : (MysqlQuery.execute net c stmt args).2 = .ok) (hr : (MysqlQuery.execute net c stmt args).1.stmt = some r) (hf : r.fields = none) :
    (MysqlQuery.query net c stmt args).2 = some ⟨r.warnings, r.matched, r.insertId, [], []⟩ := by
  unfold MysqlQuery.query
  generalize MysqlQuery.execute net c stmt args = x at he hr
  obtain ⟨c', e⟩ := x
  dsimp only at he hr
  subst he
  dsimp only
  have : c'.result = r := by unfold Conn.result; rw [hr]; rfl
  rw [this, fetchAll_none hr (Or.inl hf)]
  dsimp only
  unfold fetch_fields
  rw [hr]
  dsimp only
  rw [hf]

/-- C89: a query throws an exception if the statement fails, or if there is an error in the midst of the rows; a part of a result is not given as if it were all. -/
theorem C89_mysql_error (net : Net) (c : Conn) (stmt : Bytes) (args : List Value) :
    ((MysqlQuery.execute net c stmt args).2 ≠ .ok → (MysqlQuery.query net c stmt args).2 = none) ∧
    ∀ (r : ResultSet) (fs : List (Bytes × FieldType)) (rows rest : List Row) (vss : List (List Value)),
      (MysqlQuery.execute net c stmt args).1.stmt = some r → r.fields = some fs → fs ≠ [] → ReadsRows net fs rows vss → r.rows = rows ++ .error :: rest →
      (MysqlQuery.query net c stmt args).2 = none := by
  unfold MysqlQuery.query
  generalize MysqlQuery.execute net c stmt args = x
  obtain ⟨c', e⟩ := x
  constructor
  · intro he
    cases e <;> first | rfl | exact absurd rfl he
  · intro r fs rows rest vss hr hf hne h hrows
    have key := fetchAll_error hne h c' r [] (c'.result.rows.length + 1) hr hf hrows
    cases e with
    | ok =>
      dsimp only at hr ⊢
      generalize MysqlQuery.fetchAll net (c'.result.rows.length + 1) c' [] = p at key ⊢
      obtain ⟨c'', o⟩ := p
      dsimp only at key
      subst key
      rfl
    | _ => rfl

/-- A server with one statement, which has two parameters, and which gives two rows. -/
def exampleMysql : MysqlQuery.Net where
  connect := fun _ _ _ => true
  prepare := fun _ _ => some 2
  execute := fun _ _ _ => some
    { fields := some [(b! "id", .longlong), (b! "name", .other)]
      rows := [.cells [.int (-5), .bytes (b! "a")], .cells [.int 7, .null]] }
  zone := fun _ => 0
  timelocal := fun _ _ => 0
  isdst := 0
  toInt := fun _ => 0
  toReal := fun _ => 0
  toTime := fun _ => Time.zero
  toBytes := fun _ => []

/-- An open connection. -/
def exampleMysqlConn : MysqlQuery.Conn := { uri := b! "localhost", password := [], connected := true }

example : ReadsRows exampleMysql [(b! "id", .longlong), (b! "name", .other)] [.cells [.int (-5), .bytes (b! "a")], .cells [.int 7, .null]]
    [[.integer (-5), .blob (b! "a")], [.integer 7, .null]] :=
  .cons (.cons (.integer (by simp) (by omega) (by omega)) (.cons .blob .nil)) (.cons (.cons (.integer (by simp) (by omega) (by omega)) (.cons .null .nil)) .nil)

/-- The hypotheses are met, also by arguments of which several are date-times. -/
example : (MysqlQuery.execute exampleMysql exampleMysqlConn (b! "SELECT") [.datetime 0, .datetime 1000000000, .null]).2 = .ok ∧
    (MysqlQuery.query exampleMysql exampleMysqlConn (b! "SELECT") [.datetime 0, .datetime 1000000000, .null]).2 =
      some ⟨0, 0, 0, [b! "id", b! "name"], [[.integer (-5), .blob (b! "a")], [.integer 7, .null]]⟩ := by decide +kernel
example : (MysqlQuery.execute exampleMysql exampleMysqlConn (b! "SELECT") [.null]).2 = .few := by decide +kernel

end mysql

section mongo
open Verif.MongoQuery Verif.Mongo

/-- C89: a MongoDB query sends its command, and gives the documents of the cursor in the reply, from the first to the last one; or if there is no cursor, it gives the reply.  If the
command fails, or if there is an error in the midst of the documents, then it throws an exception. -/
theorem C89_mongo (net : MongoQuery.Net) (c : MongoQuery.Conn) (cmd : List (Bytes × Mongo.Value)) (b r : Bdoc) (ds : List Bdoc) (e : Bool)
    (vs : List (List (Bytes × Mongo.Value))) (hb : Mongo.execute net.ok net.valid cmd = some b) (hr : net.command c.trace b = some r)
    (ha : Answer net (c.trace ++ [b]) r ds e) (hv : Unpacked ds vs) :
    (MongoQuery.query net c cmd).1.trace = c.trace ++ [b] ∧ (MongoQuery.query net c cmd).2 = if e then none else some vs := by
  unfold MongoQuery.query MongoQuery.execute
  rw [hb]
  dsimp only
  unfold execute_bson
  dsimp only
  rw [hr]
  have hp : Pending net { cursor := none, reply := some r, clear := false, trace := c.trace ++ [b] } ds e := answer_pending rfl rfl ha
  obtain ⟨c', h1, _, h3⟩ := MongoQuery.fetchAll_eq hv [] (Conn.bound net { cursor := none, reply := some r, clear := false, trace := c.trace ++ [b] } + 1) hp
    (by have := pending_bound hp; omega)
  dsimp only [Option.isSome]
  rw [h1]
  exact ⟨h3, rfl⟩

theorem C89_mongo_error (net : MongoQuery.Net) (c : MongoQuery.Conn) (cmd : List (Bytes × Mongo.Value)) :
    (Mongo.execute net.ok net.valid cmd = none → (MongoQuery.query net c cmd).1.trace = c.trace ∧ (MongoQuery.query net c cmd).2 = none) ∧
    (∀ b, Mongo.execute net.ok net.valid cmd = some b → net.command c.trace b = none → (MongoQuery.query net c cmd).2 = none) := by
  constructor
  · intro h
    unfold MongoQuery.query MongoQuery.execute
    rw [h]
    exact ⟨rfl, rfl⟩
  · intro b h1 h2
    unfold MongoQuery.query MongoQuery.execute
    rw [h1]
    dsimp only
    unfold execute_bson
    dsimp only
    rw [h2]
    rfl

/-- C89: after the last document there is nothing more to fetch, and nothing after a reset. -/
theorem C89_mongo_end (net : MongoQuery.Net) (c : MongoQuery.Conn) (cmd : List (Bytes × Mongo.Value)) (b r : Bdoc) (ds : List Bdoc)
    (vs : List (List (Bytes × Mongo.Value))) (hb : Mongo.execute net.ok net.valid cmd = some b) (hr : net.command c.trace b = some r)
    (ha : Answer net (c.trace ++ [b]) r ds false) (hv : Unpacked ds vs) :
    (fetch_reply net (MongoQuery.query net c cmd).1).2 = .no ∧ ∀ c', (fetch_reply net (MongoQuery.reset c')).2 = .no := by
  refine ⟨?_, fun _ => rfl⟩
  unfold MongoQuery.query MongoQuery.execute
  rw [hb]
  dsimp only
  unfold execute_bson
  dsimp only
  rw [hr]
  have hp : Pending net { cursor := none, reply := some r, clear := false, trace := c.trace ++ [b] } ds false := answer_pending rfl rfl ha
  obtain ⟨c', h1, h2, _⟩ := MongoQuery.fetchAll_eq hv [] (Conn.bound net { cursor := none, reply := some r, clear := false, trace := c.trace ++ [b] } + 1) hp
    (by have := pending_bound hp; omega)
  dsimp only [Option.isSome]
  rw [h1]
  obtain ⟨c'', h3, _, _⟩ := fetch_nil h2
  unfold fetch_reply
  rw [h3]
  rfl

/-- A server that gives a cursor for some commands. -/
def exampleMongo (docs : List Bdoc) : MongoQuery.Net where
  command := fun _ cmd => some (if cmd.any (fun f => f.1 = b! "find") then [(b! "cursor", .document []), (b! "ok", .int32 1)] else [(b! "ok", .int32 1)])
  cursor := fun _ _ => ⟨docs, false⟩
  ok := fun _ => true
  valid := fun _ => true

/-- The hypotheses are met, with a cursor and without. -/
example : Answer (exampleMongo [[(b! "x", .int32 5)], []]) [] [(b! "cursor", .document []), (b! "ok", .int32 1)] [[(b! "x", .int32 5)], []] false :=
  .cursor (v := .document []) (by simp)
example : Unpacked [[(b! "x", .int32 5)], []] [[(b! "x", .integer 5)], []] := .cons rfl (.cons rfl .nil)
example : (MongoQuery.query (exampleMongo [[(b! "x", .int32 5)], []]) {} [(b! "find", .utf8 (b! "t"))]).2 = some [[(b! "x", .integer 5)], []] := rfl
example : (MongoQuery.query (exampleMongo []) {} [(b! "ping", .integer 1)]).2 = some [[(b! "ok", .integer 1)]] := rfl

/-- If a command cannot be composed, then the reply to the previous one can still be fetched; see `mongo_connection.hpp`. -/
theorem C89_mongo_stale (net : MongoQuery.Net) (c : MongoQuery.Conn) (cmd : List (Bytes × Mongo.Value)) (h : Mongo.execute net.ok net.valid cmd = none) :
    fetch_reply net (MongoQuery.execute net c cmd).1 = fetch_reply net c := by
  unfold MongoQuery.execute
  rw [h]

end mongo

section redis
open Verif.Redis Verif.Connection

/-- C89: a Redis query gives the reply to its command, which is either a status or a value, or throws an exception if there is no reply or if the reply is an error. -/
theorem C89_redis (net : Connection.Net) (uri password : Bytes) (acts : List Act) (cmd : List Bytes) (r : Option Reply)
    (h : (Connection.execute net (run net { uri := uri, password := password } acts).1 cmd).2 = .sent r) :
    let q := (redisQuery net (run net { uri := uri, password := password } acts).1 cmd).2
    (r = none → q = none) ∧ (∀ s, r = some (.error s) → q = none) ∧ (∀ s, r = some (.status s) → q = some (s, .nil)) ∧
    (∀ x, r = some x → (∀ s, x ≠ .error s) → (∀ s, x ≠ .status s) → q = some ([], x.value)) := by
  have hf := fun r' (hr' : r = some r') => (C87_fetch_once net uri password acts cmd r').1 (by rw [h, hr'])
  unfold redisQuery
  generalize Connection.execute net (run net { uri := uri, password := password } acts).1 cmd = x at h hf
  obtain ⟨c, e⟩ := x
  dsimp only at h hf
  subst h
  refine ⟨?_, ?_, ?_, ?_⟩
  · intro hr; subst hr; rfl
  · intro s hr; subst hr; rfl
  · intro s hr
    have this : (fetch c).2 = some (true, s, .nil) := hf _ hr
    subst hr
    show (match fetch c with | (c, some (_, status, value)) => (c, some (status, value)) | (c, none) => (c, none)).2 = _
    generalize fetch c = y at this
    obtain ⟨c', v⟩ := y
    dsimp only at this
    subst this
    rfl
  · intro x hr h1 h2
    have := hf _ hr
    rw [C42_value x h2] at this
    subst hr
    have ha : accepted (some x) = true := by
      unfold accepted Reply.isError
      cases x <;> first | rfl | exact absurd rfl (h1 _)
    dsimp only
    rw [ha]
    show (match fetch c with | (c, some (_, status, value)) => (c, some (status, value)) | (c, none) => (c, none)).2 = _
    clear hf
    generalize fetch c = y at this
    obtain ⟨c', v⟩ := y
    dsimp only at this
    subst this
    rfl

/-- C89: if the command is not sent, then a query throws an exception. -/
theorem C89_redis_error (net : Connection.Net) (c : Connection.Conn) (cmd : List Bytes) (h : ∀ r, (Connection.execute net c cmd).2 ≠ .sent r) :
    (redisQuery net c cmd).2 = none := by
  unfold redisQuery
  generalize Connection.execute net c cmd = x at h
  obtain ⟨c', e⟩ := x
  cases e <;> first | rfl | exact absurd rfl (h _)

/-- The hypothesis is met. -/
example : (Connection.execute { exampleNet with connect := fun _ _ _ => .ok } (run { exampleNet with connect := fun _ _ _ => .ok } { uri := b! "localhost/", password := [] } []).1 [b! "PING"]).2 =
    .sent (some (.status (b! "OK"))) := by
  have ht : service_target redisDefaults (b! "localhost/") = some ⟨b! "default", b! "localhost", 6379, []⟩ := by decide +kernel
  simp only [run, Connection.execute, Connection.login, ht]
  rfl

end redis

end Verif.Props
