import Verif.Spec.DbAsk
import Verif.Spec.Queries
import Verif.Spec.MysqlQuery
import Verif.Proofs.DbAskFut
import Verif.Proofs.DbAskRedis
import Verif.Proofs.DbAskMysql
import Verif.Props.Queries
/-!
# C123: what a fiber asks a database for, it gets
-/
namespace Verif.Props
open Verif.DbAsk Verif.Connection Verif.Spec

theorem dbask_laws {D : Driver} (h : Known D) : Nonempty (Laws D) := by
  cases h
  · exact ⟨redisLaws⟩
  · exact ⟨mysqlLaws⟩
  · exact ⟨mongoLaws⟩

/-- What a driver has to do with what has been asked on behalf of a future. -/
theorem dbask_asked {D : Driver} (L : Laws D) {cmd : Nat → D.Cmd} {s : Sys D} (h : DbAsk.Reachable cmd s) (f : Nat) :
    (asked f s.log = [] ∧ (s.phase f).fin = none) ∨ ∃ id net c0 c1 ok, Sent cmd s f id net c0 c1 ok ∧
      ∀ r, (s.phase f).fin = some r → (ok = false → r = none) ∧ (ok = true → ∃ net', (D.fetch net' c1).2 = r) := by
  have hi := inv L h
  cases hp : s.phase f with
  | new => exact .inl ⟨hi.ask.early f (by rw [hp]; trivial), rfl⟩
  | lent => exact .inl ⟨hi.ask.early f (by rw [hp]; trivial), rfl⟩
  | started => exact .inl ⟨hi.ask.early f (by rw [hp]; trivial), rfl⟩
  | reading => exact .inl ⟨hi.ask.early f (by rw [hp]; trivial), rfl⟩
  | holding => exact .inl ⟨hi.ask.early f (by rw [hp]; trivial), rfl⟩
  | executed id => obtain ⟨net, c0, h1⟩ := hi.ask.sent f id hp; exact .inr ⟨id, net, c0, _, _, h1, fun r hr => nomatch hr⟩
  | ended id r => obtain ⟨id, net, c0, c1, ok, h1, h2, h3⟩ := hi.ask.done f r (by rw [hp]; rfl); exact .inr ⟨id, net, c0, c1, ok, h1, fun r hr => by cases hr; exact ⟨h2, h3⟩⟩
  | cleared id r => obtain ⟨id, net, c0, c1, ok, h1, h2, h3⟩ := hi.ask.done f r (by rw [hp]; rfl); exact .inr ⟨id, net, c0, c1, ok, h1, fun r hr => by cases hr; exact ⟨h2, h3⟩⟩
  | returning id r => obtain ⟨id, net, c0, c1, ok, h1, h2, h3⟩ := hi.ask.done f r (by rw [hp]; rfl); exact .inr ⟨id, net, c0, c1, ok, h1, fun r hr => by cases hr; exact ⟨h2, h3⟩⟩
  | over r => obtain ⟨id, net, c0, c1, ok, h1, h2, h3⟩ := hi.ask.done f r (by rw [hp]; rfl); exact .inr ⟨id, net, c0, c1, ok, h1, fun r hr => by cases hr; exact ⟨h2, h3⟩⟩

/-- A successful future has ended with a result. -/
theorem dbask_success {D : Driver} (L : Laws D) {cmd : Nat → D.Cmd} {s : Sys D} (h : DbAsk.Reachable cmd s) (f : Nat) (hf : Fiber.successful s.fib f = true) :
    ∃ res id net c0 c1, (s.phase f).result = some res ∧ Sent cmd s f id net c0 c1 true ∧ ∃ net', (D.fetch net' c1).2 = some res := by
  have hfl := (inv L h).fut.flags f
  have hn := (Fiber.futInv (inv L h).fut.reach)
  unfold Fiber.successful at hf
  rw [Bool.and_eq_true, Bool.not_eq_true'] at hf
  obtain ⟨h1, h2⟩ := hf
  have hl : (s.fib.fut f).locked ≠ true := by rw [Fiber.init_locked hn h1]; simp
  have key : ∀ r, (s.phase f).fin = some r → (s.phase f).result = r → (s.fib.fut f).failed = r.isNone →
      ∃ res id net c0 c1, (s.phase f).result = some res ∧ Sent cmd s f id net c0 c1 true ∧ ∃ net', (D.fetch net' c1).2 = some res := by
    intro r hr hr' hfr
    rw [h2] at hfr
    cases r with
    | none => cases hfr
    | some res =>
      rcases dbask_asked L h f with ⟨-, h3⟩ | ⟨id, net, c0, c1, ok, h3, h4⟩
      · rw [hr] at h3; cases h3
      · obtain ⟨h5, h6⟩ := h4 _ hr
        cases ok with
        | false => cases h5 rfl
        | true => exact ⟨res, id, net, c0, c1, hr', h3, h6 rfl⟩
  cases hp : s.phase f with
  | new => rw [hp] at hfl; rw [hfl.1] at h1; cases h1
  | lent => rw [hp] at hfl; rw [hfl.1] at h1; cases h1
  | started => rw [hp] at hfl; exact absurd hfl hl
  | reading => rw [hp] at hfl; exact absurd hfl hl
  | holding => rw [hp] at hfl; exact absurd hfl hl
  | executed id => rw [hp] at hfl; exact absurd hfl hl
  | ended id r => rw [hp] at hfl key; exact key r rfl rfl (hfl.resolve_left hl).2
  | cleared id r => rw [hp] at hfl key; exact key r rfl rfl hfl.2
  | returning id r => rw [hp] at hfl key; exact key r rfl rfl hfl.2
  | over r => rw [hp] at hfl key; exact key r rfl rfl hfl.2

/-- C123: the command of a Redis query that is successful has been sent to the server, once, and on one connection, which is one to the default service of a configuration that had been
loaded, or one which the query was made with.  If the connection was not open, it has been opened, and every reply in the course of that was no error.  Nothing else has been sent.  And the
result of the query is the reply to the command, which was no error. -/
theorem C123_redis (cmd : Nat → List Bytes) (s : Sys redis) (h : DbAsk.Reachable cmd s) (f : Nat) (hf : Fiber.successful s.fib f = true) :
    ∃ id uri logins r, ConnOf s f id uri ∧ asked f s.log = (logins ++ [Connection.Ev.command (cmd f) (some r)]).map (fun e => (id, e)) ∧
      (∀ e ∈ logins, Succeeds e ∧ ∃ t, service_target redisDefaults uri = some t ∧ RedisLogin t e) ∧ (∀ e, r ≠ .error e) ∧ (s.phase f).result = some (redisResult r) := by
  obtain ⟨res, id, net, c0, c1, h1, h2, net', h3⟩ := dbask_success redisLaws h f hf
  have he := redis_exec_eq net c0 (cmd f)
  rw [h2.eq] at he
  obtain ⟨he1, he2⟩ := he
  obtain ⟨r, he2, he3⟩ := he2.1 rfl
  obtain ⟨x, rfl, hx⟩ := accepted_iff he3
  obtain ⟨logins, tail, k1, -, k3, ⟨k4, -⟩ | ⟨r', k4, k5, -, -, k6, -, k7⟩⟩ := redis_execute net c0 (cmd f)
  · exact absurd he2 (k4 _)
  · rw [he2] at k4
    cases k4
    refine ⟨id, _, logins, x, h2.from_, ?_, fun e he => ⟨k7 e he, k3 e he⟩, hx, ?_⟩
    · rw [h2.asked]
      dsimp only at he1
      rw [he1]
      show ((Connection.execute net c0 (cmd f)).1.trace.drop c0.trace.length).map _ = _
      rw [k1, k5, List.drop_left]; rfl
    · rw [h1, ← h3]
      refine redis_fetch_result net' c1 x ?_
      dsimp only at he1
      rw [he1]; exact k6

/-- C123: whatever becomes of a Redis query, its command is sent once at most, and nothing else is sent on behalf of it except when the connection is opened. -/
theorem C123_redis_once (cmd : Nat → List Bytes) (s : Sys redis) (h : DbAsk.Reachable cmd s) (f : Nat) :
    ∃ id logins tail, asked f s.log = (logins ++ tail).map (fun e => (id, e)) ∧ tail.length ≤ 1 ∧ (∀ e ∈ tail, ∃ r, e = Connection.Ev.command (cmd f) r) ∧
      (logins ++ tail ≠ [] → ∃ uri, ConnOf s f id uri ∧ ∀ e ∈ logins, ∃ t, service_target redisDefaults uri = some t ∧ RedisLogin t e) := by
  rcases dbask_asked redisLaws h f with ⟨h1, -⟩ | ⟨id, net, c0, c1, ok, h2, -⟩
  · exact ⟨0, [], [], h1, by simp, by simp, by simp⟩
  · have he := (redis_exec_eq net c0 (cmd f)).1
    rw [h2.eq] at he
    dsimp only at he
    have ha := h2.asked
    rw [he] at ha
    replace ha : asked f s.log = ((Connection.execute net c0 (cmd f)).1.trace.drop c0.trace.length).map fun e => (id, e) := ha
    obtain ⟨logins, tail, k1, -, k3, ⟨-, k4, -⟩ | ⟨r', -, k4, -⟩⟩ := redis_execute net c0 (cmd f)
    · rw [k1, List.drop_left] at ha
      exact ⟨id, logins, tail, ha, by simp [k4], by simp [k4], fun _ => ⟨_, h2.from_, k3⟩⟩
    · rw [k1, List.drop_left] at ha
      exact ⟨id, logins, tail, ha, by simp [k4], by rw [k4]; simp only [List.mem_singleton]; rintro e rfl; exact ⟨_, rfl⟩, fun _ => ⟨_, h2.from_, k3⟩⟩

/-- C123: the statement of a MySQL query that is successful has been executed, once, and with the arguments of the query; and the result of the query is that of the statement.  Rows are those
that are read alike wherever and whenever they are read, so not those with date-times; see C89. -/
theorem C123_mysql (cmd : Nat → Bytes × List MysqlQuery.Value) (s : Sys mysql) (h : DbAsk.Reachable cmd s) (f : Nat) (hf : Fiber.successful s.fib f = true) :
    ∃ id uri logins n zone rs res, ConnOf s f id uri ∧ n ≤ (cmd f).2.length ∧
      asked f s.log = (logins ++ [MysqlQuery.Ev.prepare (cmd f).1 (some n), .execute (cmd f).1 (((cmd f).2.take n).map (paramOf zone)) (some rs)]).map (fun e => (id, e)) ∧
      logins.length ≤ 1 ∧ (∀ e ∈ logins, MysqlLogin uri true e) ∧ (s.phase f).result = some res ∧
      res.warning_count = rs.warnings ∧ res.match_count = rs.matched ∧ res.insert_id = rs.insertId ∧ res.fields = (rs.fields.getD []).map Prod.fst ∧
      ((rs.fields = none ∨ rs.fields = some []) → res.rows = []) ∧
      (∀ fs vss, rs.fields = some fs → fs ≠ [] → (∀ net, ReadsRows net fs rs.rows vss) → res.rows = vss) := by
  obtain ⟨res, id, net, c0, c1, h1, h2, net', h3⟩ := dbask_success mysqlLaws h f hf
  have he := mysql_exec_eq net c0 (cmd f)
  rw [h2.eq] at he
  obtain ⟨he1, he2⟩ := he
  replace he2 := he2.1 rfl
  dsimp only at he1
  obtain ⟨logins, tail, k1, -, k3, ⟨k4, -⟩ | ⟨k4, -, ⟨k5, -⟩ | ⟨n, r, k5, -, k7, k8, k9⟩⟩⟩ := mysql_execute net c0 (cmd f).1 (cmd f).2
  · rw [he2] at k4; rcases k4 with k4 | k4 | k4 <;> cases k4
  · rw [he2] at k5; rcases k5 with ⟨k5, -⟩ | ⟨k5, -⟩ <;> cases k5
  · cases r with
    | none => rw [he2] at k9; cases k9
    | some rs =>
      obtain ⟨g1, g2, g3, g4, g5, g6⟩ := mysql_fetch_result net' c1 rs (by rw [he1]; exact k7) res h3
      refine ⟨id, _, logins, n, net.zone, rs, res, h2.from_, k5, ?_, k3, k4, h1, g1, g2, g3, g4, g5, fun fs vss h5 h6 h7 => g6 fs vss h5 h6 (h7 net')⟩
      rw [h2.asked, he1]
      show ((MysqlQuery.execute net c0 (cmd f).1 (cmd f).2).1.trace.drop c0.trace.length).map _ = _
      rw [k1, k8, List.drop_left]; rfl

/-- C123: whatever becomes of a MySQL query, its statement is executed once at most, and no other statement is, and never with other arguments. -/
theorem C123_mysql_once (cmd : Nat → Bytes × List MysqlQuery.Value) (s : Sys mysql) (h : DbAsk.Reachable cmd s) (f : Nat) :
    ∃ id logins tail, asked f s.log = (logins ++ tail).map (fun e => (id, e)) ∧ logins.length ≤ 1 ∧
      (tail = [] ∨ (∃ n, tail = [MysqlQuery.Ev.prepare (cmd f).1 n]) ∨
        ∃ n zone r, n ≤ (cmd f).2.length ∧ tail = [MysqlQuery.Ev.prepare (cmd f).1 (some n), .execute (cmd f).1 (((cmd f).2.take n).map (paramOf zone)) r]) ∧
      (logins ++ tail ≠ [] → ∃ uri, ConnOf s f id uri ∧ ∀ e ∈ logins, ∃ ok, MysqlLogin uri ok e) := by
  rcases dbask_asked mysqlLaws h f with ⟨h1, -⟩ | ⟨id, net, c0, c1, ok, h2, -⟩
  · exact ⟨0, [], [], h1, by simp, .inl rfl, by simp⟩
  · have he := (mysql_exec_eq net c0 (cmd f)).1
    rw [h2.eq] at he
    dsimp only at he
    have ha := h2.asked
    rw [he] at ha
    replace ha : asked f s.log = ((MysqlQuery.execute net c0 (cmd f).1 (cmd f).2).1.trace.drop c0.trace.length).map fun e => (id, e) := ha
    obtain ⟨logins, tail, k1, -, k3, k4⟩ := mysql_execute net c0 (cmd f).1 (cmd f).2
    rw [k1, List.drop_left] at ha
    rcases k4 with ⟨-, k4, -, -, k5⟩ | ⟨k5, -, ⟨k4, -⟩ | ⟨n, r, k4, -, -, k8, -⟩⟩
    · exact ⟨id, logins, tail, ha, k3, .inl k4, fun _ => ⟨_, h2.from_, fun e he => ⟨_, k5 e he⟩⟩⟩
    · refine ⟨id, logins, tail, ha, k3, .inr (.inl ?_), fun _ => ⟨_, h2.from_, fun e he => ⟨_, k5 e he⟩⟩⟩
      rcases k4 with ⟨-, n, k4⟩ | ⟨-, n, -, k4⟩ <;> exact ⟨_, k4⟩
    · exact ⟨id, logins, tail, ha, k3, .inr (.inr ⟨n, _, r, k4, k8⟩), fun _ => ⟨_, h2.from_, fun e he => ⟨_, k5 e he⟩⟩⟩

/-- C123: the command of a MongoDB query that is successful has been sent to the server, once; and the result of the query is the documents that the reply stands for, from the first to the
last one. -/
theorem C123_mongo (cmd : Nat → List (Bytes × Mongo.Value)) (s : Sys mongo) (h : DbAsk.Reachable cmd s) (f : Nat) (hf : Fiber.successful s.fib f = true) :
    ∃ id uri rep ds vs, ConnOf s f id uri ∧ asked f s.log = [(id, (Mongo.bsonDoc (cmd f), some rep))] ∧ MongoDocs rep ds ∧ Unpacked ds vs ∧ (s.phase f).result = some vs := by
  obtain ⟨res, id, net, c0, c1, h1, h2, net', h3⟩ := dbask_success mongoLaws h f hf
  rcases mongo_exec_eq net c0 (cmd f) with ⟨-, k⟩ | ⟨-, rep, c', k, -, -, k1, k2, k3, k4⟩
  · rw [h2.eq] at k; cases k
  · rw [h2.eq] at k
    injection k with ka kb
    subst ka
    cases rep with
    | none => cases kb
    | some rep =>
      obtain ⟨ds, g1, g2⟩ := mongo_fetch_result net' c1 rep.1 k1 k2 res h3
      rw [k3 rep rfl] at g1
      refine ⟨id, _, rep, ds, res, h2.from_, ?_, g1, g2, h1⟩
      rw [h2.asked]
      show (c1.log.drop c0.log.length).map _ = _
      rw [k4, List.drop_left]
      rfl

/-- C123: whatever becomes of a MongoDB query, its command is sent once at most, and nothing else is. -/
theorem C123_mongo_once (cmd : Nat → List (Bytes × Mongo.Value)) (s : Sys mongo) (h : DbAsk.Reachable cmd s) (f : Nat) :
    asked f s.log = [] ∨ ∃ id uri rep, ConnOf s f id uri ∧ asked f s.log = [(id, (Mongo.bsonDoc (cmd f), rep))] := by
  rcases dbask_asked mongoLaws h f with ⟨h1, -⟩ | ⟨id, net, c0, c1, ok, h2, -⟩
  · exact .inl h1
  · rcases mongo_exec_eq net c0 (cmd f) with ⟨-, k⟩ | ⟨-, rep, c', k, -, -, k1, k2, k3, k4⟩
    · rw [h2.eq] at k
      injection k with ka kb
      refine .inl ?_
      rw [h2.asked, ka]
      simp
    · rw [h2.eq] at k
      injection k with ka kb
      subst ka
      refine .inr ⟨id, _, rep, h2.from_, ?_⟩
      rw [h2.asked]
      show (c1.log.drop c0.log.length).map _ = _
      rw [k4, List.drop_left]
      rfl

/-- C123: whatever a server sees on behalf of a query, it sees after the query has begun, and before it has completed. -/
theorem C123_between {D : Driver} (hD : Known D) (cmd : Nat → D.Cmd) (s : Sys D) (h : DbAsk.Reachable cmd s) : Between s.log := by
  obtain ⟨L⟩ := dbask_laws hD
  exact (inv L h).between

/-- C123: so if a query has completed at a time when another one has not begun, then the servers have seen all of the first, and nothing of the second; and they see the second afterwards. -/
theorem C123_order {D : Driver} (hD : Known D) (cmd : Nat → D.Cmd) (s : Sys D) (h : DbAsk.Reachable cmd s) (p q : List (Item D)) (hl : s.log = p ++ q) (f g : Nat)
    (hf : .fiber (.completed f) ∈ p) (hg : .fiber (.initBegan g) ∉ p) : asked f q = [] ∧ asked g p = [] := by
  have hb := C123_between hD cmd s h
  rw [hl] at hb
  constructor
  · refine List.eq_nil_iff_forall_not_mem.2 fun x hx => ?_
    obtain ⟨y, hy, hy'⟩ := List.mem_filterMap.1 hx
    obtain ⟨a, b, rfl⟩ := List.append_of_mem hy
    cases y with
    | fiber => cases hy'
    | server o id e =>
      dsimp only at hy'
      split at hy'
      · rename_i ho; subst ho
        exact (hb (p ++ a) f id e b (by simp)).2 (List.mem_append.2 (.inl hf))
      · cases hy'
  · refine List.eq_nil_iff_forall_not_mem.2 fun x hx => ?_
    obtain ⟨y, hy, hy'⟩ := List.mem_filterMap.1 hx
    obtain ⟨a, b, rfl⟩ := List.append_of_mem hy
    cases y with
    | fiber => cases hy'
    | server o id e =>
      dsimp only at hy'
      split at hy'
      · rename_i ho; subst ho
        exact hg (List.mem_append.2 (.inl (hb a g id e (b ++ q) (by simp)).1))
      · cases hy'

theorem dbask_resumes_at {fail : Nat} {k now : Nat} {f : Nat} {pre : List Fiber.Ev} : ∀ (post : List Fiber.Ev), Fiber.resumesOk fail (post ++ .resumed k (some f) now true :: pre) → Fiber.Ev.completed f ∈ pre
  | [], h => by obtain ⟨-, y, -, h⟩ := h; exact (h f rfl).2 rfl
  | e :: post, h => by
    refine dbask_resumes_at (fail := fail) (k := k) (now := now) post ?_
    cases e <;> first | exact h | exact h.1

theorem dbask_returned_at {k f : Nat} {pre : List Fiber.Ev} : ∀ (post : List Fiber.Ev), Fiber.waitsOk (post ++ .returned k f :: pre) → Fiber.Ev.completed f ∈ pre
  | [], h => h.2
  | e :: post, h => by
    refine dbask_returned_at (k := k) post ?_
    cases e <;> first | exact h | exact h.1

/-- C123: if a fiber waits for a query, and `yield()` returns normally, whether or not the fiber has been suspended, then the query has completed before, and no server sees anything on behalf
of it afterwards. -/
theorem C123_resumed {D : Driver} (hD : Known D) (cmd : Nat → D.Cmd) (s : Sys D) (h : DbAsk.Reachable cmd s) (k f now : Nat) (a b : List (Item D))
    (hl : s.log = a ++ .fiber (.resumed k (some f) now true) :: b ∨ s.log = a ++ .fiber (.returned k f) :: b) : .fiber (.completed f) ∈ a ∧ asked f b = [] := by
  obtain ⟨L⟩ := dbask_laws hD
  have hi := inv L h
  have hc : .fiber (.completed f) ∈ a := by
    rw [mem_fibers]
    have hf := hi.fut.log
    rcases hl with hl | hl
    · have ht : s.fib.trace = (fibers b).reverse ++ .resumed k (some f) now true :: (fibers a).reverse := by
        have : s.fib.trace = (fibers s.log).reverse := by rw [hf, List.reverse_reverse]
        rw [this, hl]
        simp [fibers]
      have := (Fiber.fibInv hi.fut.reach).resumes
      rw [ht] at this
      exact List.mem_reverse.1 (dbask_resumes_at _ this)
    · have ht : s.fib.trace = (fibers b).reverse ++ .returned k f :: (fibers a).reverse := by
        have : s.fib.trace = (fibers s.log).reverse := by rw [hf, List.reverse_reverse]
        rw [this, hl]
        simp [fibers]
      have := (Fiber.regInv hi.fut.reach).waits
      rw [ht] at this
      exact List.mem_reverse.1 (dbask_returned_at _ this)
  refine ⟨hc, ?_⟩
  refine List.eq_nil_iff_forall_not_mem.2 fun x hx => ?_
  obtain ⟨y, hy, hy'⟩ := List.mem_filterMap.1 hx
  obtain ⟨a', b', hb⟩ := List.append_of_mem hy
  cases y with
  | fiber => cases hy'
  | server o id e =>
    dsimp only at hy'
    split at hy'
    · rename_i ho; subst ho
      rcases hl with hl | hl
      · exact (hi.between (a ++ .fiber (.resumed k (some f) now true) :: a') f id e b' (by rw [hl, hb]; simp)).2 (List.mem_append.2 (.inl hc))
      · exact (hi.between (a ++ .fiber (.returned k f) :: a') f id e b' (by rw [hl, hb]; simp)).2 (List.mem_append.2 (.inl hc))
    · cases hy'

/-- C123: whatever the server has seen on a connection is what the owners of the connection have done, in that order; and the pool knows the service of the connection, and whether it has been
used since it was reset, so that C38 is about these connections, too. -/
theorem C123_view {D : Driver} (hD : Known D) (cmd : Nat → D.Cmd) (s : Sys D) (h : DbAsk.Reachable cmd s) (id : Nat) :
    heard id s.log = D.trace (s.real id) ∧ Pool.Reachable s.pool ∧
    (id < s.pool.next → (s.pool.conn id).uri = D.uri (s.real id) ∧ (s.pool.conn id).clear = D.clear (s.real id)) := by
  obtain ⟨L⟩ := dbask_laws hD
  have hi := (inv L h).conn
  exact ⟨hi.heard id, hi.reach, fun hid => L.R_view _ _ (hi.agree id hid)⟩

/-! ### Cases -/

theorem dbask_run_reachable {D : Driver} {cmd : Nat → D.Cmd} : ∀ (as : List (DbAsk.Act D)) {s s' : Sys D}, DbAsk.Reachable cmd s → DbAsk.run cmd s as = some s' → DbAsk.Reachable cmd s'
  | [], s, s', h, hr => by cases hr; exact h
  | a :: as, s, s', h, hr => by
    unfold DbAsk.run at hr
    cases hs : DbAsk.step cmd s a with
    | none => rw [hs] at hr; cases hr
    | some t => rw [hs] at hr; exact dbask_run_reachable as (.step h hs) hr

def dbaskConf : Pool.Conf := { size := 3, idle := 1000, uri := b! "me@db.example/1", password := b! "secret" }

/-- A server with one password, and one reply. -/
def dbaskServer (password : Bytes) (r : Redis.Reply) : Connection.Net where
  connect _ _ _ := .ok
  reply _ c := some (if c.head? = some (b! "AUTH") then (if c = [b! "AUTH", b! "me", password] then .status (b! "OK") else .error (b! "WRONGPASS")) else
    if c.head? = some (b! "SELECT") then .status (b! "OK") else r)

/-- Fiber 0 waits for future 7. -/
def dbaskWait : List (DbAsk.Act redis) := [.fiber (.launch 0), .fiber .enter, .fiber (.pick 0), .fiber .look, .fiber (.yield (some 7)), .fiber .register]

/-- Thread 1 executes a future, notifies `k` waiters, and gives back the connection. -/
def dbaskQuery {D : Driver} (net : D.Net) (f : Nat) (ok : Bool) (k : Nat) : List (DbAsk.Act D) :=
  [.fiber (.call 1 f), .readConf 1, .allocate 1, .execute 1 net] ++ (if ok then [.fetch 1 net] else []) ++ [.fiber (.exit 1 (if ok then .ok else .threw)), .fiber (.tick 5)] ++
  List.replicate k (.fiber (.notify 1 4)) ++ [.reset 1 true, .rereadConf 1, .giveBack 1, .fiber (.finalize 1)]

/-- The fiber is resumed. -/
def dbaskResume : List (DbAsk.Act redis) := [.fiber .enter, .fiber .scan, .fiber .endScan, .fiber (.pick 0), .fiber .look]

def dbaskCmd (f : Nat) : List Bytes := if f = 7 then [b! "GET", b! "x"] else [b! "SET", b! "x", b! "y"]

/-- Non-vacuity: a fiber waits for a query, is resumed, and has its result; then there is another query, on the same connection. -/
example : ∃ s, DbAsk.run (D := redis) dbaskCmd (start redis 1000 5000)
      ([.reload dbaskConf] ++ dbaskWait ++ dbaskQuery (D := redis) (dbaskServer (b! "secret") (.string (b! "v"))) 7 true 1 ++ dbaskResume ++ dbaskQuery (D := redis) (dbaskServer (b! "secret") (.status (b! "OK"))) 8 true 0) = some s ∧
    Fiber.successful s.fib 7 = true ∧ Fiber.successful s.fib 8 = true ∧ Fiber.Ev.resumed 0 (some 7) 5 true ∈ s.fib.trace ∧
    asked 7 s.log = [(0, Connection.Ev.connect (b! "db.example") 6379 .ok), (0, .command [b! "AUTH", b! "me", b! "secret"] (some (.status (b! "OK")))),
      (0, .command [b! "SELECT", b! "1"] (some (.status (b! "OK")))), (0, .command [b! "GET", b! "x"] (some (.string (b! "v"))))] ∧
    asked 8 s.log = [(0, Connection.Ev.command [b! "SET", b! "x", b! "y"] (some (.status (b! "OK"))))] ∧
    (s.phase 7).result = some ([], .string (b! "v")) ∧ (s.phase 8).result = some (b! "OK", .nil) :=
  ⟨_, rfl, rfl, rfl, by decide +kernel, rfl, rfl, rfl, rfl⟩

set_option maxRecDepth 8000 in
/-- Non-vacuity: MySQL. -/
example : ∃ s, DbAsk.run (D := mysql) (fun _ => (b! "SELECT", [.integer 5, .null, .integer 6])) (start mysql 1000 5000) ([.reload dbaskConf] ++ dbaskQuery (D := mysql) exampleMysql 7 true 0) = some s ∧
    Fiber.successful s.fib 7 = true ∧ (asked 7 s.log).map (fun x => match x.2 with | MysqlQuery.Ev.execute q ps _ => some (q, ps) | _ => none) =
      [none, none, some (b! "SELECT", [.longlong 5, .null])] ∧
    @Eq (Option MysqlQuery.Result) (s.phase 7).result (some ⟨0, 0, 0, [b! "id", b! "name"], [[.integer (-5), .blob (b! "a")], [.integer 7, .null]]⟩) :=
  ⟨_, rfl, rfl, by decide +kernel, rfl⟩
example : ∀ net, ReadsRows net [(b! "id", .longlong), (b! "name", .other)] [.cells [.int (-5), .bytes (b! "a")], .cells [.int 7, .null]]
    [[.integer (-5), .blob (b! "a")], [.integer 7, .null]] := fun _ =>
  .cons (.cons (.integer (by simp) (by omega) (by omega)) (.cons .blob .nil)) (.cons (.cons (.integer (by simp) (by omega) (by omega)) (.cons .null .nil)) .nil)

/-- Non-vacuity: MongoDB, with a connection that a user of the API has used and then lends to the query. -/
example : ∃ s, DbAsk.run (D := mongo) (fun _ => [(b! "find", .utf8 (b! "t"))]) (start mongo 1000 5000)
      [.reload dbaskConf, .user 4 .readConf, .user 4 (.allocate (b! "other") []), .user 4 (.execute 0 (exampleMongo []) [(b! "ping", .integer 1)]), .user 4 (.lend 0 7), .fiber (.call 1 7),
        .execute 1 (exampleMongo [[(b! "x", .int32 5)], []]), .fetch 1 (exampleMongo []), .fiber (.exit 1 .ok)] = some s ∧
    Fiber.successful s.fib 7 = true ∧ (asked 7 s.log).map (fun x => x.2.1) = [[(b! "find", .utf8 (b! "t"))]] ∧ (heard 0 s.log).length = 2 ∧
    (s.phase 7).result = some [[(b! "x", .integer 5)], []] :=
  ⟨_, rfl, rfl, rfl, rfl, rfl⟩

/-- C123, violated: the server replies to the command of a query with an error.  The fiber that waits for the query is resumed and `yield()` returns normally; then `check_success()` returns
normally, too; and there is no result. -/
theorem C123_silent : ∃ s, DbAsk.Reachable (D := redis) dbaskCmd s ∧ s.fib.trace.head? = some (.resumed 0 (some 7) 5 true) ∧ Fiber.checkSuccess s.fib 7 = .returns ∧
    (asked 7 s.log).getLast? = some (0, Connection.Ev.command [b! "GET", b! "x"] (some (.error (b! "LOADING")))) ∧ (s.phase 7).result = none :=
  ⟨_, dbask_run_reachable ([.reload dbaskConf] ++ dbaskWait ++ dbaskQuery (D := redis) (dbaskServer (b! "secret") (.error (b! "LOADING"))) 7 false 1 ++ dbaskResume) (.init 1000 5000) rfl,
    by decide +kernel, rfl, rfl, rfl⟩

/-- C123, violated: a query fails because the password in the configuration is wrong.  Its connection has not been opened, so it has nothing to be reset, and goes to the pool.  Then a
configuration with the right password is loaded.  The next query is given that connection, which still has the wrong password; so it fails, and the connection goes to the pool again. -/
theorem C123_stale_password : ∃ s s' : Sys redis, DbAsk.Reachable dbaskCmd s ∧ s.pool.conf.password = b! "secret" ∧ Item.fiber (.initBegan 8) ∉ s.log ∧
    DbAsk.run dbaskCmd s (dbaskQuery (D := redis) (dbaskServer (b! "secret") (.status (b! "OK"))) 8 false 0) = some s' ∧
    asked 8 s'.log = [(0, Connection.Ev.connect (b! "db.example") 6379 .ok), (0, .command [b! "AUTH", b! "me", b! "wrong"] (some (.error (b! "WRONGPASS"))))] ∧
    Fiber.successful s'.fib 8 = false ∧ s'.pool.pool.map (·.id) = [0] ∧ s'.pool.conf.password = b! "secret" :=
  ⟨_, _, dbask_run_reachable ([.reload { dbaskConf with password := b! "wrong" }] ++ dbaskQuery (D := redis) (dbaskServer (b! "secret") (.status (b! "OK"))) 7 false 0 ++ [.reload dbaskConf]) (.init 1000 5000) rfl,
    rfl, by rw [mem_fibers]; decide +kernel, rfl, rfl, rfl, rfl, rfl⟩

end Verif.Props
