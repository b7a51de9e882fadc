import Verif.Proofs.DbAskConn
import Verif.Proofs.MysqlQuery
import Verif.Proofs.Queries
import Verif.Proofs.Mongo
/-!
# MySQL and MongoDB connections as drivers
-/
namespace Verif.DbAsk
open Verif.Spec

section mysql
open Verif.MysqlQuery Verif.Connection

theorem fetch_row_same (net : MysqlQuery.Net) (c : MysqlQuery.Conn) : ∃ st, (fetch_row net c).1 = { c with stmt := st } := by
  unfold fetch_row
  repeat' split
  all_goals first | exact ⟨c.stmt, rfl⟩ | exact ⟨some _, rfl⟩

theorem mysql_fetchAll_same (net : MysqlQuery.Net) : ∀ (n : Nat) (c : MysqlQuery.Conn) (acc : List (List MysqlQuery.Value)), ∃ st, (MysqlQuery.fetchAll net n c acc).1 = { c with stmt := st }
  | 0, c, _ => ⟨c.stmt, rfl⟩
  | n + 1, c, acc => by
    unfold MysqlQuery.fetchAll
    obtain ⟨st, h⟩ := fetch_row_same net c
    generalize fetch_row net c = x at h
    obtain ⟨c', e⟩ := x
    dsimp only at h
    subst h
    cases e with
    | row vs =>
      obtain ⟨st', h'⟩ := mysql_fetchAll_same net n { c with stmt := st } (acc ++ [vs])
      exact ⟨st', h'⟩
    | _ => exact ⟨st, rfl⟩

theorem mysql_fetch_same (net : MysqlQuery.Net) (c : MysqlQuery.Conn) : ∃ st, (mysql.fetch net c).1 = { c with stmt := st } := by
  obtain ⟨st, h⟩ := mysql_fetchAll_same net (c.result.rows.length + 1) c []
  refine ⟨st, ?_⟩
  rw [← h]
  show (match MysqlQuery.fetchAll net (c.result.rows.length + 1) c [] with
    | (c', some rows) => (c', some (Result.mk c.result.warnings c.result.matched c.result.insertId (MysqlQuery.fetch_fields c).2 rows))
    | (c', none) => (c', none)).1 = _
  generalize MysqlQuery.fetchAll net (c.result.rows.length + 1) c [] = x
  obtain ⟨c', o⟩ := x
  cases o <;> rfl

/-- Statements on a connection that has been made. -/
theorem mysql_prepare (net : MysqlQuery.Net) (c : MysqlQuery.Conn) (stmt : Bytes) (args : List MysqlQuery.Value) :
    (prepare net c stmt args).1.uri = c.uri ∧ (prepare net c stmt args).1.connected = c.connected ∧
    (((((prepare net c stmt args).2 = .prepare ∧ ∃ n, (prepare net c stmt args).1.trace = c.trace ++ [.prepare stmt n]) ∨
        ((prepare net c stmt args).2 = .few ∧ ∃ n, args.length < n ∧ (prepare net c stmt args).1.trace = c.trace ++ [.prepare stmt (some n)])) ∧ (prepare net c stmt args).1.clear = c.clear) ∨
     (∃ n r, n ≤ args.length ∧ (prepare net c stmt args).1.clear = false ∧ (prepare net c stmt args).1.stmt = some (r.getD {}) ∧
        (prepare net c stmt args).1.trace = c.trace ++ [.prepare stmt (some n), .execute stmt ((args.take n).map (paramOf net.zone)) r] ∧
        (prepare net c stmt args).2 = if r.isSome then .ok else .execute)) := by
  unfold prepare
  dsimp only
  cases hn : net.prepare c.trace stmt with
  | none => exact ⟨rfl, rfl, .inl ⟨.inl ⟨rfl, _, rfl⟩, rfl⟩⟩
  | some n =>
    dsimp only
    split
    · rename_i hlt; exact ⟨rfl, rfl, .inl ⟨.inr ⟨rfl, n, hlt, rfl⟩, rfl⟩⟩
    · rename_i hle
      rw [bindAndExecute_eq net _ stmt args n (by omega)]
      refine ⟨rfl, rfl, .inr ⟨n, _, by omega, rfl, rfl, ?_, rfl⟩⟩
      show (c.trace ++ [_]) ++ [_] = _
      rw [List.append_assoc]; rfl

/-- What `execute()` does. -/
theorem mysql_execute (net : MysqlQuery.Net) (c : MysqlQuery.Conn) (stmt : Bytes) (args : List MysqlQuery.Value) :
    ∃ logins tail, (MysqlQuery.execute net c stmt args).1.trace = c.trace ++ (logins ++ tail) ∧ (MysqlQuery.execute net c stmt args).1.uri = c.uri ∧ logins.length ≤ 1 ∧
    ((((MysqlQuery.execute net c stmt args).2 = .empty ∨ (MysqlQuery.execute net c stmt args).2 = .uri ∨ (MysqlQuery.execute net c stmt args).2 = .connect) ∧ tail = [] ∧
        (MysqlQuery.execute net c stmt args).1.clear = c.clear ∧ (MysqlQuery.execute net c stmt args).1.connected = c.connected ∧ ∀ e ∈ logins, MysqlLogin c.uri false e) ∨
     ((∀ e ∈ logins, MysqlLogin c.uri true e) ∧ (MysqlQuery.execute net c stmt args).1.connected = true ∧
      (((((MysqlQuery.execute net c stmt args).2 = .prepare ∧ ∃ n, tail = [.prepare stmt n]) ∨ ((MysqlQuery.execute net c stmt args).2 = .few ∧ ∃ n, args.length < n ∧ tail = [.prepare stmt (some n)])) ∧
          (MysqlQuery.execute net c stmt args).1.clear = c.clear) ∨
       (∃ n r, n ≤ args.length ∧ (MysqlQuery.execute net c stmt args).1.clear = false ∧ (MysqlQuery.execute net c stmt args).1.stmt = some (r.getD {}) ∧
          tail = [.prepare stmt (some n), .execute stmt ((args.take n).map (paramOf net.zone)) r] ∧
          (MysqlQuery.execute net c stmt args).2 = if r.isSome then .ok else .execute)))) := by
  unfold MysqlQuery.execute
  split
  · exact ⟨[], [], by simp, rfl, by simp, .inl ⟨.inl rfl, rfl, rfl, rfl, by simp⟩⟩
  · have key : ∀ (c1 : MysqlQuery.Conn) (logins : List MysqlQuery.Ev), c1.uri = c.uri → c1.connected = true → c1.clear = c.clear → c1.trace = c.trace ++ logins → logins.length ≤ 1 →
        (∀ e ∈ logins, MysqlLogin c.uri true e) →
        ∃ logins tail, (prepare net c1 stmt args).1.trace = c.trace ++ (logins ++ tail) ∧ (prepare net c1 stmt args).1.uri = c.uri ∧ logins.length ≤ 1 ∧
        ((((prepare net c1 stmt args).2 = .empty ∨ (prepare net c1 stmt args).2 = .uri ∨ (prepare net c1 stmt args).2 = .connect) ∧ tail = [] ∧
            (prepare net c1 stmt args).1.clear = c.clear ∧ (prepare net c1 stmt args).1.connected = c.connected ∧ ∀ e ∈ logins, MysqlLogin c.uri false e) ∨
         ((∀ e ∈ logins, MysqlLogin c.uri true e) ∧ (prepare net c1 stmt args).1.connected = true ∧
          (((((prepare net c1 stmt args).2 = .prepare ∧ ∃ n, tail = [.prepare stmt n]) ∨ ((prepare net c1 stmt args).2 = .few ∧ ∃ n, args.length < n ∧ tail = [.prepare stmt (some n)])) ∧
              (prepare net c1 stmt args).1.clear = c.clear) ∨
           (∃ n r, n ≤ args.length ∧ (prepare net c1 stmt args).1.clear = false ∧ (prepare net c1 stmt args).1.stmt = some (r.getD {}) ∧
              tail = [.prepare stmt (some n), .execute stmt ((args.take n).map (paramOf net.zone)) r] ∧
              (prepare net c1 stmt args).2 = if r.isSome then .ok else .execute)))) := by
      intro c1 logins h1 h2 h3 h4 h5 h6
      obtain ⟨p1, p2, ⟨⟨p3, n, p4⟩ | ⟨p3, n, p4, p5⟩, p6⟩ | ⟨n, r, p3, p4, p5, p6, p7⟩⟩ := mysql_prepare net c1 stmt args
      · exact ⟨logins, [_], by rw [p4, h4, List.append_assoc], p1.trans h1, h5, .inr ⟨h6, p2.trans h2, .inl ⟨.inl ⟨p3, n, rfl⟩, p6.trans h3⟩⟩⟩
      · exact ⟨logins, [_], by rw [p5, h4, List.append_assoc], p1.trans h1, h5, .inr ⟨h6, p2.trans h2, .inl ⟨.inr ⟨p3, n, p4, rfl⟩, p6.trans h3⟩⟩⟩
      · exact ⟨logins, [_, _], by rw [p6, h4, List.append_assoc], p1.trans h1, h5, .inr ⟨h6, p2.trans h2, .inr ⟨n, r, p3, p4, p5, rfl, p7⟩⟩⟩
    split
    · rename_i hcn
      exact key c [] rfl hcn rfl (by simp) (by simp) (by simp)
    · unfold MysqlQuery.login
      cases ht : service_target mysqlDefaults c.uri with
      | none => exact ⟨[], [], by simp, rfl, by simp, .inl ⟨.inr (.inl rfl), rfl, rfl, rfl, by simp⟩⟩
      | some t =>
        dsimp only
        generalize hok : net.connect c.trace { user := cstr t.user, host := cstr t.host, port := t.port, database := cstr t.database } (cstr c.password) = ok
        cases ok with
        | false =>
          refine ⟨[_], [], rfl, rfl, by simp, .inl ⟨.inr (.inr rfl), rfl, rfl, rfl, ?_⟩⟩
          simp only [List.mem_singleton]; rintro e rfl; exact ⟨t, _, ht, rfl⟩
        | true =>
          refine key _ [_] rfl rfl rfl rfl (by simp) ?_
          simp only [List.mem_singleton]; rintro e rfl; exact ⟨t, _, ht, rfl⟩

theorem mysql_exec_eq (net : MysqlQuery.Net) (c : MysqlQuery.Conn) (cmd : Bytes × List MysqlQuery.Value) :
    (mysql.execute net c cmd).1 = (MysqlQuery.execute net c cmd.1 cmd.2).1 ∧ ((mysql.execute net c cmd).2 = true ↔ (MysqlQuery.execute net c cmd.1 cmd.2).2 = .ok) := by
  show (match MysqlQuery.execute net c cmd.1 cmd.2 with | (c, .ok) => (c, true) | (c, _) => (c, false)).1 = _ ∧
    ((match MysqlQuery.execute net c cmd.1 cmd.2 with | (c, .ok) => (c, true) | (c, _) => (c, false)).2 = true ↔ _)
  generalize MysqlQuery.execute net c cmd.1 cmd.2 = x
  obtain ⟨c', e⟩ := x
  cases e <;> simp

def mysqlLaws : Laws mysql where
  grows net c cmd := by
    rw [(mysql_exec_eq net c cmd).1]
    obtain ⟨a, b, h, -⟩ := mysql_execute net c cmd.1 cmd.2
    exact ⟨_, h⟩
  uri_fresh _ _ := rfl
  uri_execute net c cmd := by
    rw [(mysql_exec_eq net c cmd).1]
    obtain ⟨a, b, -, h, -⟩ := mysql_execute net c cmd.1 cmd.2
    exact h
  uri_fetch net c := by obtain ⟨st, h⟩ := mysql_fetch_same net c; rw [h]; rfl
  uri_next net c := by obtain ⟨st, h⟩ := fetch_row_same net c; show (fetch_row net c).1.uri = _; rw [h]; rfl
  uri_reset _ _ := rfl
  trace_fresh _ _ := rfl
  trace_fetch net c := by obtain ⟨st, h⟩ := mysql_fetch_same net c; rw [h]; rfl
  trace_next net c := by obtain ⟨st, h⟩ := fetch_row_same net c; show (fetch_row net c).1.trace = _; rw [h]; rfl
  trace_reset _ _ := rfl
  R p c := p.uri = MysqlQuery.Conn.uri c ∧ p.clear = MysqlQuery.Conn.clear c ∧ p.connected = MysqlQuery.Conn.connected c
  R_fresh _ _ := ⟨rfl, rfl, rfl⟩
  R_execute net p c cmd h := by
    obtain ⟨h1, h2, h3⟩ := h
    rw [(mysql_exec_eq net c cmd).1]
    show _ = (MysqlQuery.execute net c cmd.1 cmd.2).1.uri ∧ _ = (MysqlQuery.execute net c cmd.1 cmd.2).1.clear ∧ _ = (MysqlQuery.execute net c cmd.1 cmd.2).1.connected
    have hu : mysql.use net c cmd = match (MysqlQuery.execute net c cmd.1 cmd.2).2 with
      | .ok => .sends false | .execute => .sends true | .ub => .sends true | .prepare => .connects | .few => .connects | _ => .nothing := rfl
    obtain ⟨logins, tail, -, k1, -, ⟨k2, -, k3, k4, -⟩ | ⟨-, k4, ⟨k2, k3⟩ | ⟨n, r, -, k3, -, -, k2⟩⟩⟩ := mysql_execute net c cmd.1 cmd.2
    · have : mysql.use net c cmd = .nothing := by rw [hu]; rcases k2 with k2 | k2 | k2 <;> rw [k2]
      rw [this, k1, k3, k4]
      exact ⟨h1, h2, h3⟩
    · have : mysql.use net c cmd = .connects := by rw [hu]; rcases k2 with ⟨k2, -⟩ | ⟨k2, -⟩ <;> rw [k2]
      rw [this, k1, k3, k4]
      exact ⟨h1, h2, rfl⟩
    · have : ∃ b, mysql.use net c cmd = .sends b := by rw [hu, k2]; cases r <;> exact ⟨_, rfl⟩
      obtain ⟨b, this⟩ := this
      rw [this, k1, k3, k4]
      exact ⟨h1, rfl, rfl⟩
  R_fetch net p c h := by obtain ⟨st, h'⟩ := mysql_fetch_same net c; rw [h']; exact h
  R_next net p c h := by
    obtain ⟨st, h'⟩ := fetch_row_same net c
    show _ = (fetch_row net c).1.uri ∧ _ = (fetch_row net c).1.clear ∧ _ = (fetch_row net c).1.connected
    rw [h']; exact h
  R_reset ok p c h := by
    obtain ⟨h1, h2, h3⟩ := h
    refine ⟨h1, ?_, h3⟩
    show (!(p.connected && !ok)) = !(MysqlQuery.Conn.connected c && !ok)
    rw [h3]
  R_view p c h := ⟨h.1, h.2.1⟩

/-- What is fetched is the result set. -/
theorem mysql_fetch_result (net : MysqlQuery.Net) (c : MysqlQuery.Conn) (rs : ResultSet) (hr : c.stmt = some rs) (res : Result) (h : (mysql.fetch net c).2 = some res) :
    res.warning_count = rs.warnings ∧ res.match_count = rs.matched ∧ res.insert_id = rs.insertId ∧ res.fields = (rs.fields.getD []).map Prod.fst ∧
    ((rs.fields = none ∨ rs.fields = some []) → res.rows = []) ∧ (∀ fs vss, rs.fields = some fs → fs ≠ [] → ReadsRows net fs rs.rows vss → res.rows = vss) := by
  replace h : (match MysqlQuery.fetchAll net (c.result.rows.length + 1) c [] with
    | (c', some rows) => (c', some (Result.mk c.result.warnings c.result.matched c.result.insertId (MysqlQuery.fetch_fields c).2 rows))
    | (c', none) => (c', none)).2 = some res := h
  have hc : c.result = rs := by unfold MysqlQuery.Conn.result; rw [hr]; rfl
  rw [hc] at h
  have hf : (MysqlQuery.fetch_fields c).2 = (rs.fields.getD []).map Prod.fst := by
    unfold fetch_fields
    rw [hr]
    cases hfs : rs.fields <;> simp only [hfs] <;> rfl
  rw [hf] at h
  have h1 := fun h2 => fetchAll_none (net := net) hr h2 rs.rows.length
  have h2 := fun fs vss (h2 : rs.fields = some fs) (hne : fs ≠ []) (h3 : ReadsRows net fs rs.rows vss) => MysqlQuery.fetchAll_eq hne h3 c rs [] (rs.rows.length + 1) hr h2 rfl (by omega)
  generalize MysqlQuery.fetchAll net (rs.rows.length + 1) c [] = x at h h1 h2
  obtain ⟨c', o⟩ := x
  cases o with
  | none => cases h
  | some rows =>
    simp only [Option.some.injEq] at h
    subst h
    refine ⟨rfl, rfl, rfl, rfl, ?_, ?_⟩
    · intro h3
      have := h1 h3
      simp only [Prod.mk.injEq, Option.some.injEq] at this
      exact this.2
    · intro fs vss h3 h4 h5
      have := h2 fs vss h3 h4 h5
      simp only [Prod.mk.injEq, Option.some.injEq, List.nil_append] at this
      exact this.2

end mysql

section mongo
open Verif.MongoQuery Verif.Mongo

theorem mongo_fetch_bson_clear (net : MongoQuery.Net) (c : MongoQuery.Conn) : (fetch_bson net c).1.clear = c.clear := by
  unfold fetch_bson next
  repeat' split
  all_goals rfl

theorem mongo_fetch_reply_clear (net : MongoQuery.Net) (c : MongoQuery.Conn) : (fetch_reply net c).1.clear = c.clear := by
  rw [← mongo_fetch_bson_clear net c]
  unfold fetch_reply
  generalize fetch_bson net c = x
  obtain ⟨c', e⟩ := x
  cases e with
  | doc d => dsimp only; split <;> rfl
  | _ => rfl

theorem mongo_fetchAll_clear (net : MongoQuery.Net) : ∀ (n : Nat) (c : MongoQuery.Conn) (acc : List (List (Bytes × Mongo.Value))), (MongoQuery.fetchAll net n c acc).1.clear = c.clear
  | 0, c, _ => rfl
  | n + 1, c, acc => by
    rw [← mongo_fetch_reply_clear net c]
    unfold MongoQuery.fetchAll
    generalize fetch_reply net c = x
    obtain ⟨c', e⟩ := x
    cases e with
    | doc d => exact mongo_fetchAll_clear net n c' _
    | _ => rfl

theorem mongo_exec_eq (net : MongoQuery.Net) (c : MongoConn) (cmd : List (Bytes × Mongo.Value)) :
    (Mongo.execute net.ok net.valid cmd = none ∧ mongo.execute net c cmd = (c, false)) ∨
    (Mongo.execute net.ok net.valid cmd = some (bsonDoc cmd) ∧ ∃ rep : Option (Bdoc × Cursor), ∃ c' : MongoConn, mongo.execute net c cmd = (c', rep.isSome) ∧ c'.uri = c.uri ∧
      c'.conn.clear = false ∧ c'.conn.cursor = none ∧ c'.conn.reply = rep.map Prod.fst ∧ (∀ x, rep = some x → c'.cursor = x.2) ∧ c'.log = c.log ++ [(bsonDoc cmd, rep)]) := by
  have he := execute_eq net.ok net.valid cmd
  by_cases hp : (packableDoc net.ok cmd && net.valid (bsonDoc cmd)) = true
  · rw [if_pos hp] at he
    refine .inr ⟨he, ?_⟩
    refine ⟨(net.command c.conn.trace (bsonDoc cmd)).map fun rep => (rep, net.cursor (c.conn.trace ++ [bsonDoc cmd]) rep), { c with
      conn := (MongoQuery.execute net c.conn cmd).1
      cursor := (match (MongoQuery.execute net c.conn cmd).1.reply with | none => Cursor.mk [] false | some rep => net.cursor (MongoQuery.execute net c.conn cmd).1.trace rep)
      log := c.log ++ [(bsonDoc cmd, (MongoQuery.execute net c.conn cmd).1.reply.map fun rep => (rep, (match (MongoQuery.execute net c.conn cmd).1.reply with | none => Cursor.mk [] false | some rep => net.cursor (MongoQuery.execute net c.conn cmd).1.trace rep)))] }, ?_⟩
    show (match Mongo.execute net.ok net.valid cmd with
      | none => (({ c with conn := (MongoQuery.execute net c.conn cmd).1 } : MongoConn), (MongoQuery.execute net c.conn cmd).2)
      | some b => ({ c with
          conn := (MongoQuery.execute net c.conn cmd).1
          cursor := (match (MongoQuery.execute net c.conn cmd).1.reply with | none => Cursor.mk [] false | some rep => net.cursor (MongoQuery.execute net c.conn cmd).1.trace rep)
          log := c.log ++ [(b, (MongoQuery.execute net c.conn cmd).1.reply.map fun rep => (rep, (match (MongoQuery.execute net c.conn cmd).1.reply with | none => Cursor.mk [] false | some rep => net.cursor (MongoQuery.execute net c.conn cmd).1.trace rep)))] },
        (MongoQuery.execute net c.conn cmd).2)) = _ ∧ _
    rw [he]
    unfold MongoQuery.execute execute_bson
    rw [he]
    dsimp only
    refine ⟨Prod.ext rfl ?_, rfl, rfl, rfl, ?_, ?_, ?_⟩
    · cases net.command c.conn.trace (bsonDoc cmd) <;> rfl
    · cases net.command c.conn.trace (bsonDoc cmd) <;> rfl
    · cases net.command c.conn.trace (bsonDoc cmd) with
      | none => intro x hx; cases hx
      | some r => intro x hx; cases hx; rfl
    · cases net.command c.conn.trace (bsonDoc cmd) <;> rfl
  · rw [if_neg hp] at he
    refine .inl ⟨he, ?_⟩
    show (match Mongo.execute net.ok net.valid cmd with
      | none => (({ c with conn := (MongoQuery.execute net c.conn cmd).1 } : MongoConn), (MongoQuery.execute net c.conn cmd).2)
      | some b => _) = _
    rw [he]
    unfold MongoQuery.execute
    rw [he]

def mongoLaws : Laws mongo where
  grows net c cmd := by
    rcases mongo_exec_eq net c cmd with ⟨-, h⟩ | ⟨-, rep, c', h, -, -, -, -, -, h'⟩
    · rw [h]; exact ⟨[], (List.append_nil _).symm⟩
    · rw [h]; exact ⟨_, h'⟩
  uri_fresh _ _ := rfl
  uri_execute net c cmd := by
    rcases mongo_exec_eq net c cmd with ⟨-, h⟩ | ⟨-, rep, c', h, h', -⟩
    · rw [h]
    · rw [h]; exact h'
  uri_fetch _ _ := rfl
  uri_next _ _ := rfl
  uri_reset _ _ := rfl
  trace_fresh _ _ := rfl
  trace_fetch _ _ := rfl
  trace_next _ _ := rfl
  trace_reset _ _ := rfl
  R p c := p.uri = MongoConn.uri c ∧ p.clear = (MongoConn.conn c).clear
  R_fresh _ _ := ⟨rfl, rfl⟩
  R_execute net p c cmd h := by
    obtain ⟨h1, h2⟩ := h
    have hu : mongo.use net c cmd = match Mongo.execute net.ok net.valid cmd with | none => .nothing | some _ => .sends false := rfl
    rw [hu]
    rcases mongo_exec_eq net c cmd with ⟨he, h⟩ | ⟨he, rep, c', h, h', h'', -⟩
    · rw [he, h]; exact ⟨h1, h2⟩
    · rw [he, h]; exact ⟨h1.trans h'.symm, h''.symm⟩
  R_fetch net p c h := ⟨h.1, h.2.trans (mongo_fetchAll_clear ..).symm⟩
  R_next net p c h := ⟨h.1, h.2.trans (mongo_fetch_reply_clear ..).symm⟩
  R_reset ok p c h := ⟨h.1, rfl⟩
  R_view p c h := h

theorem mongo_fetchAll_some {net : MongoQuery.Net} : ∀ {ds : List Bdoc} {c : MongoQuery.Conn} {e : Bool} (acc res : List (List (Bytes × Mongo.Value))) (n : Nat),
    Pending net c ds e → (MongoQuery.fetchAll net n c acc).2 = some res → e = false ∧ ∃ vs, Unpacked ds vs ∧ res = acc ++ vs
  | _, c, e, acc, res, 0, h, hr => by cases hr
  | [], c, e, acc, res, n + 1, h, hr => by
    obtain ⟨c', h1, -, -⟩ := fetch_nil h
    unfold MongoQuery.fetchAll fetch_reply at hr
    rw [h1] at hr
    cases e with
    | true => cases hr
    | false => cases hr; exact ⟨rfl, [], .nil, by simp⟩
  | d :: ds, c, e, acc, res, n + 1, h, hr => by
    obtain ⟨c', h1, h2, -⟩ := fetch_cons h
    unfold MongoQuery.fetchAll fetch_reply at hr
    rw [h1] at hr
    dsimp only at hr
    cases hu : unpack d with
    | none => rw [hu] at hr; cases hr
    | some v =>
      rw [hu] at hr
      obtain ⟨h3, vs, h4, h5⟩ := mongo_fetchAll_some (acc ++ [v]) res n h2 hr
      exact ⟨h3, v :: vs, .cons hu h4, by rw [h5]; simp⟩

/-- What is fetched is the documents. -/
theorem mongo_fetch_result (net : MongoQuery.Net) (c : MongoConn) (rep : Bdoc) (h1 : c.conn.cursor = none) (h2 : c.conn.reply = some rep)
    (vs : List (List (Bytes × Mongo.Value))) (h : (mongo.fetch net c).2 = some vs) : ∃ ds, MongoDocs (rep, c.cursor) ds ∧ Unpacked ds vs := by
  replace h : (MongoQuery.fetchAll (c.net net) (c.conn.bound (c.net net) + 1) c.conn []).2 = some vs := h
  cases hc : hasCursor rep with
  | true =>
    obtain ⟨v, hv⟩ := (hasCursor_iff rep).1 hc
    obtain ⟨h3, vs', h4, h5⟩ := mongo_fetchAll_some [] vs _ (Pending.start (net := c.net net) h1 h2 hv) h
    subst h5
    exact ⟨_, .cursor hv h3, h4⟩
  | false =>
    have hn : ∀ v, (b! "cursor", v) ∉ rep := fun v hv => by rw [(hasCursor_iff rep).2 ⟨v, hv⟩] at hc; cases hc
    obtain ⟨h3, vs', h4, h5⟩ := mongo_fetchAll_some [] vs _ (Pending.reply (net := c.net net) h1 h2 hn) h
    subst h5
    exact ⟨_, .reply hn, h4⟩

end mongo

end Verif.DbAsk
