import Verif.Proofs.Pool
/-!
# C38: pools of connections

`place` says where a connection is after what can be seen in a trace: with an owner, in the pool, or closed.  `dirty` says whether a command has been sent without a successful `reset()`
after it.  Traces have the newest event first.
-/
namespace Verif.Props
open Verif.Pool

theorem pool_run_reachable {s s' : Sys} (h : Reachable s) : ∀ {as : List Act}, run s as = some s' → Reachable s'
  | [], hr => by simp only [run, Option.some.injEq] at hr; subst hr; exact h
  | a :: as, hr => by
    simp only [run] at hr
    split at hr
    · cases hr
    · rename_i s'' hs
      exact pool_run_reachable (.step h hs) hr

/-- A configuration with room for two connections. -/
def poolConf : Conf := { size := 2, idle := 60, uri := b! "root@db:6379/0", password := b! "pw" }

/-- Two owners get connections, use them, reset them and give them back. -/
def poolDemo : List Act :=
  [.reload poolConf, .read 1, .allocateDefault 1, .read 2, .allocate 2 (b! "other") [], .execute 1 0 7 false, .execute 2 1 8 false, .reset 1 0 true, .reset 2 1 true,
   .read 1, .giveBack 1 0, .tick 10, .read 2, .giveBack 2 1, .tick 55, .read 3, .allocate 3 (b! "other") (b! "x")]

/-- C38.  A connection is given to an owner only if it is new, or if it is in the pool: in particular, not while another has it. -/
theorem C38_owner {s : Sys} (hs : Reachable s) {post pre : List Ev} {h id : Nat} {uri pw : Bytes} {new : Bool} (ht : s.trace = post ++ .given h id uri pw new :: pre) :
    place pre id = if new then .nowhere else .pool := by
  have := Hist.at (ht ▸ (inv hs).hist)
  cases new
  · exact this.1
  · exact this

/-- C38.  A connection is accepted by the pool only from the one who has it. -/
theorem C38_return {s : Sys} (hs : Reachable s) {post pre : List Ev} {h id : Nat} (ht : s.trace = post ++ .pooled h id :: pre) : place pre id = .with h :=
  (Hist.at (ht ▸ (inv hs).hist) : Lawful pre (.pooled h id)).1

/-- C38.  A connection is closed only once, when it is in the pool, or by the one who has it. -/
theorem C38_closed {s : Sys} (hs : Reachable s) {post pre : List Ev} {id : Nat} (ht : s.trace = post ++ .closed id :: pre) :
    place pre id = .pool ∨ ∃ h, place pre id = .with h :=
  (Hist.at (ht ▸ (inv hs).hist) : Lawful pre (.closed id))

/-- C38.  Commands are sent and connections are reset only when they have an owner. -/
theorem C38_use {s : Sys} (hs : Reachable s) {post pre : List Ev} {id : Nat} {ok : Bool} (ht : s.trace = post ++ .executed id :: pre ∨ s.trace = post ++ .reset id ok :: pre) :
    ∃ h, place pre id = .with h := by
  rcases ht with ht | ht
  · exact Hist.at (ht ▸ (inv hs).hist)
  · exact Hist.at (ht ▸ (inv hs).hist)

/-- C38.  The pool has each connection once, and owners and the pool have no connection in common. -/
theorem C38_disjoint {s : Sys} (hs : Reachable s) :
    (s.pool.map (·.id)).Nodup ∧ (∀ id, id ∈ s.pool.map (·.id) ↔ place s.trace id = .pool) ∧ ∀ h id, (h, id) ∈ s.owned ↔ place s.trace id = .with h :=
  ⟨(inv hs).nodup, (inv hs).pool, (inv hs).own⟩

/-- C38.  A connection that is given again has been made for the same service. -/
theorem C38_service {s : Sys} (hs : Reachable s) {post pre : List Ev} {h id : Nat} {uri pw : Bytes} (ht : s.trace = post ++ .given h id uri pw false :: pre) :
    ∃ h' pw', Ev.given h' id uri pw' true ∈ pre :=
  (Hist.at (ht ▸ (inv hs).hist) : _ ∧ _ ∧ _).2.2

/-- C38.  If a command has been sent and there has been no successful `reset()` since then, the connection is not accepted, so it is not given to another. -/
theorem C38_reset {s : Sys} (hs : Reachable s) {post pre : List Ev} {h id : Nat} {uri pw : Bytes}
    (ht : s.trace = post ++ .given h id uri pw false :: pre ∨ s.trace = post ++ .pooled h id :: pre) : dirty pre id = false := by
  rcases ht with ht | ht
  · exact (Hist.at (ht ▸ (inv hs).hist) : _ ∧ _ ∧ _).2.1
  · exact (Hist.at (ht ▸ (inv hs).hist) : Lawful pre (.pooled h id)).2

/-- C38, for MySQL and MongoDB.  What is in the pool has no session on the server. -/
theorem C38_session_partial {s : Sys} (hs : Reachable s) (hk : s.kind ≠ .redis) {id : Nat} (hp : place s.trace id = .pool) : (s.conn id).session = 0 :=
  (inv hs).session hk id (Or.inr ((inv hs).poolClear id hp))

/-- C38.  The number of connections in the pool is within one of the sizes that have been configured. -/
theorem C38_bound_partial {s : Sys} (hs : Reachable s) : ∃ n ∈ sizes s.trace, s.pool.length ≤ n := (inv hs).bound

/-- C38.  So if the size has never been more than `n`, there are no more than `n` connections in the pool. -/
theorem C38_bound_constant {s : Sys} (hs : Reachable s) {n : Nat} (hn : ∀ m ∈ sizes s.trace, m ≤ n) : s.pool.length ≤ n := by
  obtain ⟨m, hm, hb⟩ := (inv hs).bound
  exact Nat.le_trans hb (hn m hm)

/-- C38.  A connection is accepted if and only if it has no state and the size is not zero.  Then the number of connections is within the size that has been read, all of them
have been used within the timeout, and the connection is the first one. -/
theorem C38_giveBack {s s' : Sys} (hs : Reachable s) {h id : Nat} {c : Conf} (hc : s.snap h = some c) (h' : step s (.giveBack h id) = some s') :
    (((s.conn id).clear = true ∧ c.size ≠ 0) ∧ s'.pool.length ≤ c.size ∧ (∀ e ∈ s'.pool, s'.now - e.time ≤ c.idle) ∧ s'.pool.head? = some { time := s.now, id := id } ∧
        place s'.trace id = .pool) ∨
      (((s.conn id).clear = false ∨ c.size = 0) ∧ s'.pool = s.pool ∧ place s'.trace id = .with h) := by
  simp only [step] at h'
  split at h'
  case isFalse => cases h'
  rename_i ho
  rw [hc] at h'
  simp only [Option.map_some, Option.some.injEq] at h'
  subst h'
  have hp := ((inv hs).own h id).mp ho
  unfold giveBack
  cases hcl : (s.conn id).clear
  · right
    simp only [Bool.not_false, if_true]
    exact ⟨by simp, by simp, by rw [place_cons]; exact hp⟩
  · by_cases hz : c.size = 0
    · right
      simp only [hz, Bool.not_true, Bool.false_eq_true, if_false, if_true]
      exact ⟨by simp, by simp, by rw [place_cons]; exact hp⟩
    · left
      simp only [hz, Bool.not_true, Bool.false_eq_true, if_false]
      refine ⟨by simp [hz], ?_, ?_, rfl, by rw [place_cons]; simp [Ev.place]⟩
      · have := trim_length hz (dropIdle s.now c.idle s.pool.reverse).1
        simpa using this
      · intro e he
        rcases List.mem_cons.mp he with rfl | he
        · simp
        · have hm : e ∈ (dropIdle s.now c.idle s.pool.reverse).1 := by
            rw [← trim_split c.size (dropIdle s.now c.idle s.pool.reverse).1]
            exact List.mem_append.mpr (Or.inr (by simpa using he))
          exact dropIdle_keep (List.pairwise_reverse.mpr (inv hs).sorted) e hm

/-- C38.  A connection to the service is taken from the pool if there is one, and made if there is none.  Then all in the pool have been used within the timeout. -/
theorem C38_allocate {s s' : Sys} (hs : Reachable s) {h : Nat} {uri pw : Bytes} {c : Conf} (hc : s.snap h = some c) (h' : step s (.allocate h uri pw) = some s') :
    (∃ id, s'.trace.head? = some (.given h id uri pw (decide (∀ e ∈ s.pool, (s.conn e.id).uri ≠ uri))) ∧ (s'.conn id).uri = uri) ∧ ∀ e ∈ s'.pool, s'.now - e.time ≤ c.idle := by
  simp only [step, hc, Option.map_some, Option.some.injEq] at h'
  subst h'
  have hsort : (findMatch s.conn uri s.pool).2.Sublist s.pool := by
    cases hf : (findMatch s.conn uri s.pool).1 with
    | some e =>
      obtain ⟨_, a, b, hab, hr⟩ := findMatch_some hf
      rw [hr, hab]
      exact List.Sublist.append_left (List.sublist_cons_self _ _) _
    | none => rw [(findMatch_none hf).1]; exact List.Sublist.refl _
  have hk := dropIdle_keep (now := s.now) (idle := c.idle) (List.pairwise_reverse.mpr ((inv hs).sorted.sublist hsort))
  unfold allocate
  cases hf : (findMatch s.conn uri s.pool).1 with
  | some e =>
    obtain ⟨hu, a, b, hab, hr⟩ := findMatch_some hf
    have hd : decide (∀ e ∈ s.pool, (s.conn e.id).uri ≠ uri) = false := by
      rw [decide_eq_false_iff_not]
      intro hall
      exact hall e (by rw [hab]; simp) hu
    simp only [hf, hd]
    exact ⟨⟨e.id, rfl, hu⟩, fun x hx => hk x (List.mem_reverse.mp hx)⟩
  | none =>
    obtain ⟨_, hall⟩ := findMatch_none hf
    have hd : decide (∀ e ∈ s.pool, (s.conn e.id).uri ≠ uri) = true := decide_eq_true hall
    simp only [hf, hd]
    exact ⟨⟨s.next, rfl, by simp⟩, fun x hx => hk x (List.mem_reverse.mp hx)⟩

/-- C38.  The default connection is one to the default service that was configured when the configuration was read, with its password if it is new; the secondary and the tertiary connection
of MySQL are ones to the secondary and the tertiary service.  So each of them is what `allocate_connection()` gives for that service. -/
theorem C38_services (s : Sys) {h : Nat} {c : Conf} (hc : s.snap h = some c) :
    step s (.allocateDefault h) = step s (.allocate h c.uri c.password) ∧
    (s.kind = .mysql → step s (.allocateSecondary h) = step s (.allocate h c.uri2 c.password2) ∧ step s (.allocateTertiary h) = step s (.allocate h c.uri3 c.password3)) ∧
    ∀ s' e, step s (.reload e) = some s' → ∀ s'', step s' (.read h) = some s'' → s''.snap h = some e := by
  refine ⟨by simp only [step, hc, Option.map_some], fun hk => ⟨by simp only [step, hc, hk, if_true, Option.map_some], by simp only [step, hc, hk, if_true, Option.map_some]⟩, fun s' e h1 s'' h2 => ?_⟩
  simp only [step, Option.some.injEq] at h1
  subst h1
  simp only [step, Option.some.injEq] at h2
  subst h2
  simp

/-- A replica is used for the secondary service, and another service is the tertiary one. -/
example : (run { kind := .mysql } [.reload { poolConf with uri2 := b! "replica", password2 := b! "p2", uri3 := b! "third", password3 := b! "p3" }, .read 1, .allocateSecondary 1, .read 2,
      .allocateTertiary 2, .read 3, .allocateDefault 3, .read 1, .giveBack 1 0, .read 4, .allocateSecondary 4]).map (·.trace) =
    some [.given 4 0 (b! "replica") (b! "p2") false, .pooled 1 0, .given 3 2 poolConf.uri poolConf.password true, .given 2 1 (b! "third") (b! "p3") true,
      .given 1 0 (b! "replica") (b! "p2") true, .reload 2] := by decide +kernel

/-- In the demonstration, the second connection is given again to a third owner, and the first one is closed because of the timeout. -/
example : (run { kind := .mysql } poolDemo).map (·.trace) =
    some [.given 3 1 (b! "other") (b! "x") false, .closed 0, .pooled 2 1, .pooled 1 0, .reset 1 true, .reset 0 true, .executed 1, .executed 0, .given 2 1 (b! "other") [] true,
      .given 1 0 poolConf.uri poolConf.password true, .reload 2] := by decide +kernel

/-- C38.  Violated: if the size is made smaller, there are more connections than configured until the next one is given back. -/
theorem C38_shrink : ∃ s, Reachable s ∧ s.conf.size < s.pool.length :=
  ⟨_, pool_run_reachable (.init .mongo)
    (as := [.reload poolConf, .read 1, .allocateDefault 1, .read 2, .allocateDefault 2, .read 1, .giveBack 1 0, .read 2, .giveBack 2 1, .reload { poolConf with size := 1 }]) rfl, by decide⟩

/-- C38.  Violated: a connection that has been idle for longer than the timeout is given out, since those that have been idle for too long are looked for after that. -/
theorem C38_expired : ∃ s s' h id uri pw c, Reachable s ∧ s.snap h = some c ∧ step s (.allocate h uri pw) = some s' ∧ s'.trace.head? = some (.given h id uri pw false) ∧
    ∃ e ∈ s.pool, e.id = id ∧ c.idle < s.now - e.time :=
  ⟨_, _, 1, 0, poolConf.uri, poolConf.password, _, pool_run_reachable (.init .redis)
    (as := [.reload poolConf, .read 1, .allocateDefault 1, .read 1, .giveBack 1 0, .tick 1000, .read 1]) rfl, rfl, rfl, by decide +kernel, by decide +kernel⟩

/-- C38.  Violated: a connection that has been authenticated with a password is given to one who has specified another, since passwords are not compared. -/
theorem C38_password : ∃ s h h' id uri pw pw', Reachable s ∧ s.trace.head? = some (.given h id uri pw false) ∧ Ev.given h' id uri pw' true ∈ s.trace ∧ pw ≠ pw' ∧
    (s.conn id).password = pw' :=
  ⟨_, 2, 1, 0, poolConf.uri, b! "wrong", poolConf.password, pool_run_reachable (.init .redis)
    (as := [.reload poolConf, .read 1, .allocateDefault 1, .read 1, .giveBack 1 0, .read 2, .allocate 2 poolConf.uri (b! "wrong")]) rfl,
    by decide +kernel, by decide +kernel, by decide +kernel, by decide +kernel⟩

/-- C38.  Violated for Redis: `reset()` does not change anything on the server, so the next owner has the session of the previous one. -/
theorem C38_redis_session : ∃ s h id uri pw, Reachable s ∧ s.kind = .redis ∧ s.trace.head? = some (.given h id uri pw false) ∧ (s.conn id).session ≠ 0 :=
  ⟨_, 2, 0, poolConf.uri, poolConf.password, pool_run_reachable (.init .redis)
    (as := [.reload poolConf, .read 1, .allocateDefault 1, .execute 1 0 7 false, .reset 1 0 true, .read 1, .giveBack 1 0, .read 2, .allocateDefault 2]) rfl,
    rfl, by decide +kernel, by decide +kernel⟩

end Verif.Props
