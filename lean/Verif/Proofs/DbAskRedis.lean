import Verif.Proofs.DbAskConn
import Verif.Proofs.Redis
/-!
# Redis connections as drivers
-/
namespace Verif.DbAsk
open Verif.Connection Verif.Redis

theorem auth_facts (net : Net) (c : Connection.Conn) (t : Target) : ∃ evs, (auth net c t).1.trace = c.trace ++ evs ∧ (auth net c t).1.uri = c.uri ∧ (auth net c t).1.clear = c.clear ∧
    (auth net c t).1.connected = c.connected ∧ (∀ e ∈ evs, RedisLogin t e) ∧ ((auth net c t).2 = true → (auth net c t).1.err = c.err ∧ ∀ e ∈ evs, ∃ a r, e = .command a r ∧ accepted r = true) := by
  unfold auth
  split
  · refine ⟨[_], rfl, rfl, rfl, rfl, ?_, ?_⟩
    · simp only [List.mem_singleton]; rintro e rfl; exact .auth _ _
    · intro h
      refine ⟨?_, ?_⟩
      · have h' : accepted (net.reply c.trace [b! "AUTH", cstr t.user, cstr c.password]) = true := h
        show (c.err || (net.reply c.trace [b! "AUTH", cstr t.user, cstr c.password]).isNone) = c.err
        cases hr : net.reply c.trace [b! "AUTH", cstr t.user, cstr c.password] with
        | none => rw [hr] at h'; cases h'
        | some x => simp
      · simp only [List.mem_singleton]; rintro e rfl; exact ⟨_, _, rfl, h⟩
  · exact ⟨[], by simp, rfl, rfl, rfl, by simp, by simp⟩

theorem select_facts (net : Net) (c : Connection.Conn) (t : Target) : ∃ evs, (select net c t).1.trace = c.trace ++ evs ∧ (select net c t).1.uri = c.uri ∧ (select net c t).1.clear = c.clear ∧
    (select net c t).1.connected = c.connected ∧ (∀ e ∈ evs, RedisLogin t e) ∧ ((select net c t).2 = true → (select net c t).1.err = c.err ∧ ∀ e ∈ evs, ∃ a r, e = .command a r ∧ accepted r = true) := by
  unfold select
  split
  · refine ⟨[_], rfl, rfl, rfl, rfl, ?_, ?_⟩
    · simp only [List.mem_singleton]; rintro e rfl; exact .select _
    · intro h
      refine ⟨?_, ?_⟩
      · have h' : accepted (net.reply c.trace [b! "SELECT", cstr t.database]) = true := h
        show (c.err || (net.reply c.trace [b! "SELECT", cstr t.database]).isNone) = c.err
        cases hr : net.reply c.trace [b! "SELECT", cstr t.database] with
        | none => rw [hr] at h'; cases h'
        | some x => simp
      · simp only [List.mem_singleton]; rintro e rfl; exact ⟨_, _, rfl, h⟩
  · exact ⟨[], by simp, rfl, rfl, rfl, by simp, by simp⟩

theorem accepted_iff {r : Option Reply} (h : accepted r = true) : ∃ x, r = some x ∧ ∀ e, x ≠ .error e := by
  cases r with
  | none => cases h
  | some x => refine ⟨x, rfl, ?_⟩; rintro e rfl; cases h

/-- What a login does, and does not. -/
theorem login_facts (net : Net) (c : Connection.Conn) : ∃ evs, (login net c).1.trace = c.trace ++ evs ∧ (login net c).1.uri = c.uri ∧ (login net c).1.clear = c.clear ∧
    (∀ e ∈ evs, ∃ t, service_target redisDefaults c.uri = some t ∧ RedisLogin t e) ∧
    ((login net c).2 ≠ none → (login net c).1.connected = c.connected ∧ ∀ r, (login net c).2 ≠ some (.sent r)) ∧
    ((login net c).2 = none → (login net c).1.connected = true ∧ (login net c).1.err = false ∧ ∀ e ∈ evs, Succeeds e) := by
  unfold login
  cases ht : service_target redisDefaults c.uri with
  | none => exact ⟨[], by simp, rfl, rfl, by simp, by simp, by simp⟩
  | some t =>
    dsimp only
    generalize net.connect c.trace (cstr t.host) t.port = l
    split
    · rename_i hl
      refine ⟨[_], rfl, rfl, rfl, ?_, by simp, by simp⟩
      simp only [List.mem_singleton]; rintro e rfl; exact ⟨t, rfl, .connect _⟩
    · rename_i hl
      have hl : l = .ok := by cases l <;> simp_all
      subst hl
      generalize hc1 : ({ uri := c.uri, password := c.password, connected := c.connected, clear := c.clear, err := decide (Link.ok ≠ Link.ok), reply := c.reply, trace := c.trace ++ [Ev.connect (cstr t.host) t.port Link.ok] } : Connection.Conn) = c1
      have f1 : c1.trace = c.trace ++ [Ev.connect (cstr t.host) t.port Link.ok] ∧ c1.uri = c.uri ∧ c1.clear = c.clear ∧ c1.connected = c.connected ∧ c1.err = false := by subst hc1; exact ⟨rfl, rfl, rfl, rfl, by simp⟩
      obtain ⟨f11, f12, f13, f14, f15⟩ := f1
      obtain ⟨ea, a1, a2, a3, a4, a5, a6⟩ := auth_facts net c1 t
      have hlog1 : ∀ e ∈ [Ev.connect (cstr t.host) t.port Link.ok] ++ ea, ∃ t', some t = some t' ∧ RedisLogin t' e := by
        intro e he
        rcases List.mem_append.1 he with he | he
        · simp only [List.mem_singleton] at he; subst he; exact ⟨t, rfl, .connect _⟩
        · exact ⟨t, rfl, a5 e he⟩
      generalize auth net c1 t = ra at a1 a2 a3 a4 a6
      obtain ⟨c2, ok⟩ := ra
      dsimp only at a1 a2 a3 a4 a6 ⊢
      cases ok with
      | false => exact ⟨[Ev.connect (cstr t.host) t.port Link.ok] ++ ea, by simp [a1, f11], a2.trans f12, a3.trans f13, hlog1, by simp [a4, f14], by simp⟩
      | true =>
        obtain ⟨es, b1, b2, b3, b4, b5, b6⟩ := select_facts net c2 t
        have hlog2 : ∀ e ∈ [Ev.connect (cstr t.host) t.port Link.ok] ++ ea ++ es, ∃ t', some t = some t' ∧ RedisLogin t' e := by
          intro e he
          rcases List.mem_append.1 he with he | he
          · exact hlog1 e he
          · exact ⟨t, rfl, b5 e he⟩
        generalize select net c2 t = rs at b1 b2 b3 b4 b6
        obtain ⟨c3, ok⟩ := rs
        dsimp only [Bool.not_true] at b1 b2 b3 b4 b6 ⊢
        cases ok with
        | false =>
          exact ⟨[Ev.connect (cstr t.host) t.port Link.ok] ++ ea ++ es, by simp [b1, a1, f11], b2.trans (a2.trans f12), b3.trans (a3.trans f13), hlog2, by simp [b4, a4, f14], by simp⟩
        | true =>
          refine ⟨[Ev.connect (cstr t.host) t.port Link.ok] ++ ea ++ es, by simp [b1, a1, f11], b2.trans (a2.trans f12), b3.trans (a3.trans f13), hlog2, by simp, ?_⟩
          intro _
          refine ⟨rfl, (b6 rfl).1.trans ((a6 rfl).1.trans f15), ?_⟩
          intro e he
          rcases List.mem_append.1 he with he | he
          · rcases List.mem_append.1 he with he | he
            · simp only [List.mem_singleton] at he; subst he; rfl
            · obtain ⟨a, r, rfl, hr⟩ := (a6 rfl).2 e he; exact accepted_iff hr
          · obtain ⟨a, r, rfl, hr⟩ := (b6 rfl).2 e he; exact accepted_iff hr

/-- What `execute()` does. -/
theorem redis_execute (net : Net) (c : Connection.Conn) (cmd : List Bytes) : ∃ logins tail, (Connection.execute net c cmd).1.trace = c.trace ++ (logins ++ tail) ∧
    (Connection.execute net c cmd).1.uri = c.uri ∧ (∀ e ∈ logins, ∃ t, service_target redisDefaults c.uri = some t ∧ RedisLogin t e) ∧
    (((∀ r, (Connection.execute net c cmd).2 ≠ .sent r) ∧ tail = [] ∧ (Connection.execute net c cmd).1.clear = c.clear ∧ (Connection.execute net c cmd).1.connected = c.connected ∧
        (c.connected = true → (Connection.execute net c cmd).1.err = c.err)) ∨
     (∃ r, (Connection.execute net c cmd).2 = .sent r ∧ tail = [.command cmd r] ∧ (Connection.execute net c cmd).1.clear = false ∧ (Connection.execute net c cmd).1.connected = true ∧
        (Connection.execute net c cmd).1.reply = r ∧ (Connection.execute net c cmd).1.err = ((c.connected && c.err) || r.isNone) ∧ ∀ e ∈ logins, Succeeds e)) := by
  unfold Connection.execute
  split
  · exact ⟨[], [], by simp, rfl, by simp, .inl ⟨by simp, rfl, rfl, rfl, fun _ => rfl⟩⟩
  · split
    · rename_i hcn
      exact ⟨[], [_], rfl, rfl, by simp, .inr ⟨_, rfl, rfl, rfl, hcn, rfl, by rw [hcn]; rfl, by simp⟩⟩
    · rename_i hcn
      obtain ⟨evs, l1, l2, l3, l4, l5, l6⟩ := login_facts net c
      generalize login net c = lr at l1 l2 l3 l5 l6
      obtain ⟨c1, o⟩ := lr
      dsimp only at l1 l2 l3 l5 l6
      cases o with
      | some e =>
        obtain ⟨l5, l5'⟩ := l5 (by simp)
        exact ⟨evs, [], by simp [l1], l2, l4, .inl ⟨fun r hr => l5' r (congrArg some hr), rfl, l3, l5, fun h => absurd h hcn⟩⟩
      | none =>
        obtain ⟨l6, l7, l8⟩ := l6 rfl
        refine ⟨evs, [_], ?_, l2, l4, .inr ⟨_, rfl, rfl, rfl, l6, rfl, ?_, l8⟩⟩
        · show c1.trace ++ _ = _
          rw [l1]; simp
          rfl
        · show (c1.err || _) = _
          rw [l7]
          have : c.connected = false := by simpa using hcn
          rw [this]
          rfl

theorem redis_exec_eq (net : Net) (c : Connection.Conn) (cmd : List Bytes) :
    (redis.execute net c cmd).1 = (Connection.execute net c cmd).1 ∧
    ((redis.execute net c cmd).2 = true ↔ ∃ r, (Connection.execute net c cmd).2 = .sent r ∧ accepted r = true) := by
  show (match Connection.execute net c cmd with | (c, .sent r) => (c, accepted r) | (c, _) => (c, false)).1 = _ ∧
    ((match Connection.execute net c cmd with | (c, .sent r) => (c, accepted r) | (c, _) => (c, false)).2 = true ↔ _)
  generalize Connection.execute net c cmd = x
  obtain ⟨c', e⟩ := x
  cases e <;> simp

theorem redis_fetch_eq (net : Net) (c : Connection.Conn) : (redis.fetch net c).1 = { c with reply := none } ∧
    (redis.fetch net c).2 = (fetchReply c.reply).map fun x => (x.2.1, x.2.2) := by
  show (match Connection.fetch c with | (c, some (_, status, value)) => (c, some (status, value)) | (c, none) => (c, none)).1 = _ ∧
    (match Connection.fetch c with | (c, some (_, status, value)) => (c, some (status, value)) | (c, none) => (c, none)).2 = _
  unfold Connection.fetch
  generalize fetchReply c.reply = x
  cases x with
  | none => exact ⟨rfl, rfl⟩
  | some y => obtain ⟨_, _, _⟩ := y; exact ⟨rfl, rfl⟩

def redisLaws : Laws redis where
  grows net c cmd := by
    rw [(redis_exec_eq net c cmd).1]
    obtain ⟨a, b, h, -⟩ := redis_execute net c cmd
    exact ⟨_, h⟩
  uri_fresh _ _ := rfl
  uri_execute net c cmd := by
    rw [(redis_exec_eq net c cmd).1]
    obtain ⟨a, b, -, h, -⟩ := redis_execute net c cmd
    exact h
  uri_fetch net c := by rw [(redis_fetch_eq net c).1]; rfl
  uri_next _ _ := rfl
  uri_reset _ _ := rfl
  trace_fresh _ _ := rfl
  trace_fetch net c := by rw [(redis_fetch_eq net c).1]; rfl
  trace_next _ _ := rfl
  trace_reset _ _ := rfl
  R p c := p.uri = Connection.Conn.uri c ∧ p.clear = Connection.Conn.clear c ∧ p.connected = Connection.Conn.connected c ∧
    (p.connected = true → p.err = Connection.Conn.err c) ∧ (p.connected = false → p.err = false)
  R_fresh _ _ := ⟨rfl, rfl, rfl, by simp, fun _ => rfl⟩
  R_execute net p c cmd h := by
    obtain ⟨h1, h2, h3, h4, h5⟩ := h
    rw [(redis_exec_eq net c cmd).1]
    show _ = (Connection.execute net c cmd).1.uri ∧ _ = (Connection.execute net c cmd).1.clear ∧ _ = (Connection.execute net c cmd).1.connected ∧
      (_ → _ = (Connection.execute net c cmd).1.err) ∧ _
    have hu : redis.use net c cmd = match (Connection.execute net c cmd).2 with | .sent r => .sends r.isNone | _ => .nothing := rfl
    obtain ⟨logins, tail, -, k1, -, ⟨k2, -, k4, k5, k6⟩ | ⟨r, k2, -, k4, k5, -, k6, -⟩⟩ := redis_execute net c cmd
    · have : redis.use net c cmd = .nothing := by
        rw [hu]
        split
        · rename_i r hr; exact absurd hr (k2 r)
        · rfl
      rw [this, k1, k4, k5]
      exact ⟨h1, h2, h3, fun hc => by rw [k6 (by rw [← h3]; exact hc)]; exact h4 hc, h5⟩
    · rw [hu, k2, k1, k4, k5, k6]
      refine ⟨h1, rfl, rfl, fun _ => ?_, fun hc => absurd hc (by simp [Use.on, redis, Pool.executeConn])⟩
      show (p.err || r.isNone) = _
      cases hc : p.connected with
      | true => rw [h4 hc, ← h3, hc]; rfl
      | false => rw [h5 hc, ← h3, hc]; rfl
  R_fetch net p c h := by rw [(redis_fetch_eq net c).1]; exact h
  R_next net p c h := h
  R_reset ok p c h := by
    obtain ⟨h1, h2, h3, h4, h5⟩ := h
    refine ⟨h1, ?_, h3, h4, h5⟩
    show (!(p.connected && p.err)) = !(Connection.Conn.connected c && Connection.Conn.err c)
    cases hc : p.connected with
    | true => rw [h4 hc, ← h3, hc]
    | false => rw [← h3, hc]; rfl
  R_view p c h := ⟨h.1, h.2.1⟩

/-- What is fetched is the reply. -/
theorem redis_fetch_result (net : Net) (c : Connection.Conn) (r : Reply) (hr : c.reply = some r) : (redis.fetch net c).2 = some (redisResult r) := by
  rw [(redis_fetch_eq net c).2, hr]
  by_cases hs : ∃ s, r = .status s
  · obtain ⟨s, rfl⟩ := hs; rfl
  · have hs : ∀ s, r ≠ .status s := fun s h => hs ⟨s, h⟩
    rw [Redis.fetch_value r hs]
    unfold redisResult
    split
    · rename_i s _; exact absurd rfl (hs s)
    · rfl

end Verif.DbAsk
