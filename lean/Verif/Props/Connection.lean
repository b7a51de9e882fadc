import Verif.Proofs.RedisConversation
/-!
# C86, C87: service URIs and conversations with Redis servers
-/
namespace Verif.Props
open Verif Verif.Spec Verif.Connection Verif.Redis

/-! ## C86 -/

/-- C86: a service URI is accepted exactly if it has the form `user@host:port/database`, in which some parts may be missing, and
then it means what its parts say, and what the defaults say about the parts that are missing. -/
theorem C86_service (d t : Target) (uri : Bytes) :
    service_target d uri = some t ↔ ∃ s : ServiceText, s.Valid ∧ s.text = uri ∧ t = s.target d := service_target_eq d uri t

/-- A user, a host, a port and a database. -/
def exampleService : ServiceText := ⟨some (b! "me"), some ⟨false, b! "db.example", some (b! "80", 80), some (b! "/test"), none, none⟩⟩

theorem exampleService_valid : exampleService.Valid where
  user_chars := by intro u h; cases h; decide
  ref_valid := by
    intro p h
    cases h
    refine ⟨by simp, by decide, ?_, ?_, by simp, by simp⟩
    · intro t n h
      cases h
      exact ⟨by simp, .snoc (ds := [0x38]) 0 (.snoc (ds := []) 8 .nil (by omega)) (by omega), by omega⟩
    · intro t h
      cases h
      exact ⟨⟨b! "test", rfl⟩, by decide⟩
  no_at := by intro h; cases h

example : exampleService.text = b! "me@db.example:80/test" := by decide +kernel
example : service_target mysqlDefaults (b! "me@db.example:80/test") = some ⟨b! "me", b! "db.example", 80, b! "test"⟩ :=
  (C86_service _ _ _).mpr ⟨exampleService, exampleService_valid, by decide +kernel, by decide +kernel⟩
example : service_target redisDefaults (b! "localhost") = some ⟨b! "default", b! "localhost", 6379, b! "0"⟩ := by decide +kernel
example : service_target redisDefaults (b! "[::1]:7000/") = some ⟨b! "default", b! "::1", 7000, []⟩ := by decide +kernel
example : service_target redisDefaults (b! "me@localhost:70000") = none := by decide +kernel

/-- An `@` after a slash is not the end of a user. -/
example : service_target mysqlDefaults (b! "localhost/a@b") = some ⟨b! "root", b! "localhost", 3306, b! "a@b"⟩ := by decide +kernel

/-! ## C87 -/

/-- C87: whatever the server does, and whatever the owner of the connection does, the server of the service URI sees first some
attempts to log in that fail, one for each call that says so; then one login with the user, the password and the database, each
of which the server accepts; and then exactly the commands that have been executed, in their order, each with the reply that the
call has seen. -/
theorem C87_conversation (net : Net) (uri password : Bytes) (t : Target) (ht : service_target redisDefaults uri = some t)
    (hu : (0 : Byte) ∉ t.user) (hp : (0 : Byte) ∉ password) (acts : List Act) :
    let r := run net { uri := uri, password := password } acts
    ∃ failed : List (List Ev), (∀ f ∈ failed, FailedLogin t password f) ∧ failed.length = (r.2.filter (fun x => x.2.isLogin)).length ∧
      ((r.1.trace = failed.flatten ∧ sentCommands r.2 = []) ∨
       ∃ good, GoodLogin t password good ∧ r.1.trace = failed.flatten ++ good ++ sentCommands r.2) := by
  have h := run_inv (net := net) ht hu hp acts (init_inv uri t password)
  obtain ⟨_, failed, h1, h2, h3⟩ := h
  rw [List.nil_append] at h2 h3
  refine ⟨failed, h1, h2, ?_⟩
  rcases h3 with ⟨_, _, h3, h4⟩ | ⟨_, good, h3, h4, _⟩
  · exact Or.inl ⟨h3, h4⟩
  · exact Or.inr ⟨good, h3, h4⟩

/-- C87: if the service URI is malformed, then nothing is sent, and each call says so (or that the command is empty). -/
theorem C87_malformed (net : Net) (uri password : Bytes) (ht : service_target redisDefaults uri = none) (acts : List Act) :
    let r := run net { uri := uri, password := password } acts
    r.1.trace = [] ∧ ∀ x ∈ r.2, x.2 = .uri ∨ x = ([], .empty) := run_malformed ht acts rfl rfl rfl

/-- C87: what is fetched is the reply to the last command that has been sent, … -/
theorem C87_fetch (net : Net) (uri password : Bytes) (acts : List Act) :
    let c := (run net { uri := uri, password := password } acts).1
    (fetch c).2 = fetchReply none ∨ ∃ r, lastReply c.trace = some r ∧ (fetch c).2 = fetchReply (some r) := by
  intro c
  have h : Fresh c := run_fresh acts (fun r hr => by cases hr)
  cases hr : c.reply with
  | none => left; unfold fetch; rw [hr]
  | some r => right; exact ⟨r, h r hr, by unfold fetch; rw [hr]⟩

/-- … it is there after a command has been executed, and it is fetched once, and not after a reset. -/
theorem C87_fetch_once (net : Net) (uri password : Bytes) (acts : List Act) (cmd : List Bytes) (r : Reply) :
    let c := (run net { uri := uri, password := password } acts).1
    ((execute net c cmd).2 = .sent (some r) → (fetch (execute net c cmd).1).2 = fetchReply (some r)) ∧
    (fetch (fetch c).1).2 = fetchReply none ∧ (fetch (reset c).1).2 = fetchReply none := by
  intro c
  refine ⟨?_, rfl, rfl⟩
  intro h
  have key : ∀ c' : Conn, (send net c' cmd).2 = .sent (some r) → (fetch (send net c' cmd).1).2 = fetchReply (some r) := by
    intro c' h
    unfold fetch
    unfold send at h ⊢
    simp only [Res.sent.injEq] at h
    rw [h]
  unfold execute at h ⊢
  by_cases h1 : cmd.isEmpty = true
  · rw [if_pos h1] at h; cases h
  rw [if_neg h1] at h ⊢
  by_cases h2 : c.connected = true
  · rw [if_pos h2] at h ⊢; exact key _ h
  rw [if_neg h2] at h ⊢
  have hlog : ∀ e, (login net c).2 = some e → e ≠ .sent (some r) := by
    intro e he
    unfold login at he
    split at he
    · cases he; simp
    · dsimp only at he
      split at he
      · cases he; simp
      · split at he
        · cases he; simp
        · split at he
          · cases he; simp
          · cases he
  generalize hl : login net c = l at h hlog
  obtain ⟨c', e⟩ := l
  cases e with
  | some e => exact absurd h (hlog e rfl)
  | none => exact key _ h

/-- C87: `reset()` says that the connection cannot be used any more exactly if it has logged in, and then a command has got no reply. -/
theorem C87_reset (net : Net) (uri password : Bytes) (t : Target) (ht : service_target redisDefaults uri = some t)
    (hu : (0 : Byte) ∉ t.user) (hp : (0 : Byte) ∉ password) (acts : List Act) :
    let r := run net { uri := uri, password := password } acts
    (reset r.1).2 = false ↔ ∃ cmd, (cmd, Res.sent none) ∈ r.2 := by
  have h := run_inv (net := net) ht hu hp acts (init_inv uri t password)
  obtain ⟨_, failed, h1, h2, h3⟩ := h
  rw [List.nil_append] at h2 h3
  intro r
  show (!(r.1.connected && r.1.err)) = false ↔ Lost r.2
  rcases h3 with ⟨h3, _, _, h4⟩ | ⟨h3, good, _, _, h4⟩
  · have : ¬ Lost r.2 := by
      rintro ⟨x, hx⟩
      have : Ev.command x none ∈ sentCommands r.2 := List.mem_filterMap.mpr ⟨_, hx, rfl⟩
      rw [h4] at this; simp at this
    rw [show r.1.connected = false from h3]
    simp [this]
  · rw [show r.1.connected = true from h3, ← h4]
    simp [r]

/-- C87: the pool takes a connection back only if no command has been sent since the last successful `reset()`: it is marked when a command is sent, whatever the reply; the mark is removed by a
`reset()` that succeeds, and by nothing else. -/
theorem C87_clear (net : Net) (uri password : Bytes) (acts : List Act) (cmd : List Bytes) :
    let c := (run net { uri := uri, password := password } acts).1
    ((∃ r, (execute net c cmd).2 = .sent r) → (execute net c cmd).1.clear = false) ∧
    ((¬ ∃ r, (execute net c cmd).2 = .sent r) → (execute net c cmd).1.clear = c.clear) ∧
    (fetch c).1.clear = c.clear ∧ (reset c).1.clear = (reset c).2 := by
  intro c
  have ha : ∀ c t, (auth net c t).1.clear = c.clear := by intro c t; unfold auth; split <;> rfl
  have hs : ∀ c t, (select net c t).1.clear = c.clear := by intro c t; unfold select; split <;> rfl
  have hlog : (login net c).1.clear = c.clear ∧ ∀ e, (login net c).2 = some e → ∀ r, e ≠ .sent r := by
    unfold login
    split
    · exact ⟨rfl, fun e he => by cases he; simp⟩
    · dsimp only
      split
      · exact ⟨rfl, fun e he => by cases he; simp⟩
      · split
        · exact ⟨ha _ _, fun e he => by cases he; simp⟩
        · split
          · exact ⟨(hs _ _).trans (ha _ _), fun e he => by cases he; simp⟩
          · exact ⟨(hs _ _).trans (ha _ _), fun e he => by cases he⟩
  refine ⟨?_, ?_, rfl, rfl⟩
  · rintro ⟨r, h⟩
    unfold execute at h ⊢
    split
    · rw [if_pos (by assumption)] at h; cases h
    · rw [if_neg (by assumption)] at h
      split
      · rfl
      · rw [if_neg (by assumption)] at h
        obtain ⟨_, h2⟩ := hlog
        generalize login net c = l at h h2
        obtain ⟨c', e⟩ := l
        cases e with
        | some e => exact absurd h (h2 e rfl r)
        | none => rfl
  · intro h
    unfold execute at h ⊢
    split
    · rfl
    · rw [if_neg (by assumption)] at h
      split
      · rw [if_pos (by assumption)] at h; exact absurd ⟨_, rfl⟩ h
      · rw [if_neg (by assumption)] at h
        obtain ⟨h1, _⟩ := hlog
        generalize login net c = l at h h1
        obtain ⟨c', e⟩ := l
        cases e with
        | some e => exact h1
        | none => exact absurd ⟨_, rfl⟩ h

/-- A server that refuses the first connection, and accepts everything after that. -/
def exampleNet : Net where
  connect := fun tr _ _ => if tr.isEmpty then .err else .ok
  reply := fun tr _ => if tr.length < 6 then some (.status (b! "OK")) else none

/-- What the owner does. -/
def exampleActs : List Act := [.execute [b! "PING"], .execute [b! "GET", b! "a"], .fetch, .execute [b! "GET", b! "b"], .execute [b! "GET", b! "c"]]

/-- The hypotheses are met: an attempt to log in fails, one succeeds, two commands are executed, and there is no reply to a third one. -/
example : let r := run exampleNet { uri := b! "me@db.example:80/test", password := b! "secret" } exampleActs
    r.1.trace = [.connect (b! "db.example") 80 .err, .connect (b! "db.example") 80 .ok, .command [b! "AUTH", b! "me", b! "secret"] (some (.status (b! "OK"))),
      .command [b! "SELECT", b! "test"] (some (.status (b! "OK"))), .command [b! "GET", b! "a"] (some (.status (b! "OK"))),
      .command [b! "GET", b! "b"] (some (.status (b! "OK"))), .command [b! "GET", b! "c"] none] ∧
    (reset r.1).2 = false := by
  have ht : service_target redisDefaults (b! "me@db.example:80/test") = some ⟨b! "me", b! "db.example", 80, b! "test"⟩ := by decide +kernel
  simp only [exampleActs, run, execute, login, ht]
  constructor <;> rfl

example : let c := (run exampleNet { uri := b! "me@db.example:80/test", password := b! "secret" } (exampleActs.take 2)).1
    c.clear = false ∧ (reset c).1.clear = true := by
  have ht : service_target redisDefaults (b! "me@db.example:80/test") = some ⟨b! "me", b! "db.example", 80, b! "test"⟩ := by decide +kernel
  simp only [exampleActs, List.take, run, execute, login, ht]
  constructor <;> rfl

/-- A password with a null character is cut. -/
theorem C87_null : let r := run { exampleNet with connect := fun _ _ _ => .ok } { uri := b! "localhost/", password := b! "a" ++ [0] ++ b! "b" } [.execute [b! "PING"]]
    r.1.trace = [.connect (b! "localhost") 6379 .ok, .command [b! "AUTH", b! "default", b! "a"] (some (.status (b! "OK"))),
      .command [b! "PING"] (some (.status (b! "OK")))] := by
  have ht : service_target redisDefaults (b! "localhost/") = some ⟨b! "default", b! "localhost", 6379, []⟩ := by decide +kernel
  simp only [run, execute, login, ht]
  rfl

end Verif.Props
