import Verif.Proofs.ServiceUri
/-! # Conversations with Redis servers -/
namespace Verif.Connection
open Verif.Uri Verif.Spec Verif.Redis

theorem cstr_id {s : Bytes} (h : (0 : Byte) ∉ s) : cstr s = s := by
  unfold cstr
  induction s with
  | nil => rfl
  | cons c s ih =>
    have h0 : c ≠ 0 := fun e => h (e ▸ List.mem_cons_self)
    rw [List.takeWhile_cons, if_pos (by simpa using h0), ih (fun hc => h (List.mem_cons_of_mem _ hc))]

theorem no_null : (0 : Byte) ∉ host6Chars ∧ (0 : Byte) ∉ hostChars ∧ (0 : Byte) ∉ pathChars := by decide +kernel

theorem target_texts {d t : Target} {uri : Bytes} (h : service_target d uri = some t) (hd : (0 : Byte) ∉ d.host ∧ (0 : Byte) ∉ d.database) :
    (0 : Byte) ∉ t.host ∧ (0 : Byte) ∉ t.database := by
  obtain ⟨s, hv, _, rfl⟩ := (service_target_eq d uri t).mp h
  obtain ⟨user, ref⟩ := s
  cases ref with
  | none => exact hd
  | some p =>
    have h1 := hv.ref_valid p rfl
    constructor
    · intro hc
      have := h1.host_chars 0 hc
      cases hb : p.bracketed
      · rw [hb] at this; exact no_null.2.1 this
      · rw [hb] at this; exact no_null.1 this
    · show (0 : Byte) ∉ ((p.path.map List.tail).getD d.database)
      cases hp : p.path with
      | none => exact hd.2
      | some x =>
        intro hc
        exact no_null.2.2 ((h1.path_chars x hp).2 0 (List.mem_of_mem_tail hc))

/-- An attempt to log in that has failed. -/
def Res.isLogin : Res → Bool
  | .connect => true
  | .auth => true
  | .select => true
  | _ => false

/-- An exchange without a reply. -/
def Lost (rs : List (List Bytes × Res)) : Prop := ∃ cmd, (cmd, Res.sent none) ∈ rs

structure Inv (uri : Bytes) (t : Target) (password : Bytes) (c : Conn) (rs : List (List Bytes × Res)) : Prop where
  uri : c.uri = uri
  log : ∃ failed : List (List Ev), (∀ f ∈ failed, FailedLogin t password f) ∧ failed.length = (rs.filter (fun r => r.2.isLogin)).length ∧
    ((c.connected = false ∧ c.password = password ∧ c.trace = failed.flatten ∧ sentCommands rs = []) ∨
     (c.connected = true ∧ ∃ good, GoodLogin t password good ∧ c.trace = failed.flatten ++ good ++ sentCommands rs ∧ (c.err = true ↔ Lost rs)))

theorem sentCommands_append (a b : List (List Bytes × Res)) : sentCommands (a ++ b) = sentCommands a ++ sentCommands b := by
  unfold sentCommands; rw [List.filterMap_append]

/-- What `AUTH` and `SELECT` do. -/
theorem auth_spec (net : Net) (c : Conn) (t : Target) (hu : (0 : Byte) ∉ t.user) (hp : (0 : Byte) ∉ c.password) :
    ∃ evs, (auth net c t).1 = { c with reply := (auth net c t).1.reply, err := (auth net c t).1.err, trace := c.trace ++ evs } ∧
      let g : List (List Bytes) := if c.password = [] then [] else [[b! "AUTH", t.user, c.password]]
      (((auth net c t).2 = true ∧ AllAccepted g evs ∧ ((auth net c t).1.err = c.err)) ∨
       ((auth net c t).2 = false ∧ ∃ args r, g = [args] ∧ evs = [.command args r] ∧ accepted r = false)) := by
  unfold auth
  by_cases h : c.password = []
  · refine ⟨[], ?_, ?_⟩
    · rw [if_neg (by simp [h])]; simp
    · left; simp [h, AllAccepted.nil]
  · have hl : c.password.length ≠ 0 := by simpa using h
    rw [if_pos hl, cstr_id hu, cstr_id hp]
    refine ⟨[.command [b! "AUTH", t.user, c.password] (net.reply c.trace [b! "AUTH", t.user, c.password])], rfl, ?_⟩
    simp only [if_neg h]
    cases hr : accepted (net.reply c.trace [b! "AUTH", t.user, c.password]) with
    | true =>
      left
      refine ⟨hr, .cons hr .nil, ?_⟩
      show (c.err || Option.isNone _) = c.err
      cases hn : net.reply c.trace [b! "AUTH", t.user, c.password] with
      | none => rw [hn] at hr; simp [accepted] at hr
      | some x => simp
    | false => right; exact ⟨hr, _, _, rfl, rfl, hr⟩

theorem select_spec (net : Net) (c : Conn) (t : Target) (hd : (0 : Byte) ∉ t.database) :
    ∃ evs, (select net c t).1 = { c with reply := (select net c t).1.reply, err := (select net c t).1.err, trace := c.trace ++ evs } ∧
      let g : List (List Bytes) := if t.database = [] then [] else [[b! "SELECT", t.database]]
      (((select net c t).2 = true ∧ AllAccepted g evs ∧ ((select net c t).1.err = c.err)) ∨
       ((select net c t).2 = false ∧ ∃ args r, g = [args] ∧ evs = [.command args r] ∧ accepted r = false)) := by
  unfold select
  by_cases h : t.database = []
  · refine ⟨[], ?_, ?_⟩
    · simp [h]
    · left; simp [h, AllAccepted.nil]
  · have hl : t.database.length ≠ 0 := by simpa using h
    rw [if_pos hl, cstr_id hd]
    refine ⟨[.command [b! "SELECT", t.database] (net.reply c.trace [b! "SELECT", t.database])], rfl, ?_⟩
    simp only [if_neg h]
    cases hr : accepted (net.reply c.trace [b! "SELECT", t.database]) with
    | true =>
      left
      refine ⟨hr, .cons hr .nil, ?_⟩
      show (c.err || Option.isNone _) = c.err
      cases hn : net.reply c.trace [b! "SELECT", t.database] with
      | none => rw [hn] at hr; simp [accepted] at hr
      | some x => simp
    | false => right; exact ⟨hr, _, _, rfl, rfl, hr⟩

theorem allAccepted_append {a b : List (List Bytes)} {x y : List Ev} (h : AllAccepted a x) (h' : AllAccepted b y) : AllAccepted (a ++ b) (x ++ y) := by
  induction h with
  | nil => exact h'
  | cons hr _ ih => exact .cons hr ih

/-- A login fails or succeeds. -/
theorem login_spec (net : Net) (c : Conn) (t : Target) (ht : service_target redisDefaults c.uri = some t) (hu : (0 : Byte) ∉ t.user)
    (hp : (0 : Byte) ∉ c.password) :
    ((∃ e evs, (login net c).2 = some e ∧ e.isLogin = true ∧ FailedLogin t c.password evs ∧ (login net c).1.trace = c.trace ++ evs ∧
        (login net c).1.password = c.password ∧ (login net c).1.connected = c.connected) ∨
     (∃ evs, (login net c).2 = none ∧ GoodLogin t c.password evs ∧ (login net c).1.trace = c.trace ++ evs ∧
        (login net c).1.connected = true ∧ (login net c).1.err = false)) ∧ (login net c).1.uri = c.uri := by
  obtain ⟨hh, hd⟩ := target_texts ht (by decide +kernel)
  unfold login
  rw [ht]
  dsimp only
  rw [cstr_id hh]
  by_cases hl : net.connect c.trace t.host t.port ≠ .ok
  · rw [if_pos hl]
    exact ⟨Or.inl ⟨.connect, _, rfl, rfl, .connect hl, rfl, rfl, rfl⟩, rfl⟩
  · rw [if_neg hl]
    have hl' : net.connect c.trace t.host t.port = .ok := by simpa using hl
    rw [hl']
    generalize hc1 : ({ c with err := decide (Link.ok ≠ Link.ok), trace := c.trace ++ [Ev.connect t.host t.port .ok] } : Conn) = c1
    have e1 : c1.password = c.password := by rw [← hc1]
    have e2 : c1.trace = c.trace ++ [Ev.connect t.host t.port .ok] := by rw [← hc1]
    have e3 : c1.uri = c.uri := by rw [← hc1]
    have e4 : c1.connected = c.connected := by rw [← hc1]
    have e5 : c1.err = false := by rw [← hc1]; rfl
    clear hc1
    obtain ⟨evs, ha, hcase⟩ := auth_spec net c1 t hu (by rw [e1]; exact hp)
    rw [e1] at hcase
    generalize auth net c1 t = r at ha hcase
    obtain ⟨c2, ok⟩ := r
    dsimp only at ha hcase ⊢
    have f1 : c2.password = c.password := by rw [ha, ← e1]
    have f2 : c2.trace = c.trace ++ (Ev.connect t.host t.port .ok :: evs) := by rw [ha]; simp [e2]
    have f3 : c2.uri = c.uri := by rw [ha, ← e3]
    have f4 : c2.connected = c.connected := by rw [ha, ← e4]
    rcases hcase with ⟨rfl, hacc, herr⟩ | ⟨rfl, args, r, hg, hev, hr⟩
    rotate_left
    · refine ⟨Or.inl ⟨.auth, _, rfl, rfl, ?_, f2, f1, f4⟩, f3⟩
      have hgr : greeting t c.password = [] ++ args :: (if t.database = [] then [] else [[b! "SELECT", t.database]]) := by
        unfold greeting; rw [hg]; rfl
      rw [hev]
      exact .refused hgr .nil hr
    · simp only [Bool.not_true]
      rw [if_neg (by simp)]
      obtain ⟨evs', hs, hcase'⟩ := select_spec net c2 t hd
      generalize select net c2 t = r' at hs hcase'
      obtain ⟨c3, ok'⟩ := r'
      dsimp only at hs hcase' ⊢
      have g1 : c3.password = c.password := by rw [hs, ← f1]
      have g2 : c3.trace = c.trace ++ (Ev.connect t.host t.port .ok :: (evs ++ evs')) := by rw [hs]; simp [f2]
      have g3 : c3.uri = c.uri := by rw [hs, ← f3]
      have g4 : c3.connected = c.connected := by rw [hs, ← f4]
      rcases hcase' with ⟨rfl, hacc', herr'⟩ | ⟨rfl, args, r, hg, hev, hr⟩
      rotate_left
      · refine ⟨Or.inl ⟨.select, _, rfl, rfl, ?_, g2, g1, g4⟩, g3⟩
        rw [hev]
        refine .refused (after := []) ?_ hacc hr
        unfold greeting; rw [hg]
      · simp only [Bool.not_true]
        rw [if_neg (by simp)]
        exact ⟨Or.inr ⟨_, rfl, .mk (allAccepted_append hacc hacc'), g2, rfl, by show c3.err = false; rw [herr', herr, e5]⟩, g3⟩

theorem send_spec (net : Net) (c : Conn) (cmd : List Bytes) :
    ∃ r, (send net c cmd).2 = .sent r ∧ (send net c cmd).1.trace = c.trace ++ [.command cmd r] ∧ (send net c cmd).1.connected = c.connected ∧
      (send net c cmd).1.uri = c.uri ∧ (send net c cmd).1.err = (c.err || r.isNone) := ⟨_, rfl, rfl, rfl, rfl, rfl⟩

theorem lost_append (a b : List (List Bytes × Res)) : Lost (a ++ b) ↔ Lost a ∨ Lost b := by
  unfold Lost
  constructor
  · rintro ⟨x, h⟩
    rcases List.mem_append.mp h with h | h
    · exact Or.inl ⟨x, h⟩
    · exact Or.inr ⟨x, h⟩
  · rintro (⟨x, h⟩ | ⟨x, h⟩)
    · exact ⟨x, by simp [h]⟩
    · exact ⟨x, by simp [h]⟩

theorem lost_sent (cmd : List Bytes) (r : Option Reply) : Lost [(cmd, .sent r)] ↔ r.isNone = true := by
  unfold Lost
  cases r with
  | none => simp
  | some x => simp

theorem execute_inv {net : Net} {uri : Bytes} {t : Target} {password : Bytes} (ht : service_target redisDefaults uri = some t)
    (hu : (0 : Byte) ∉ t.user) (hp : (0 : Byte) ∉ password) {c : Conn} {rs : List (List Bytes × Res)} (h : Inv uri t password c rs) (cmd : List Bytes) :
    Inv uri t password (execute net c cmd).1 (rs ++ [(cmd, (execute net c cmd).2)]) := by
  obtain ⟨hur, failed, hf, hlen, hcase⟩ := h
  unfold execute
  cases hcmd : cmd.isEmpty with
  | true =>
    rw [if_pos rfl]
    refine ⟨hur, failed, hf, ?_, ?_⟩
    · simp [hlen, Res.isLogin]
    · rw [sentCommands_append]
      rcases hcase with ⟨h1, h2, h3, h4⟩ | ⟨h1, good, h2, h3, h4⟩
      · left; exact ⟨h1, h2, h3, by rw [h4]; rfl⟩
      · right; refine ⟨h1, good, h2, by rw [h3]; simp [sentCommands], ?_⟩
        rw [h4, lost_append]; simp [Lost]
  | false =>
    rw [if_neg (by simp)]
    rcases hcase with ⟨h1, h2, h3, h4⟩ | ⟨h1, good, h2, h3, h4⟩
    · rw [if_neg (by simp [h1])]
      obtain ⟨hl, hlu⟩ := login_spec net c t (by rw [hur]; exact ht) hu (by rw [h2]; exact hp)
      rw [h2] at hl
      rcases hl with ⟨e, evs, he, hlog, hfl, htr, hpw, hcn⟩ | ⟨evs, he, hgl, htr, hcn, herr⟩
      · have hm : login net c = ((login net c).1, some e) := by rw [← he]
        rw [hm]
        dsimp only
        refine ⟨by rw [hlu, hur], failed ++ [evs], ?_, ?_, Or.inl ⟨by rw [hcn, h1], hpw, by rw [htr, h3]; simp, ?_⟩⟩
        · intro f hfm
          rcases List.mem_append.mp hfm with hfm | hfm
          · exact hf f hfm
          · rw [List.mem_singleton.mp hfm]; exact hfl
        · simp [hlen, hlog]
        · rw [sentCommands_append, h4]
          cases e <;> first | rfl | cases hlog
      · have hm : login net c = ((login net c).1, none) := by rw [← he]
        rw [hm]
        dsimp only
        obtain ⟨r, hr, htr', hcn', hu', herr'⟩ := send_spec net (login net c).1 cmd
        refine ⟨by rw [hu', hlu, hur], failed, hf, ?_, Or.inr ⟨by rw [hcn', hcn], evs, hgl, ?_, ?_⟩⟩
        · rw [hr]; simp [hlen, Res.isLogin]
        · rw [htr', htr, h3, sentCommands_append, h4, hr]; simp [sentCommands]
        · rw [herr', herr, hr, lost_append, lost_sent]
          have : ¬ Lost rs := by
            rintro ⟨x, hx⟩
            have : Ev.command x none ∈ sentCommands rs := List.mem_filterMap.mpr ⟨_, hx, rfl⟩
            rw [h4] at this; simp at this
          simp [this]
    · rw [if_pos h1]
      obtain ⟨r, hr, htr', hcn', hu', herr'⟩ := send_spec net c cmd
      refine ⟨by rw [hu', hur], failed, hf, ?_, Or.inr ⟨by rw [hcn', h1], good, h2, ?_, ?_⟩⟩
      · rw [hr]; simp [hlen, Res.isLogin]
      · rw [htr', h3, sentCommands_append, hr]; simp [sentCommands]
      · rw [herr', hr, lost_append, lost_sent, ← h4]; simp

theorem run_inv {net : Net} {uri : Bytes} {t : Target} {password : Bytes} (ht : service_target redisDefaults uri = some t)
    (hu : (0 : Byte) ∉ t.user) (hp : (0 : Byte) ∉ password) (acts : List Act) :
    ∀ {c : Conn} {rs : List (List Bytes × Res)}, Inv uri t password c rs → Inv uri t password (run net c acts).1 (rs ++ (run net c acts).2) := by
  induction acts with
  | nil => intro c rs h; simpa [run] using h
  | cons a acts ih =>
    intro c rs h
    cases a with
    | execute cmd =>
      have := ih (execute_inv (net := net) ht hu hp h cmd)
      simpa [run] using this
    | fetch =>
      exact ih (c := (fetch c).1) ⟨h.uri, h.log⟩
    | reset =>
      exact ih (c := (reset c).1) ⟨h.uri, h.log⟩

theorem init_inv (uri : Bytes) (t : Target) (password : Bytes) : Inv uri t password { uri := uri, password := password } [] :=
  ⟨rfl, [], by simp, rfl, Or.inl ⟨rfl, rfl, rfl, rfl⟩⟩

/-- Nothing is sent if the URI is malformed. -/
theorem run_malformed {net : Net} {uri : Bytes} (ht : service_target redisDefaults uri = none) (acts : List Act) :
    ∀ {c : Conn}, c.uri = uri → c.connected = false → c.trace = [] →
      (run net c acts).1.trace = [] ∧ ∀ r ∈ (run net c acts).2, r.2 = .uri ∨ r = ([], .empty) := by
  induction acts with
  | nil => intro c _ _ h; simp [run, h]
  | cons a acts ih =>
    intro c h1 h2 h3
    cases a with
    | execute cmd =>
      have he : execute net c cmd = (c, if cmd.isEmpty then .empty else .uri) := by
        unfold execute login
        rw [h1, ht, h2]
        cases cmd <;> simp
      obtain ⟨i1, i2⟩ := ih (c := c) h1 h2 h3
      simp only [run, he]
      refine ⟨i1, ?_⟩
      intro r hr
      rcases List.mem_cons.mp hr with rfl | hr
      · cases cmd <;> simp
      · exact i2 r hr
    | fetch => exact ih (c := (fetch c).1) h1 h2 h3
    | reset => exact ih (c := (reset c).1) h1 h2 h3

/-- What can be fetched is the reply to the last command. -/
def Fresh (c : Conn) : Prop := ∀ r, c.reply = some r → lastReply c.trace = some r

theorem lastReply_command (tr : List Ev) (args : List Bytes) (r : Option Reply) : lastReply (tr ++ [.command args r]) = r := by
  unfold lastReply; rw [List.reverse_append]; rfl

theorem lastReply_connect (tr : List Ev) (h : Bytes) (p : Nat) (l : Link) : lastReply (tr ++ [.connect h p l]) = lastReply tr := by
  unfold lastReply; rw [List.reverse_append]; rfl

theorem command_fresh (net : Net) (c : Conn) (args : List Bytes) : Fresh (command net c args) := by
  intro r h
  show lastReply (c.trace ++ [Ev.command args (net.reply c.trace args)]) = _
  rw [lastReply_command]; exact h

theorem auth_fresh {net : Net} {c : Conn} {t : Target} (h : Fresh c) : Fresh (auth net c t).1 := by
  unfold auth
  by_cases hp : c.password.length ≠ 0
  · rw [if_pos hp]; exact command_fresh _ _ _
  · rw [if_neg hp]; exact h

theorem select_fresh {net : Net} {c : Conn} {t : Target} (h : Fresh c) : Fresh (select net c t).1 := by
  unfold select
  by_cases hp : t.database.length ≠ 0
  · rw [if_pos hp]; exact command_fresh _ _ _
  · rw [if_neg hp]; exact h

theorem login_fresh {net : Net} {c : Conn} (h : Fresh c) : Fresh (login net c).1 := by
  unfold login
  cases ht : service_target redisDefaults c.uri with
  | none => exact h
  | some t =>
    dsimp only
    generalize hc1 : ({ c with err := decide (net.connect c.trace (cstr t.host) t.port ≠ Link.ok), trace := c.trace ++ [Ev.connect (cstr t.host) t.port (net.connect c.trace (cstr t.host) t.port)] } : Conn) = c1
    have h1 : Fresh c1 := by
      intro r hr
      rw [← hc1]
      show lastReply (c.trace ++ [_]) = _
      rw [lastReply_connect]
      exact h r (by rw [← hr, ← hc1])
    split
    · exact h1
    · have h2 := auth_fresh (net := net) (t := t) h1
      generalize auth net c1 t = r at h2
      obtain ⟨c2, ok⟩ := r
      dsimp only at h2 ⊢
      split
      · exact h2
      · have h3 := select_fresh (net := net) (t := t) h2
        generalize select net c2 t = r at h3
        obtain ⟨c3, ok⟩ := r
        dsimp only at h3 ⊢
        split
        · exact h3
        · exact h3

theorem execute_fresh {net : Net} {c : Conn} (h : Fresh c) (cmd : List Bytes) : Fresh (execute net c cmd).1 := by
  unfold execute
  split
  · exact h
  · split
    · exact command_fresh _ _ _
    · have hl := login_fresh (net := net) h
      generalize login net c = r at hl
      obtain ⟨c', e⟩ := r
      cases e with
      | some e => exact hl
      | none => exact command_fresh _ _ _

theorem run_fresh {net : Net} (acts : List Act) : ∀ {c : Conn}, Fresh c → Fresh (run net c acts).1 := by
  induction acts with
  | nil => intro c h; exact h
  | cons a acts ih =>
    intro c h
    cases a with
    | execute cmd => exact ih (execute_fresh (net := net) h cmd)
    | fetch => exact ih (c := (fetch c).1) (fun r hr => by cases hr)
    | reset => exact ih (c := (reset c).1) (fun r hr => by cases hr)

theorem run_append (net : Net) (a b : List Act) : ∀ c : Conn, run net c (a ++ b) =
    ((run net (run net c a).1 b).1, (run net c a).2 ++ (run net (run net c a).1 b).2) := by
  induction a with
  | nil => intro c; simp [run]
  | cons x a ih =>
    intro c
    cases x with
    | execute cmd => simp [run, ih]
    | fetch => simp [run, ih]
    | reset => simp [run, ih]

end Verif.Connection
