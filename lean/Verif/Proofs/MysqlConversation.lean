import Verif.Proofs.MysqlQuery
/-! # Conversations with MySQL servers -/
namespace Verif.MysqlQuery
open Verif.Mysql Verif.Spec Verif.Connection

def Ev.isConnect : Ev → Bool
  | .connect _ _ _ => true
  | _ => false

/-- Statements, but no logins. -/
def NoConnect (evs : List Ev) : Prop := ∀ e ∈ evs, e.isConnect = false

theorem bindAndExecute_trace (net : Net) (c : Conn) (stmt : Bytes) (args : List Value) (n : Nat) (hn : n ≤ args.length) :
    (bindAndExecute net c stmt args n).1.uri = c.uri ∧ (bindAndExecute net c stmt args n).1.password = c.password ∧
    (bindAndExecute net c stmt args n).1.connected = c.connected ∧
    ∃ evs, (bindAndExecute net c stmt args n).1.trace = c.trace ++ evs ∧ NoConnect evs := by
  rw [bindAndExecute_eq net c stmt args n hn]
  refine ⟨rfl, rfl, rfl, _, rfl, ?_⟩
  intro e he
  simp only [List.mem_singleton] at he
  subst he; rfl

theorem prepare_trace (net : Net) (c : Conn) (stmt : Bytes) (args : List Value) :
    (prepare net c stmt args).1.uri = c.uri ∧ (prepare net c stmt args).1.password = c.password ∧
    (prepare net c stmt args).1.connected = c.connected ∧
    ∃ evs, (prepare net c stmt args).1.trace = c.trace ++ evs ∧ NoConnect evs := by
  unfold prepare
  dsimp only
  have hp : ∀ n, NoConnect [Ev.prepare stmt n] := by
    intro n e he
    simp only [List.mem_singleton] at he
    subst he; rfl
  split
  · exact ⟨rfl, rfl, rfl, _, rfl, hp _⟩
  · split
    · exact ⟨rfl, rfl, rfl, _, rfl, hp _⟩
    · rename_i n heq hlt
      obtain ⟨h1, h2, h3, evs, h4, h5⟩ := bindAndExecute_trace net
        { c with stmt := some {}, trace := c.trace ++ [.prepare stmt (net.prepare c.trace stmt)] } stmt args n (by omega)
      refine ⟨h1, h2, h3, _ :: evs, by rw [h4, List.append_assoc]; rfl, ?_⟩
      intro e he
      rcases List.mem_cons.mp he with rfl | he
      · rfl
      · exact h5 e he

theorem cstr_eq {s : Bytes} (h : (0 : Byte) ∉ s) : cstr s = s := by
  unfold cstr
  induction s with
  | nil => rfl
  | cons b s ih =>
    rw [List.takeWhile_cons]
    have : (b != 0) = true := by
      simp only [bne_iff_ne]
      intro hb; subst hb; exact h (by simp)
    first
      | rw [if_pos this, ih (fun hm => h (List.mem_cons_of_mem _ hm))]
      | simp_all

/-- What is true after any history. -/
def Inv (uri : Bytes) (t : Target) (password : Bytes) (c : Conn) : Prop :=
  c.uri = uri ∧ ∃ k,
    ((c.connected = false ∧ c.password = password ∧ c.trace = List.replicate k (.connect t password false)) ∨
     (c.connected = true ∧ ∃ evs, NoConnect evs ∧ c.trace = List.replicate k (.connect t password false) ++ .connect t password true :: evs))

theorem execute_inv {net : Net} {uri password : Bytes} {t : Target} (ht : service_target mysqlDefaults uri = some t)
    (hu : (0 : Byte) ∉ t.user) (hh : (0 : Byte) ∉ t.host) (hd : (0 : Byte) ∉ t.database) (hp : (0 : Byte) ∉ password)
    {c : Conn} (stmt : Bytes) (args : List Value) (h : Inv uri t password c) : Inv uri t password (execute net c stmt args).1 := by
  obtain ⟨h0, k, h⟩ := h
  unfold execute
  split
  · exact ⟨h0, k, h⟩
  rcases h with ⟨h1, h2, h3⟩ | ⟨h1, evs, h2, h3⟩
  · rw [if_neg (by rw [h1]; simp)]
    unfold login
    rw [h0, ht]
    dsimp only
    rw [cstr_eq hu, cstr_eq hh, cstr_eq hd, h2, cstr_eq hp]
    cases hc : net.connect c.trace t password with
    | false =>
      refine ⟨by simpa using h0, k + 1, Or.inl ⟨by simpa using h1, by simpa using h2, ?_⟩⟩
      show c.trace ++ [_] = _
      rw [h3, List.replicate_succ']
    | true =>
      show Inv uri t password (prepare net { c with uri := uri, password := [], connected := true, trace := c.trace ++ [.connect t password true] } stmt args).1
      obtain ⟨g1, g2, g3, evs, g4, g5⟩ := prepare_trace net
        { c with uri := uri, password := [], connected := true, trace := c.trace ++ [.connect t password true] } stmt args
      refine ⟨g1, k, Or.inr ⟨g3, evs, g5, ?_⟩⟩
      rw [g4]
      show c.trace ++ [_] ++ evs = _
      rw [h3]; simp
  · rw [if_pos h1]
    obtain ⟨g1, g2, g3, evs', g4, g5⟩ := prepare_trace net c stmt args
    refine ⟨g1.trans h0, k, Or.inr ⟨g3.trans h1, evs ++ evs', ?_, ?_⟩⟩
    · intro e he
      rcases List.mem_append.mp he with he | he
      · exact h2 e he
      · exact g5 e he
    · rw [g4, h3]; simp

theorem fetch_row_same (net : Net) (c : Conn) :
    (fetch_row net c).1.uri = c.uri ∧ (fetch_row net c).1.password = c.password ∧ (fetch_row net c).1.connected = c.connected ∧
    (fetch_row net c).1.trace = c.trace := by
  unfold fetch_row
  repeat' split
  all_goals exact ⟨rfl, rfl, rfl, rfl⟩

theorem run_inv {net : Net} {uri password : Bytes} {t : Target} (ht : service_target mysqlDefaults uri = some t)
    (hu : (0 : Byte) ∉ t.user) (hh : (0 : Byte) ∉ t.host) (hd : (0 : Byte) ∉ t.database) (hp : (0 : Byte) ∉ password) (acts : List MysqlAct) :
    ∀ {c : Conn}, Inv uri t password c → Inv uri t password (mysqlRun net c acts) := by
  induction acts with
  | nil => intro c h; exact h
  | cons a as ih =>
    intro c h
    cases a with
    | execute stmt args => exact ih (execute_inv ht hu hh hd hp stmt args h)
    | fetch =>
      refine ih ?_
      obtain ⟨g1, g2, g3, g4⟩ := fetch_row_same net c
      unfold Inv at h ⊢
      rw [g1, g2, g3, g4]
      exact h
    | reset ok => exact ih h

theorem run_malformed {net : Net} {uri : Bytes} (ht : service_target mysqlDefaults uri = none) (acts : List MysqlAct) :
    ∀ {c : Conn}, c.uri = uri → c.connected = false → (mysqlRun net c acts).trace = c.trace := by
  induction acts with
  | nil => intro c _ _; rfl
  | cons a as ih =>
    intro c h1 h2
    cases a with
    | execute stmt args =>
      have : (execute net c stmt args).1 = c := by
        unfold execute
        split
        · rfl
        · rw [if_neg (by rw [h2]; simp)]
          unfold login
          rw [h1, ht]
      show (mysqlRun net (execute net c stmt args).1 as).trace = _
      rw [this]; exact ih h1 h2
    | fetch =>
      obtain ⟨g1, g2, g3, g4⟩ := fetch_row_same net c
      show (mysqlRun net (fetch_row net c).1 as).trace = _
      rw [ih (g1.trans h1) (g3.trans h2), g4]
    | reset ok => exact ih (c := { c with stmt := none, clear := !(c.connected && !ok) }) h1 h2

end Verif.MysqlQuery
