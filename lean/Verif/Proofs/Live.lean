import Verif.Spec.Live
/-!
# Rules for properties of the form "eventually"
-/
namespace Verif.Live

variable {S A : Type} {step : S → A → Option S}

/-- What holds at the start and is kept by all steps holds always. -/
theorem Exec.always (e : Exec step) {P : S → Prop} (n : Nat) (h0 : P (e.st n)) (hs : ∀ s a s', P s → step s a = some s' → P s') : ∀ m, n ≤ m → P (e.st m) := by
  intro m hm
  induction m with
  | zero => have : n = 0 := by omega
            subst this; exact h0
  | succ m ih =>
    by_cases h : n = m + 1
    · subst h; exact h0
    · have ih := ih (by omega)
      have := e.ok m
      split at this
      · rw [this]; exact ih
      · exact hs _ _ _ ih this

/-- From a state with `P`, which is kept until `Q`, a kind of actions that is fair and is possible again and again, and whose actions lead to `Q`, leads to `Q`. -/
theorem Exec.leads (e : Exec step) {P Q : S → Prop} {T : A → Prop} (hf : e.Fair T) (n : Nat) (h0 : P (e.st n)) (hs : ∀ s a s', P s → step s a = some s' → P s' ∨ Q s')
    (hen : ∀ m, n ≤ m → P (e.st m) → ∃ k, m ≤ k ∧ (Enabled step T (e.st k) ∨ Q (e.st k))) (ht : ∀ s a s', P s → T a → step s a = some s' → Q s') : ∃ m, n ≤ m ∧ Q (e.st m) := by
  apply Classical.byContradiction
  intro hno
  have hnq : ∀ m, n ≤ m → ¬ Q (e.st m) := fun m hm hq => hno ⟨m, hm, hq⟩
  have hp : ∀ m, n ≤ m → P (e.st m) := by
    intro m hm
    induction m with
    | zero => have : n = 0 := by omega
              subst this; exact h0
    | succ m ih =>
      by_cases h : n = m + 1
      · subst h; exact h0
      · have ih := ih (by omega)
        have := e.ok m
        split at this
        · rw [this]; exact ih
        · rcases hs _ _ _ ih this with h | h
          · exact h
          · exact absurd h (hnq _ hm)
  obtain ⟨m, hm, a, ha, hta⟩ := hf n fun m hm => by
    obtain ⟨k, hk, h | h⟩ := hen m hm (hp m hm)
    · exact ⟨k, hk, h⟩
    · exact absurd h (hnq k (by omega))
  have := e.ok m
  rw [ha] at this
  exact hnq (m + 1) (by omega) (ht _ a _ (hp m hm) hta this)

/-- The same where every action of the kind makes a measure smaller, until `Q`. -/
theorem Exec.leads_measure (e : Exec step) {P Q : S → Prop} {T : A → Prop} (μ : S → Nat) (hf : e.Fair T) (hs : ∀ s a s', P s → step s a = some s' → (P s' ∧ μ s' ≤ μ s) ∨ Q s')
    (hen : ∀ s, P s → Enabled step T s) (ht : ∀ s a s', P s → T a → step s a = some s' → (P s' ∧ μ s' < μ s) ∨ Q s') : ∀ n, P (e.st n) → ∃ m, n ≤ m ∧ Q (e.st m) := by
  suffices ∀ k n, P (e.st n) → μ (e.st n) ≤ k → ∃ m, n ≤ m ∧ Q (e.st m) from fun n h => this _ n h (Nat.le_refl _)
  intro k
  induction k with
  | zero =>
    intro n h0 hk
    refine e.leads (P := fun s => P s ∧ μ s ≤ 0) hf n ⟨h0, hk⟩ (fun s a s' ⟨h1, h2⟩ h => ?_) (fun m _ h => ⟨m, Nat.le_refl _, .inl (hen _ h.1)⟩) (fun s a s' ⟨h1, h2⟩ h3 h => ?_)
    · rcases hs s a s' h1 h with h | h
      · exact .inl ⟨h.1, by omega⟩
      · exact .inr h
    · rcases ht s a s' h1 h3 h with h | h
      · omega
      · exact h
  | succ k ih =>
    intro n h0 hk
    obtain ⟨m, hm, h⟩ := e.leads (P := fun s => P s ∧ μ s ≤ k + 1) (Q := fun s => (P s ∧ μ s ≤ k) ∨ Q s) hf n ⟨h0, hk⟩ (fun s a s' ⟨h1, h2⟩ h => by
      rcases hs s a s' h1 h with h | h
      · exact .inl ⟨h.1, by omega⟩
      · exact .inr (.inr h)) (fun m _ h => ⟨m, Nat.le_refl _, .inl (hen _ h.1)⟩) (fun s a s' ⟨h1, h2⟩ h3 h => by
      rcases ht s a s' h1 h3 h with h | h
      · exact .inl ⟨h.1, by omega⟩
      · exact .inr h)
    rcases h with ⟨h1, h2⟩ | h
    · obtain ⟨m', hm', hq⟩ := ih m h1 h2
      exact ⟨m', by omega, hq⟩
    · exact ⟨m, hm, h⟩

/-- At every time, nothing is done, or an action. -/
theorem Exec.next (e : Exec step) (n : Nat) : (e.act n = none ∧ e.st (n + 1) = e.st n) ∨ ∃ a, e.act n = some a ∧ step (e.st n) a = some (e.st (n + 1)) := by
  have := e.ok n
  split at this
  · exact .inl ⟨by assumption, this⟩
  · exact .inr ⟨_, by assumption, this⟩

/-- The same where actions of the kind are known to be done again and again as long as `P`; in terms of times. -/
theorem Exec.leads_often (e : Exec step) {P Q : Nat → Prop} {T : A → Prop} (μ : Nat → Nat) (hs : ∀ n, P n → (P (n + 1) ∧ μ (n + 1) ≤ μ n) ∨ Q (n + 1))
    (often : ∀ n, (∀ m, n ≤ m → P m ∧ ¬ Q (m + 1)) → ∃ m, n ≤ m ∧ e.Taken T m) (ht : ∀ n, P n → e.Taken T n → (P (n + 1) ∧ μ (n + 1) < μ n) ∨ Q (n + 1)) :
    ∀ n, P n → ∃ m, n ≤ m ∧ Q m := by
  suffices ∀ k n, P n → μ n < k → ∃ m, n ≤ m ∧ Q m from fun n h => this _ n h (Nat.lt_succ_self _)
  intro k
  induction k with
  | zero => intro n _ h; omega
  | succ k ih =>
    intro n h0 hk
    apply Classical.byContradiction
    intro hno
    have hp : ∀ m, n ≤ m → P m ∧ μ m < k + 1 := by
      intro m hm
      induction m with
      | zero => have : n = 0 := by omega
                subst this; exact ⟨h0, hk⟩
      | succ m ih =>
        by_cases h : n = m + 1
        · subst h; exact ⟨h0, hk⟩
        · have ih := ih (by omega)
          rcases hs _ ih.1 with h | h
          · exact ⟨h.1, by omega⟩
          · exact absurd ⟨_, hm, h⟩ hno
    obtain ⟨m, hm, h⟩ := often n fun m hm => ⟨(hp m hm).1, fun h => hno ⟨m + 1, by omega, h⟩⟩
    rcases ht m (hp m hm).1 h with h | h
    · obtain ⟨m', hm', hq⟩ := ih (m + 1) h.1 (by have := (hp m hm).2; omega)
      exact hno ⟨m', by omega, hq⟩
    · exact hno ⟨m + 1, by omega, h⟩

/-- The same with one action that leads to `Q`. -/
theorem Exec.leads_once (e : Exec step) {P Q : Nat → Prop} {T : A → Prop} (hf : e.Fair T) (hs : ∀ n, P n → P (n + 1) ∨ Q (n + 1))
    (hen : ∀ n, (∀ m, n ≤ m → P m) → ∃ m, n ≤ m ∧ Enabled step T (e.st m)) (ht : ∀ n, P n → e.Taken T n → Q (n + 1)) : ∀ n, P n → ∃ m, n ≤ m ∧ Q m :=
  e.leads_often (fun _ => 0) (fun n h => (hs n h).imp (⟨·, Nat.le_refl _⟩) id)
    (fun n h => hf n fun m hm => hen m fun k hk => (h k (by omega)).1) (fun n h h2 => .inr (ht n h h2))

/-- Several actions. -/
def runs (step : S → A → Option S) (s : S) : List A → Option S
  | [] => some s
  | a :: as => (step s a).bind fun s' => runs step s' as

theorem runs_append (s : S) (as bs : List A) : runs step s (as ++ bs) = (runs step s as).bind fun s' => runs step s' bs := by
  induction as generalizing s with
  | nil => rfl
  | cons a as ih =>
    simp only [List.cons_append, runs]
    cases step s a with
    | none => rfl
    | some s1 => exact ih s1

/-- An execution that does these actions and then nothing more. -/
def Exec.ofRun (s : S) (as : List A) (h : (runs step s as).isSome = true) : Exec step where
  st n := (runs step s (as.take n)).getD s
  act n := as[n]?
  ok n := by
    cases hn : as[n]? with
    | none =>
      have := List.getElem?_eq_none_iff.1 hn
      dsimp only
      rw [List.take_of_length_le (by omega), List.take_of_length_le this]
    | some a =>
      dsimp only
      have hsome : ∀ k, (runs step s (as.take k)).isSome = true := by
        intro k
        rw [← List.take_append_drop k as, runs_append] at h
        cases e : runs step s (as.take k) with
        | none => rw [e] at h; exact nomatch h
        | some _ => rfl
      have e : as.take (n + 1) = as.take n ++ [a] := by
        rw [List.take_add_one, hn]; rfl
      have h1 := hsome (n + 1)
      rw [e, runs_append] at h1 ⊢
      cases e2 : runs step s (as.take n) with
      | none => rw [e2] at h1; exact nomatch h1
      | some s1 =>
        rw [e2] at h1
        simp only [Option.bind_some, runs, Option.getD_some] at h1 ⊢
        cases e3 : step s1 a with
        | none => rw [e3] at h1; exact nomatch h1
        | some s2 => rfl

theorem Exec.ofRun_end (s : S) (as : List A) (h : (runs step s as).isSome = true) (n : Nat) (hn : as.length ≤ n) : some ((Exec.ofRun s as h).st n) = runs step s as := by
  simp only [Exec.ofRun, List.take_of_length_le hn]
  cases e : runs step s as with
  | none => rw [e] at h; exact nomatch h
  | some _ => rfl

end Verif.Live
