import Verif.Model.PidFile
/-! # Proofs about the PID file -/
namespace Verif.PidFile

theorem free_iff {f : St → Bool} {s : Sys} {p n : Nat} : free f s p n = true ↔ ∀ q < n, q ≠ p → f (s.st q) = false := by
  induction n with
  | zero => simp [free]
  | succ n ih =>
    simp only [free, Bool.and_eq_true, ih, Bool.or_eq_true, beq_iff_eq, Bool.not_eq_true']
    constructor
    · rintro ⟨h1, h2⟩ q hq hp
      rcases Nat.lt_succ_iff_lt_or_eq.mp hq with h | rfl
      · exact h1 q h hp
      · rcases h2 with h | h
        · exact absurd h hp
        · exact h
    · intro h
      refine ⟨fun q hq => h q (Nat.lt_succ_of_lt hq), ?_⟩
      by_cases hp : n = p
      · exact .inl hp
      · exact .inr (h n (Nat.lt_succ_self n) hp)

theorem step_cases {n : Nat} {s s' : Sys} {a : Act} (h : step n s a = some s') :
    ∃ p x f, p < n ∧ s.st p ≠ .over ∧ s'.st = (fun q => if q = p then x else s.st q) ∧ s'.file = f ∧ s'.atomic = s.atomic ∧ s'.trace = a :: s.trace ∧
      ((a = .creat p ∧ s.st p = .fresh ∧ x = .opened ∧ f = none) ∨
       (a = .lock p ∧ s.st p = .opened ∧ f = s.file ∧ ((x = .locked ∧ ∀ q < n, q ≠ p → holds (s.st q) = false) ∨ (x = .over ∧ ∃ q < n, q ≠ p ∧ holds (s.st q) = true))) ∨
       (a = .write p ∧ s.st p = .locked ∧ x = .written ∧ f = some p) ∨
       (a = .unlock p ∧ s.st p = .written ∧ x = (if s.atomic then .running else .changing) ∧ f = s.file) ∨
       (a = .share p ∧ s.st p = .changing ∧ x = .running ∧ f = s.file ∧ ∀ q < n, q ≠ p → exclusive (s.st q) = false) ∨
       (a = .exit p ∧ x = .over ∧ f = (if s.st p = .written ∨ s.st p = .changing ∨ s.st p = .running then none else s.file)) ∨
       (a = .kill p ∧ x = .over ∧ f = s.file)) := by
  cases a with
  | creat p =>
    simp only [step] at h
    split at h
    · rename_i hc; cases h
      exact ⟨p, .opened, none, hc.1, by rw [hc.2]; simp, rfl, rfl, rfl, rfl, .inl ⟨rfl, hc.2, rfl, rfl⟩⟩
    · cases h
  | lock p =>
    simp only [step] at h
    split at h
    · rename_i hc
      split at h
      · rename_i hf; cases h
        exact ⟨p, .locked, s.file, hc.1, by rw [hc.2]; simp, rfl, rfl, rfl, rfl, .inr (.inl ⟨rfl, hc.2, rfl, .inl ⟨rfl, free_iff.mp hf⟩⟩)⟩
      · rename_i hf; cases h
        refine ⟨p, .over, s.file, hc.1, by rw [hc.2]; simp, rfl, rfl, rfl, rfl, .inr (.inl ⟨rfl, hc.2, rfl, .inr ⟨rfl, ?_⟩⟩)⟩
        rw [free_iff] at hf
        refine Classical.byContradiction fun hn => hf fun q hq hp => ?_
        cases hb : holds (s.st q)
        · rfl
        · exact absurd ⟨q, hq, hp, hb⟩ hn
    · cases h
  | write p =>
    simp only [step] at h
    split at h
    · rename_i hc; cases h
      exact ⟨p, .written, some p, hc.1, by rw [hc.2]; simp, rfl, rfl, rfl, rfl, .inr (.inr (.inl ⟨rfl, hc.2, rfl, rfl⟩))⟩
    · cases h
  | unlock p =>
    simp only [step] at h
    split at h
    · rename_i hc; cases h
      exact ⟨p, _, s.file, hc.1, by rw [hc.2]; simp, rfl, rfl, rfl, rfl, .inr (.inr (.inr (.inl ⟨rfl, hc.2, rfl, rfl⟩)))⟩
    · cases h
  | share p =>
    simp only [step] at h
    split at h
    · rename_i hc; cases h
      exact ⟨p, .running, s.file, hc.1, by rw [hc.2.1]; simp, rfl, rfl, rfl, rfl, .inr (.inr (.inr (.inr (.inl ⟨rfl, hc.2.1, rfl, rfl, free_iff.mp hc.2.2⟩))))⟩
    · cases h
  | exit p =>
    simp only [step] at h
    split at h
    · rename_i hc; cases h
      exact ⟨p, .over, _, hc.1, hc.2, rfl, rfl, rfl, rfl, .inr (.inr (.inr (.inr (.inr (.inl ⟨rfl, rfl, rfl⟩)))))⟩
    · cases h
  | kill p =>
    simp only [step] at h
    split at h
    · rename_i hc; cases h
      exact ⟨p, .over, s.file, hc.1, hc.2, rfl, rfl, rfl, rfl, .inr (.inr (.inr (.inr (.inr (.inr ⟨rfl, rfl, rfl⟩)))))⟩
    · cases h

/-- States of processes that have not been started, or have numbers that are too large. -/
theorem fresh_of_large {n : Nat} {b : Bool} {s : Sys} (h : Reachable n b s) (q : Nat) (hq : n ≤ q) : s.st q = .fresh := by
  induction h with
  | init => rfl
  | step hr hs ih =>
    obtain ⟨p, x, f, hp, -, hst, -⟩ := step_cases hs
    rw [hst]; simp only
    rw [if_neg (by omega)]; exact ih

/-- Only one process may write. -/
theorem writers {n : Nat} {b : Bool} {s : Sys} (h : Reachable n b s) (i j : Nat) (hi : exclusive (s.st i) = true) (hj : holds (s.st j) = true) : i = j := by
  induction h generalizing i j with
  | init => simp [exclusive] at hi
  | @step s s' a hr hs ih =>
    obtain ⟨p, x, f, hp, hno, hst, -, -, -, hc⟩ := step_cases hs
    have hlt : ∀ q, s.st q ≠ .fresh → q < n := fun q hq => Nat.lt_of_not_le fun h => hq (fresh_of_large hr q h)
    have hh : ∀ {y}, exclusive y = true → holds y = true := by intro y; cases y <;> simp [exclusive, holds]
    have hf : ∀ {y}, holds y = true → y ≠ .fresh := by intro y; cases y <;> simp [holds]
    rw [hst] at hi hj
    simp only at hi hj
    by_cases ei : i = p <;> by_cases ej : j = p
    · rw [ei, ej]
    · subst ei
      simp only [if_true, if_neg ej] at hi hj
      have hjl := hlt j (hf hj)
      rcases hc with ⟨_, _, rfl, _⟩ | ⟨_, _, _, ⟨rfl, hfree⟩ | ⟨rfl, _⟩⟩ | ⟨_, h1, rfl, _⟩ | ⟨_, h1, rfl, _⟩ | ⟨_, h1, rfl, _, _⟩ | ⟨_, rfl, _⟩ | ⟨_, rfl, _⟩
      · cases hi
      · rw [hfree j hjl ej] at hj; cases hj
      · cases hi
      · exact ih i j (by rw [h1]; rfl) hj
      · split at hi <;> cases hi
      · cases hi
      · cases hi
      · cases hi
    · subst ej
      simp only [if_true, if_neg ei] at hi hj
      have hil := hlt i (hf (hh hi))
      rcases hc with ⟨_, _, rfl, _⟩ | ⟨_, _, _, ⟨rfl, hfree⟩ | ⟨rfl, _⟩⟩ | ⟨_, h1, rfl, _⟩ | ⟨_, h1, rfl, _⟩ | ⟨_, h1, rfl, _, hfree⟩ | ⟨_, rfl, _⟩ | ⟨_, rfl, _⟩
      · cases hj
      · have := hfree i hil ei; rw [hh hi] at this; cases this
      · cases hj
      · exact ih i j hi (by rw [h1]; rfl)
      · exact ih i j hi (by rw [h1]; rfl)
      · have := hfree i hil ei; rw [hi] at this; cases this
      · cases hj
      · cases hj
    · simp only [if_neg ei, if_neg ej] at hi hj
      exact ih i j hi hj

theorem atomic_eq {n : Nat} {b : Bool} {s : Sys} (h : Reachable n b s) : s.atomic = b := by
  induction h with
  | init => rfl
  | step hr hs ih => obtain ⟨p, x, f, -, -, -, -, ha, -⟩ := step_cases hs; rw [ha]; exact ih

theorem no_changing {n : Nat} {s : Sys} (h : Reachable n true s) (q : Nat) : s.st q ≠ .changing := by
  induction h with
  | init => simp
  | step hr hs ih =>
    obtain ⟨p, x, f, -, -, hst, -, -, -, hc⟩ := step_cases hs
    rw [hst]; simp only
    split
    · rcases hc with ⟨_, _, rfl, _⟩ | ⟨_, _, _, ⟨rfl, _⟩ | ⟨rfl, _⟩⟩ | ⟨_, _, rfl, _⟩ | ⟨_, _, rfl, _⟩ | ⟨_, _, rfl, _⟩ | ⟨_, rfl, _⟩ | ⟨_, rfl, _⟩ <;> simp [atomic_eq hr]
    · exact ih

/-- Locks are exclusive if they are changed at once. -/
theorem alone {n : Nat} {s : Sys} (h : Reachable n true s) (i j : Nat) (hi : holds (s.st i) = true) (hj : holds (s.st j) = true) : i = j := by
  induction h generalizing i j with
  | init => simp [holds] at hi
  | @step s s' a hr hs ih =>
    obtain ⟨p, x, f, hp, hno, hst, -, -, -, hc⟩ := step_cases hs
    have hat := atomic_eq hr
    have hlt : ∀ q, s.st q ≠ .fresh → q < n := fun q hq => Nat.lt_of_not_le fun h => hq (fresh_of_large hr q h)
    have hf : ∀ {y}, holds y = true → y ≠ .fresh := by intro y; cases y <;> simp [holds]
    have hchg : s.st p ≠ .changing := by
      intro hx
      exact no_changing hr p hx
    have key : ∀ k, k ≠ p → holds (s.st k) = true → holds x = true → False := by
      intro k hk h1 h2
      have hkl := hlt k (hf h1)
      rcases hc with ⟨_, _, rfl, _⟩ | ⟨_, _, _, ⟨rfl, hfree⟩ | ⟨rfl, _⟩⟩ | ⟨_, h3, rfl, _⟩ | ⟨_, h3, rfl, _⟩ | ⟨_, h3, rfl, _, hfree⟩ | ⟨_, rfl, _⟩ | ⟨_, rfl, _⟩
      · cases h2
      · rw [hfree k hkl hk] at h1; cases h1
      · cases h2
      · exact hk (ih k p h1 (by rw [h3]; rfl))
      · exact hk (ih k p h1 (by rw [h3]; rfl))
      · exact hchg h3
      · cases h2
      · cases h2
    rw [hst] at hi hj
    simp only at hi hj
    by_cases ei : i = p <;> by_cases ej : j = p
    · rw [ei, ej]
    · simp only [if_pos ei, if_neg ej] at hi hj; exact (key j ej hj hi).elim
    · simp only [if_neg ei, if_pos ej] at hi hj; exact (key i ei hi hj).elim
    · simp only [if_neg ei, if_neg ej] at hi hj; exact ih i j hi hj

/-- The file has no other process ID than that of the process that has the lock, if there is one behind `dprintf()`. -/
theorem content {n : Nat} {s : Sys} (h : Reachable n true s) (i : Nat) (hi : s.st i = .written ∨ s.st i = .running) : s.file = none ∨ s.file = some i := by
  induction h generalizing i with
  | init => simp at hi
  | @step s s' a hr hs ih =>
    have hall := alone (.step hr hs)
    have hal := alone hr
    obtain ⟨p, x, f, hp, hno, hst, hfile, -, -, hc⟩ := step_cases hs
    have hhi : holds (s'.st i) = true := by rcases hi with h | h <;> rw [h] <;> rfl
    have hst2 : ∀ q, s'.st q = if q = p then x else s.st q := fun q => by rw [hst]
    rw [hfile]
    by_cases ei : i = p
    · subst ei
      rw [hst2, if_pos rfl] at hi
      rcases hc with ⟨_, _, rfl, h2⟩ | ⟨_, _, h2, ⟨rfl, _⟩ | ⟨rfl, _⟩⟩ | ⟨_, h3, rfl, h2⟩ | ⟨_, h3, rfl, h2⟩ | ⟨_, h3, rfl, h2, _⟩ | ⟨_, rfl, h2⟩ | ⟨_, rfl, h2⟩
      · exact .inl h2
      · simp at hi
      · simp at hi
      · exact .inr h2
      · rw [h2]; exact ih i (.inl h3)
      · exfalso
        exact no_changing hr i h3
      · simp at hi
      · simp at hi
    · rw [hst2, if_neg ei] at hi
      rcases hc with ⟨_, _, rfl, h2⟩ | ⟨_, _, h2, _⟩ | ⟨_, h3, rfl, h2⟩ | ⟨_, h3, rfl, h2⟩ | ⟨_, h3, rfl, h2, _⟩ | ⟨_, rfl, h2⟩ | ⟨_, rfl, h2⟩
      · exact .inl h2
      · rw [h2]; exact ih i hi
      · exfalso
        refine ei (hal i p ?_ (by rw [h3]; rfl))
        rcases hi with h | h <;> rw [h] <;> rfl
      · rw [h2]; exact ih i hi
      · rw [h2]; exact ih i hi
      · rw [h2]
        split
        · exact .inl rfl
        · exact ih i hi
      · rw [h2]; exact ih i hi

/-- The process ID is in the file, as long as no other process opens it. -/
theorem content_kept {n : Nat} {s : Sys} (h : Reachable n true s) (i : Nat) (hi : s.st i = .written ∨ s.st i = .running) (post pre : List Act) (ht : s.trace = post ++ .write i :: pre)
    (hn : ∀ j, .creat j ∉ post) : s.file = some i := by
  induction h generalizing i post with
  | init => simp at ht
  | @step s s' a hr hs ih =>
    obtain ⟨p, x, f, hp, hno, hst, hfile, -, htr, hc⟩ := step_cases hs
    have hst2 : ∀ q, s'.st q = if q = p then x else s.st q := fun q => by rw [hst]
    have hal := alone hr
    rw [htr] at ht
    cases post with
    | nil =>
      simp only [List.nil_append, List.cons.injEq] at ht
      obtain ⟨ha, -⟩ := ht
      rcases hc with ⟨h0, _⟩ | ⟨h0, _⟩ | ⟨h0, h3, rfl, h2⟩ | ⟨h0, _⟩ | ⟨h0, _⟩ | ⟨h0, _⟩ | ⟨h0, _⟩ <;> rw [h0] at ha <;> cases ha
      rw [hfile, h2]
    | cons y post =>
      simp only [List.cons_append, List.cons.injEq] at ht
      obtain ⟨rfl, ht⟩ := ht
      have ih' := fun hi => ih i hi post ht (fun j hj => hn j (List.mem_cons_of_mem _ hj))
      rw [hfile]
      by_cases ei : i = p
      · subst ei
        rw [hst2, if_pos rfl] at hi
        rcases hc with ⟨rfl, _⟩ | ⟨_, _, h2, ⟨rfl, _⟩ | ⟨rfl, _⟩⟩ | ⟨_, h3, rfl, h2⟩ | ⟨_, h3, rfl, h2⟩ | ⟨_, h3, rfl, h2, _⟩ | ⟨_, rfl, h2⟩ | ⟨_, rfl, h2⟩
        · exact absurd (List.mem_cons_self ..) (hn i)
        · simp at hi
        · simp at hi
        · exact h2
        · rw [h2]; exact ih' (.inl h3)
        · exfalso
          exact no_changing hr i h3
        · simp at hi
        · simp at hi
      · rw [hst2, if_neg ei] at hi
        have hhi : holds (s.st i) = true := by rcases hi with h | h <;> rw [h] <;> rfl
        rcases hc with ⟨rfl, _⟩ | ⟨_, _, h2, _⟩ | ⟨_, h3, rfl, h2⟩ | ⟨_, h3, rfl, h2⟩ | ⟨_, h3, rfl, h2, _⟩ | ⟨_, rfl, h2⟩ | ⟨_, rfl, h2⟩
        · exact absurd (List.mem_cons_self ..) (hn p)
        · rw [h2]; exact ih' hi
        · exact absurd (hal i p hhi (by rw [h3]; rfl)) ei
        · rw [h2]; exact ih' hi
        · rw [h2]; exact ih' hi
        · rw [h2, if_neg ?_]
          · exact ih' hi
          · rintro (h | h | h)
            · exact ei (hal i p hhi (by rw [h]; rfl))
            · exact no_changing hr p h
            · exact ei (hal i p hhi (by rw [h]; rfl))
        · rw [h2]; exact ih' hi

end Verif.PidFile
