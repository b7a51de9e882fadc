import Verif.Proofs.FiberInv
namespace Verif.Fiber

structure TimeInv (s : Sys) : Prop where
  async : ∀ k, phase k s.trace ≠ .asleep → (s.fib k).async ≤ s.clock
  check : ∀ k, phase k s.trace = .found → (s.fib k).check ≤ s.clock
  look : ∀ k now, s.pc = .looking k now → now ≤ s.clock
  scan : ∀ i now, s.pc = .scanning i now → now ≤ s.clock
  choose : ∀ now, s.pc = .choosing now → now ≤ s.clock

theorem timeInv_step {s s'} (ih : TimeInv s) (hc : Case s s') : TimeInv s' := by
  obtain ⟨h1, h2, h3, h4, h5⟩ := ih
  cases hc with
  | tick d =>
    exact ⟨fun k h => Nat.le_trans (h1 k h) (Nat.le_add_right _ _), fun k h => Nat.le_trans (h2 k h) (Nat.le_add_right _ _),
      fun k n h => Nat.le_trans (h3 k n h) (Nat.le_add_right _ _), fun k n h => Nat.le_trans (h4 k n h) (Nat.le_add_right _ _),
      fun n h => Nat.le_trans (h5 n h) (Nat.le_add_right _ _)⟩
  | launch v hl hv =>
    refine ⟨?_, ?_, h3, h4, h5⟩
    · intro k hk
      show (upd (α := Fib) _ _ _ k).async ≤ s.clock
      by_cases hks : k = s.ids
      · subst hks; simpa using hv
      · rw [upd_other _ _ hks]; exact h1 k hk
    · intro k hk
      show (upd (α := Fib) _ _ _ k).check ≤ s.clock
      by_cases hks : k = s.ids
      · subst hks; simpa using hv
      · rw [upd_other _ _ hks]; exact h2 k hk
  | abandon => exact ⟨h1, h2, h3, h4, h5⟩
  | nop => exact ⟨h1, h2, h3, h4, h5⟩
  | call => exact ⟨h1, h2, h3, h4, h5⟩
  | escape => exact ⟨h1, h2, h3, h4, h5⟩
  | complete => exact ⟨h1, h2, h3, h4, h5⟩
  | gone => exact ⟨h1, h2, h3, h4, h5⟩
  | finalize => exact ⟨h1, h2, h3, h4, h5⟩
  | notify t f since k v todo ht hv hk =>
    refine ⟨?_, ?_, h3, h4, h5⟩
    · intro i hi
      by_cases hik : i = k
      · subst hik; simpa using hv
      · have : k ≠ i := fun h => hik h.symm
        simp only [upd_other _ _ hik]
        simp only [phase, this, if_false] at hi
        exact h1 i hi
    · intro i hi
      by_cases hik : i = k
      · subst hik
        simp only [phase, if_true] at hi
        simp only [upd_same]
        split at hi
        · exact nomatch hi
        · exact h2 i hi
      · have : k ≠ i := fun h => hik h.symm
        simp only [upd_other _ _ hik]
        simp only [phase, this, if_false] at hi
        exact h2 i hi
  | choose hp hd =>
    exact ⟨h1, h2, fun _ _ h => (nomatch h), fun _ _ h => (nomatch h), fun n h => by cases h; exact Nat.le_refl _⟩
  | startScan hp hd =>
    exact ⟨h1, h2, fun _ _ h => (nomatch h), fun _ n h => (by cases h; exact Nat.le_refl _), fun _ h => (nomatch h)⟩
  | scan i now k hp hk =>
    refine ⟨?_, ?_, fun _ _ h => (nomatch h), fun _ n h => (by cases h; exact h4 _ _ hp), fun _ h => (nomatch h)⟩
    · intro j hj
      by_cases hjk : j = k
      · subst hjk
        simp only [phase, if_true] at hj
        simp only [upd_same]
        refine h1 j ?_
        split at hj
        · rename_i h; rw [h]; decide
        · exact hj
      · have : k ≠ j := fun h => hjk h.symm
        simp only [upd_other _ _ hjk]
        simp only [phase, this, if_false] at hj
        exact h1 j hj
    · intro j hj
      by_cases hjk : j = k
      · subst hjk
        simp only [phase, if_true] at hj
        simp only [upd_same]
        refine h1 j ?_
        split at hj
        · rename_i h; rw [h]; decide
        · rw [hj]; decide
      · have : k ≠ j := fun h => hjk h.symm
        simp only [upd_other _ _ hjk]
        simp only [phase, this, if_false] at hj
        exact h2 j hj
  | endScan now hp hz => exact ⟨h1, h2, fun _ _ h => (nomatch h), fun _ _ h => (nomatch h), fun n h => by cases h; exact h4 _ _ hp⟩
  | sleep now hp hz => exact ⟨h1, h2, fun _ _ h => (nomatch h), fun _ _ h => (nomatch h), fun _ h => (nomatch h)⟩
  | remove k now hp hk hc => exact ⟨h1, h2, fun _ _ h => (nomatch h), fun _ _ h => (nomatch h), fun _ h => (nomatch h)⟩
  | pick k now hp hk hmin hc next hn =>
    refine ⟨?_, ?_, fun _ n h => (by cases h; exact h5 _ hp), fun _ _ h => (nomatch h), fun _ h => (nomatch h)⟩
    · intro j hj
      by_cases hjk : j = k
      · subst hjk; simp [phase] at hj
      · have : k ≠ j := fun h => hjk h.symm
        simp only [upd_other _ _ hjk]
        simp only [phase, this, if_false] at hj
        exact h1 j hj
    · intro j hj
      by_cases hjk : j = k
      · subst hjk; simp [phase] at hj
      · have : k ≠ j := fun h => hjk h.symm
        simp only [upd_other _ _ hjk]
        simp only [phase, this, if_false] at hj
        exact h2 j hj
  | pass => exact ⟨h1, h2, fun _ _ h => (nomatch h), fun _ _ h => (nomatch h), fun _ h => (nomatch h)⟩
  | begin_ k now hp hst =>
    refine ⟨?_, ?_, fun _ _ h => (nomatch h), fun _ _ h => (nomatch h), fun _ h => (nomatch h)⟩
    · intro j hj
      by_cases hjk : j = k
      · subst hjk; simpa using h1 j hj
      · simp only [upd_other _ _ hjk]; exact h1 j hj
    · intro j hj
      by_cases hjk : j = k
      · subst hjk; simpa using h2 j hj
      · simp only [upd_other _ _ hjk]; exact h2 j hj
  | resume k now ok hp hst hff hok =>
    refine ⟨?_, ?_, fun _ _ h => (nomatch h), fun _ _ h => (nomatch h), fun _ h => (nomatch h)⟩
    · intro j hj
      by_cases hjk : j = k
      · subst hjk; simpa using h1 j hj
      · simp only [upd_other _ _ hjk]; exact h1 j hj
    · intro j hj
      by_cases hjk : j = k
      · subst hjk; simpa using h2 j hj
      · simp only [upd_other _ _ hjk]; exact h2 j hj
  | yieldOn k f hp =>
    refine ⟨?_, ?_, fun _ _ h => (nomatch h), fun _ _ h => (nomatch h), fun _ h => (nomatch h)⟩
    · intro j hj
      by_cases hjk : j = k
      · subst hjk; simp
      · simp only [upd_other _ _ hjk]; exact h1 j hj
    · intro j hj
      by_cases hjk : j = k
      · subst hjk; simpa using h2 j hj
      · simp only [upd_other _ _ hjk]; exact h2 j hj
  | yield k hp =>
    refine ⟨?_, ?_, fun _ _ h => (nomatch h), fun _ _ h => (nomatch h), fun _ h => (nomatch h)⟩
    · intro j hj
      by_cases hjk : j = k
      · subst hjk; simp [phase] at hj
      · have : k ≠ j := fun h => hjk h.symm
        simp only [upd_other _ _ hjk]
        simp only [phase, this, if_false] at hj
        exact h1 j hj
    · intro j hj
      by_cases hjk : j = k
      · subst hjk; simp [phase] at hj
      · have : k ≠ j := fun h => hjk h.symm
        simp only [upd_other _ _ hjk]
        simp only [phase, this, if_false] at hj
        exact h2 j hj
  | noWait k f hp hl hi => exact ⟨h1, h2, fun _ _ h => (nomatch h), fun _ _ h => (nomatch h), fun _ h => (nomatch h)⟩
  | register k f hp hl hi =>
    refine ⟨?_, ?_, fun _ _ h => (nomatch h), fun _ _ h => (nomatch h), fun _ h => (nomatch h)⟩
    · intro j hj
      by_cases hjk : j = k
      · subst hjk; simp [phase] at hj
      · have : k ≠ j := fun h => hjk h.symm
        simp only [upd_other _ _ hjk]
        simp only [phase, this, if_false] at hj
        exact h1 j hj
    · intro j hj
      by_cases hjk : j = k
      · subst hjk; simp [phase] at hj
      · have : k ≠ j := fun h => hjk h.symm
        simp only [upd_other _ _ hjk]
        simp only [phase, this, if_false] at hj
        exact h2 j hj
  | finish k hp =>
    refine ⟨?_, ?_, fun _ _ h => (nomatch h), fun _ _ h => (nomatch h), fun _ h => (nomatch h)⟩
    · intro j hj
      by_cases hjk : j = k
      · subst hjk; simp
      · simp only [upd_other _ _ hjk]; exact h1 j hj
    · intro j hj
      by_cases hjk : j = k
      · subst hjk; simpa using h2 j hj
      · simp only [upd_other _ _ hjk]; exact h2 j hj

theorem timeInv {s} (h : Reachable s) : TimeInv s := by
  induction h with
  | init => constructor <;> simp [phase]
  | step a hr hs ih => exact timeInv_step ih (step_case hs)

/-- Thread `t` is about to notify `k` of `f`. -/
def pending (s : Sys) (f k : Nat) : Prop := ∃ t since todo, s.thr t = .notifying f since todo ∧ k ∈ todo

/-- A fiber waits for a future that has not completed and knows about it; or it is about to be notified, or has been notified, or is about to be resumed. -/
def awaits (s : Sys) (k f : Nat) : Prop :=
  ((s.fut f).init = false ∧ k ∈ (s.fut f).waiters) ∨
  ((s.fut f).init = true ∧ (pending s f k ∨ phase k s.trace ≠ .asleep ∨ ∃ now, s.pc = .looking k now))

def WakeInv (s : Sys) : Prop := ∀ k f, (s.fib k).state = .suspended → (s.fib k).wfut = some f → awaits s k f

theorem phase_notified (f k i : Nat) (tr : List Ev) (h : i = k ∨ phase i tr ≠ .asleep) : phase i (.notified f k :: tr) ≠ .asleep := by
  by_cases hi : k = i
  · subst hi
    simp only [phase, if_true]
    split
    · exact fun h => nomatch h
    · assumption
  · simp only [phase, hi, if_false]
    rcases h with h | h
    · exact absurd h.symm hi
    · exact h

/-- Steps that touch neither the threads nor the futures, nor a fiber that is suspended, except that they may resume it. -/
theorem awaits_same {s s' : Sys} {k f : Nat} (h : awaits s k f) (hf : s'.fut f = s.fut f) (ht : s'.thr = s.thr)
    (hph : phase k s.trace ≠ .asleep → phase k s'.trace ≠ .asleep) (hpc : ∀ now, s.pc = .looking k now → ∃ now, s'.pc = .looking k now) : awaits s' k f := by
  rcases h with ⟨h1, h2⟩ | ⟨h1, h2⟩
  · exact .inl (by rw [hf]; exact ⟨h1, h2⟩)
  · refine .inr ⟨by rw [hf]; exact h1, ?_⟩
    rcases h2 with ⟨t, since, todo, h2⟩ | h2 | ⟨now, h2⟩
    · exact .inl ⟨t, since, todo, by rw [ht]; exact h2⟩
    · exact .inr (.inl (hph h2))
    · exact .inr (.inr (hpc now h2))

theorem pending_other {s s' : Sys} {t f k : Nat} {x : Thr} (ht : s'.thr = upd s.thr t x) (hx : ∀ since todo, s.thr t ≠ .notifying f since todo)
    (h : pending s f k) : pending s' f k := by
  obtain ⟨u, since, todo, hu, hk⟩ := h
  refine ⟨u, since, todo, ?_, hk⟩
  have : u ≠ t := fun h => hx since todo (by rw [← h]; exact hu)
  rw [ht, upd_other _ _ this]
  exact hu

theorem wakeInv_step {s s'} (ih : WakeInv s) (hF : FutInv s) (hI : FibInv s) (hc : Case s s') : WakeInv s' := by
  cases hc with
  | tick d => intro k f h1 h2; exact awaits_same (ih k f h1 h2) rfl rfl id (fun n h => ⟨n, h⟩)
  | nop => exact ih
  | abandon i => intro k f h1 h2; exact awaits_same (ih k f h1 h2) rfl rfl id (fun n h => ⟨n, h⟩)
  | launch v hl hv =>
    intro k f h1 h2
    have h1 : (upd (α := Fib) _ _ _ k).state = _ := h1
    have h2 : (upd (α := Fib) _ _ _ k).wfut = _ := h2
    by_cases hk : k = s.ids
    · subst hk; simp at h1
    · rw [upd_other _ _ hk] at h1 h2
      exact awaits_same (ih k f h1 h2) rfl rfl id (fun n h => ⟨n, h⟩)
  | call t g ht hl hi =>
    intro k f h1 h2
    have hfut : ∀ f, (upd s.fut g { s.fut g with locked := true } f).init = (s.fut f).init ∧ (upd s.fut g { s.fut g with locked := true } f).waiters = (s.fut f).waiters := by
      intro f
      by_cases h : f = g
      · subst h; simp
      · simp [upd_other _ _ h]
    rcases ih k f h1 h2 with ⟨h1, h2⟩ | ⟨h1, h2⟩
    · refine .inl ⟨?_, ?_⟩
      · show (upd (α := Fut) _ _ _ f).init = _; rw [(hfut f).1]; exact h1
      · show k ∈ (upd (α := Fut) _ _ _ f).waiters; rw [(hfut f).2]; exact h2
    · refine .inr ⟨?_, ?_⟩
      · show (upd (α := Fut) _ _ _ f).init = _; rw [(hfut f).1]; exact h1
      · rcases h2 with h2 | h2 | h2
        · exact .inl (pending_other rfl (fun _ _ h => by rw [ht] at h; exact nomatch h) h2)
        · exact .inr (.inl h2)
        · exact .inr (.inr h2)
  | escape t g ht =>
    intro k f h1 h2
    have hfut : ∀ f, (upd s.fut g { s.fut g with locked := false } f).init = (s.fut f).init ∧ (upd s.fut g { s.fut g with locked := false } f).waiters = (s.fut f).waiters := by
      intro f
      by_cases h : f = g
      · subst h; simp
      · simp [upd_other _ _ h]
    rcases ih k f h1 h2 with ⟨h1, h2⟩ | ⟨h1, h2⟩
    · refine .inl ⟨?_, ?_⟩
      · show (upd (α := Fut) _ _ _ f).init = _; rw [(hfut f).1]; exact h1
      · show k ∈ (upd (α := Fut) _ _ _ f).waiters; rw [(hfut f).2]; exact h2
    · refine .inr ⟨?_, ?_⟩
      · show (upd (α := Fut) _ _ _ f).init = _; rw [(hfut f).1]; exact h1
      · rcases h2 with h2 | h2 | h2
        · exact .inl (pending_other rfl (fun _ _ h => by rw [ht] at h; exact nomatch h) h2)
        · exact .inr (.inl h2)
        · exact .inr (.inr h2)
  | complete t g e ht he =>
    intro k f h1 h2
    rcases ih k f h1 h2 with ⟨h3, h4⟩ | ⟨h1, h2⟩
    · by_cases hfg : f = g
      · subst hfg
        exact .inr ⟨by simp, .inl ⟨t, s.clock, (s.fut f).waiters, by simp, h4⟩⟩
      · exact .inl (by simp only [upd_other _ _ hfg]; exact ⟨h3, h4⟩)
    · have hfg : f ≠ g := fun h => by rw [h, (hF.owner t g ht).2] at h1; exact nomatch h1
      refine .inr ⟨by simp only [upd_other _ _ hfg]; exact h1, ?_⟩
      rcases h2 with h2 | h2 | h2
      · exact .inl (pending_other rfl (fun _ _ h => by rw [ht] at h; exact nomatch h) h2)
      · exact .inr (.inl h2)
      · exact .inr (.inr h2)
  | notify t g since i v todo ht hv hi =>
    intro k f h1 h2
    have hst : (upd s.fib i { s.fib i with async := v } k).state = (s.fib k).state ∧ (upd s.fib i { s.fib i with async := v } k).wfut = (s.fib k).wfut := by
      by_cases hi : k = i
      · subst hi; simp
      · simp [upd_other _ _ hi]
    have h1 : (upd (α := Fib) _ _ _ k).state = _ := h1
    have h2 : (upd (α := Fib) _ _ _ k).wfut = _ := h2
    rw [hst.1] at h1
    rw [hst.2] at h2
    rcases ih k f h1 h2 with h | ⟨h1, h2⟩
    · exact .inl h
    · refine .inr ⟨h1, ?_⟩
      rcases h2 with ⟨u, since', todo', hu, hk⟩ | h2 | h2
      · by_cases hut : u = t
        · subst hut
          rw [ht] at hu
          cases hu
          rcases List.mem_cons.1 hk with rfl | hk
          · exact .inr (.inl (phase_notified _ _ _ _ (.inl rfl)))
          · exact .inl ⟨u, since, todo, by simp, hk⟩
        · exact .inl ⟨u, since', todo', by simp only [upd_other _ _ hut]; exact hu, hk⟩
      · exact .inr (.inl (phase_notified _ _ _ _ (.inr h2)))
      · exact .inr (.inr h2)
  | gone t g since i todo ht hi =>
    intro k f h1 h2
    have hkp := hI.alive k (.inr h1)
    rcases ih k f h1 h2 with h | ⟨h1, h2⟩
    · exact .inl h
    · refine .inr ⟨h1, ?_⟩
      rcases h2 with ⟨u, since', todo', hu, hk⟩ | h2 | h2
      · by_cases hut : u = t
        · subst hut
          rw [ht] at hu
          cases hu
          rcases List.mem_cons.1 hk with rfl | hk
          · exact absurd hkp hi
          · exact .inl ⟨u, since, todo, by simp, hk⟩
        · exact .inl ⟨u, since', todo', by simp only [upd_other _ _ hut]; exact hu, hk⟩
      · exact .inr (.inl h2)
      · exact .inr (.inr h2)
  | finalize t g since ht =>
    intro k f h1 h2
    rcases ih k f h1 h2 with h | ⟨h1, h2⟩
    · exact .inl h
    · refine .inr ⟨h1, ?_⟩
      rcases h2 with ⟨u, since', todo', hu, hk⟩ | h2 | h2
      · by_cases hut : u = t
        · subst hut
          rw [ht] at hu
          cases hu
          exact nomatch hk
        · exact .inl ⟨u, since', todo', by simp only [upd_other _ _ hut]; exact hu, hk⟩
      · exact .inr (.inl h2)
      · exact .inr (.inr h2)
  | choose hp hd => intro k f h1 h2; exact awaits_same (ih k f h1 h2) rfl rfl id (fun n h => by rw [hp] at h; exact nomatch h)
  | startScan hp hd => intro k f h1 h2; exact awaits_same (ih k f h1 h2) rfl rfl id (fun n h => by rw [hp] at h; exact nomatch h)
  | scan i now j hp hj =>
    intro k f h1 h2
    have hst : (upd s.fib j { s.fib j with check := (s.fib j).async } k).state = (s.fib k).state ∧ (upd s.fib j { s.fib j with check := (s.fib j).async } k).wfut = (s.fib k).wfut := by
      by_cases hi : k = j
      · subst hi; simp
      · simp [upd_other _ _ hi]
    have h1 : (upd (α := Fib) _ _ _ k).state = _ := h1
    have h2 : (upd (α := Fib) _ _ _ k).wfut = _ := h2
    rw [hst.1] at h1
    rw [hst.2] at h2
    refine awaits_same (ih k f h1 h2) rfl rfl ?_ (fun n h => by rw [hp] at h; exact nomatch h)
    intro h
    show phase k (.scanned j :: s.trace) ≠ _
    simp only [phase]
    split
    · split
      · exact fun h => nomatch h
      · exact h
    · exact h
  | endScan now hp hz => intro k f h1 h2; exact awaits_same (ih k f h1 h2) rfl rfl id (fun n h => by rw [hp] at h; exact nomatch h)
  | sleep now hp hz => intro k f h1 h2; exact awaits_same (ih k f h1 h2) rfl rfl id (fun n h => by rw [hp] at h; exact nomatch h)
  | remove j now hp hk hc => intro k f h1 h2; exact awaits_same (ih k f h1 h2) rfl rfl id (fun n h => by rw [hp] at h; exact nomatch h)
  | pick j now hp hk hmin hc next hn =>
    intro k f h1 h2
    by_cases hkj : k = j
    · subst hkj
      simp only [upd_same] at h1 h2
      rcases ih k f h1 h2 with h | ⟨h, -⟩
      · exact .inl h
      · exact .inr ⟨h, .inr (.inr ⟨now, rfl⟩)⟩
    · simp only [upd_other _ _ hkj] at h1 h2
      refine awaits_same (ih k f h1 h2) rfl rfl ?_ (fun n h => by rw [hp] at h; exact nomatch h)
      intro h
      have : j ≠ k := fun h => hkj h.symm
      show phase k (.picked j :: s.trace) ≠ _
      simp only [phase, this, if_false]; exact h
  | pass j now g hp hg htm hi =>
    intro k f h1 h2
    by_cases hkj : k = j
    · subst hkj
      rcases ih k f h1 h2 with h | ⟨h, -⟩
      · exact .inl h
      · rw [show (s.fib k).wfut = some f from h2] at hg
        cases hg
        rw [hi] at h; exact nomatch h
    · refine awaits_same (ih k f h1 h2) rfl rfl id (fun n h => ?_)
      rw [hp] at h; cases h; exact absurd rfl hkj
  | begin_ j now hp hst =>
    intro k f h1 h2
    by_cases hkj : k = j
    · subst hkj; simp at h1
    · simp only [upd_other _ _ hkj] at h1 h2
      refine awaits_same (ih k f h1 h2) rfl rfl id (fun n h => ?_)
      rw [hp] at h; cases h; exact absurd rfl hkj
  | resume j now ok hp hst hff hok =>
    intro k f h1 h2
    by_cases hkj : k = j
    · subst hkj; simp at h1
    · simp only [upd_other _ _ hkj] at h1 h2
      refine awaits_same (ih k f h1 h2) rfl rfl id (fun n h => ?_)
      rw [hp] at h; cases h; exact absurd rfl hkj
  | yieldOn j g hp =>
    have hr := (hI.current j).1 (by rw [hp]; rfl)
    intro k f h1 h2
    by_cases hkj : k = j
    · subst hkj; simp [hr] at h1
    · simp only [upd_other _ _ hkj] at h1 h2
      exact awaits_same (ih k f h1 h2) rfl rfl id (fun n h => by rw [hp] at h; exact nomatch h)
  | yield j hp =>
    intro k f h1 h2
    by_cases hkj : k = j
    · subst hkj; simp at h2
    · simp only [upd_other _ _ hkj] at h1 h2
      refine awaits_same (ih k f h1 h2) rfl rfl ?_ (fun n h => by rw [hp] at h; exact nomatch h)
      intro h
      have : j ≠ k := fun h => hkj h.symm
      show phase k (.suspended j none s.clock :: s.trace) ≠ _
      simp only [phase, this, if_false]; exact h
  | noWait j g hp hl hi => intro k f h1 h2; exact awaits_same (ih k f h1 h2) rfl rfl id (fun n h => by rw [hp] at h; exact nomatch h)
  | register j g hp hl hi =>
    intro k f h1 h2
    by_cases hkj : k = j
    · subst hkj
      simp only [upd_same, hI.yielding _ _ hp, Option.some.injEq] at h2
      subst h2
      exact .inl ⟨by simp [hi], by simp⟩
    · simp only [upd_other _ _ hkj] at h1 h2
      have hph : phase k s.trace ≠ .asleep → phase k (.suspended j (some g) (s.fib j).yield :: .waits g j :: s.trace) ≠ .asleep := by
        intro h
        have : j ≠ k := fun h => hkj h.symm
        simp only [phase, this, if_false]; exact h
      by_cases hfg : f = g
      · subst hfg
        rcases ih k f h1 h2 with ⟨h1, h2⟩ | ⟨h1, -⟩
        · exact .inl ⟨by simpa using h1, by simp [h2]⟩
        · rw [hi] at h1; exact nomatch h1
      · refine awaits_same (ih k f h1 h2) ?_ rfl hph (fun n h => by rw [hp] at h; exact nomatch h)
        exact upd_other _ _ hfg
  | finish j hp =>
    intro k f h1 h2
    by_cases hkj : k = j
    · subst hkj; simp at h1
    · simp only [upd_other _ _ hkj] at h1 h2
      exact awaits_same (ih k f h1 h2) rfl rfl id (fun n h => by rw [hp] at h; exact nomatch h)

theorem wakeInv {s} (h : Reachable s) : WakeInv s := by
  induction h with
  | init => intro k f h; exact nomatch h
  | step a hr hs ih => exact wakeInv_step ih (futInv hr) (fibInv hr) (step_case hs)

end Verif.Fiber
