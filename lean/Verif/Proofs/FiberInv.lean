import Verif.Proofs.Future
namespace Verif.Fiber

/-- The fiber that the fiber thread is in. -/
def Pc.current : Pc → Option Nat
  | .running k | .yielding k _ => some k
  | _ => none

structure FibInv (s : Sys) : Prop where
  bound : ∀ k ∈ s.pq, k < s.ids
  nodup : s.pq.Nodup
  current : ∀ k, s.pc.current = some k ↔ (s.fib k).state = .running
  alive : ∀ k, (s.fib k).state = .running ∨ (s.fib k).state = .suspended → k ∈ s.pq
  looking : ∀ k now, s.pc = .looking k now → k ∈ s.pq ∧ (s.fib k).state ≠ .terminated
  yielding : ∀ k f, s.pc = .yielding k f → (s.fib k).wfut = some f
  susp : ∀ k, (s.fib k).state = .suspended → lastSuspended k s.trace = some ((s.fib k).wfut, (s.fib k).yield)
  fresh : ∀ k, s.ids ≤ k → (s.fib k).state = .pending
  resumes : resumesOk s.fail s.trace

/-- Events that say nothing about suspension. -/
def Ev.plain : Ev → Bool
  | .suspended _ _ _ | .resumed _ _ _ _ => false
  | _ => true

theorem lastSuspended_plain {e : Ev} (he : e.plain = true) (k : Nat) (tr : List Ev) : lastSuspended k (e :: tr) = lastSuspended k tr := by
  cases e <;> first | rfl | exact nomatch he

theorem resumesOk_plain {e : Ev} (he : e.plain = true ∨ ∃ k f y, e = .suspended k f y) (n : Nat) (tr : List Ev) : resumesOk n (e :: tr) ↔ resumesOk n tr := by
  rcases he with he | ⟨k, f, y, rfl⟩
  · cases e <;> first | rfl | exact nomatch he
  · rfl

theorem mem_of_getElem? {l : List Nat} {i k : Nat} (h : l[i]? = some k) : k ∈ l := List.mem_of_getElem? h

theorem fibInv_step {s s'} (ih : FibInv s) (hf : FutInv s) (hc : Case s s') : FibInv s' := by
  obtain ⟨h1, h2, h3, h4, h5, h6, h7, h8, h9⟩ := ih
  cases hc with
  | tick d => exact ⟨h1, h2, h3, h4, h5, h6, h7, h8, h9⟩
  | nop => exact ⟨h1, h2, h3, h4, h5, h6, h7, h8, h9⟩
  | abandon k => exact ⟨h1, h2, h3, h4, h5, h6, h7, h8, h9⟩
  | call => exact ⟨h1, h2, h3, h4, h5, h6, h7, h8, h9⟩
  | escape => exact ⟨h1, h2, h3, h4, h5, h6, h7, h8, h9⟩
  | complete => exact ⟨h1, h2, h3, h4, h5, h6, h7, h8, h9⟩
  | gone => exact ⟨h1, h2, h3, h4, h5, h6, h7, h8, h9⟩
  | finalize => exact ⟨h1, h2, h3, h4, h5, h6, h7, h8, h9⟩
  | launch v =>
    have hn : s.ids ∉ s.pq := fun h => Nat.lt_irrefl _ (h1 _ h)
    have hs : (s.fib s.ids).state = .pending := h8 _ (Nat.le_refl _)
    have hst : ∀ k, (upd s.fib s.ids { async := v, check := v, yield := v } k).state = (s.fib k).state := by
      intro k
      by_cases hk : k = s.ids
      · subst hk; simp [hs]
      · rw [upd_other _ _ hk]
    have hw : ∀ k, (s.fib k).state ≠ .pending → upd s.fib s.ids { async := v, check := v, yield := v } k = s.fib k := by
      intro k hk
      exact upd_other _ _ fun h => hk (h ▸ hs)
    refine ⟨?_, ?_, ?_, ?_, ?_, ?_, ?_, ?_, ?_⟩
    · intro k hk
      rcases List.mem_append.1 hk with hk | hk
      · exact Nat.lt_succ_of_lt (h1 k hk)
      · rw [List.mem_singleton.1 hk]; exact Nat.lt_succ_self _
    · refine List.nodup_append.2 ⟨h2, by simp, ?_⟩
      intro a ha b hb; rw [List.mem_singleton.1 hb]; exact fun h => hn (h ▸ ha)
    · intro k; show _ ↔ (upd (α := Fib) _ _ _ k).state = _; rw [hst]; exact h3 k
    · intro k hk
      have hk : (upd s.fib s.ids _ k).state = _ ∨ (upd s.fib s.ids _ k).state = _ := hk
      rw [hst] at hk; exact List.mem_append.2 (.inl (h4 k hk))
    · intro k now hp
      refine ⟨List.mem_append.2 (.inl (h5 k now hp).1), ?_⟩
      show (upd (α := Fib) _ _ _ k).state ≠ _; rw [hst]; exact (h5 k now hp).2
    · intro k f hp
      have := (h3 k).1 (by rw [show s.pc = _ from hp]; rfl)
      show (upd (α := Fib) _ _ _ k).wfut = _
      rw [hw k (by rw [this]; decide)]; exact h6 k f hp
    · intro k hk
      have hk : (upd s.fib s.ids _ k).state = _ := hk
      rw [hst] at hk
      show lastSuspended k s.trace = some ((upd (α := Fib) _ _ _ k).wfut, (upd (α := Fib) _ _ _ k).yield)
      rw [hw k (by rw [hk]; decide)]; exact h7 k hk
    · intro k hk; show (upd (α := Fib) _ _ _ k).state = _; rw [hst]; exact h8 k (Nat.le_of_succ_le hk)
    · exact h9
  | notify t f since k v todo ht hv hk =>
    have hst : ∀ i, (upd s.fib k { s.fib k with async := v } i).state = (s.fib i).state ∧ (upd s.fib k { s.fib k with async := v } i).wfut = (s.fib i).wfut ∧
        (upd s.fib k { s.fib k with async := v } i).yield = (s.fib i).yield := by
      intro i
      by_cases hi : i = k
      · subst hi; simp
      · simp [upd_other _ _ hi]
    refine ⟨h1, h2, ?_, ?_, ?_, ?_, ?_, ?_, h9⟩
    · intro i; show _ ↔ (upd (α := Fib) _ _ _ i).state = _; rw [(hst i).1]; exact h3 i
    · intro i hi
      have hi : (upd s.fib k _ i).state = _ ∨ (upd s.fib k _ i).state = _ := hi
      rw [(hst i).1] at hi; exact h4 i hi
    · intro i now hp
      refine ⟨(h5 i now hp).1, ?_⟩
      show (upd (α := Fib) _ _ _ i).state ≠ _; rw [(hst i).1]; exact (h5 i now hp).2
    · intro i g hp; show (upd (α := Fib) _ _ _ i).wfut = _; rw [(hst i).2.1]; exact h6 i g hp
    · intro i hi
      have hi : (upd s.fib k _ i).state = _ := hi
      rw [(hst i).1] at hi
      show lastSuspended i s.trace = some ((upd (α := Fib) _ _ _ i).wfut, (upd (α := Fib) _ _ _ i).yield)
      rw [(hst i).2.1, (hst i).2.2]; exact h7 i hi
    · intro i hi; show (upd (α := Fib) _ _ _ i).state = _; rw [(hst i).1]; exact h8 i hi
  | choose hp hd =>
    refine ⟨h1, h2, ?_, h4, ?_, ?_, h7, h8, h9⟩
    · intro k; rw [← h3 k, hp]; simp [Pc.current]
    · intro k now h; exact nomatch h
    · intro k f h; exact nomatch h
  | startScan hp hd =>
    refine ⟨h1, h2, ?_, h4, ?_, ?_, h7, h8, h9⟩
    · intro k; rw [← h3 k, hp]; simp [Pc.current]
    · intro k now h; exact nomatch h
    · intro k f h; exact nomatch h
  | scan i now k hp hk =>
    have hst : ∀ i, (upd s.fib k { s.fib k with check := (s.fib k).async } i).state = (s.fib i).state ∧
        (upd s.fib k { s.fib k with check := (s.fib k).async } i).wfut = (s.fib i).wfut ∧
        (upd s.fib k { s.fib k with check := (s.fib k).async } i).yield = (s.fib i).yield := by
      intro i
      by_cases hi : i = k
      · subst hi; simp
      · simp [upd_other _ _ hi]
    refine ⟨h1, h2, ?_, ?_, ?_, ?_, ?_, ?_, h9⟩
    · intro i; show _ ↔ (upd (α := Fib) _ _ _ i).state = _; rw [(hst i).1, ← h3 i, hp]; simp [Pc.current]
    · intro i hi
      have hi : (upd s.fib k _ i).state = _ ∨ (upd s.fib k _ i).state = _ := hi
      rw [(hst i).1] at hi; exact h4 i hi
    · intro i now h; exact nomatch h
    · intro i g h; exact nomatch h
    · intro i hi
      have hi : (upd s.fib k _ i).state = _ := hi
      rw [(hst i).1] at hi
      show lastSuspended i s.trace = some ((upd (α := Fib) _ _ _ i).wfut, (upd (α := Fib) _ _ _ i).yield)
      rw [(hst i).2.1, (hst i).2.2]; exact h7 i hi
    · intro i hi; show (upd (α := Fib) _ _ _ i).state = _; rw [(hst i).1]; exact h8 i hi
  | endScan now hp hz =>
    refine ⟨h1, h2, ?_, h4, ?_, ?_, h7, h8, h9⟩
    · intro k; rw [← h3 k, hp]; simp [Pc.current]
    · intro k now h; exact nomatch h
    · intro k f h; exact nomatch h
  | sleep now hp hz =>
    refine ⟨h1, h2, ?_, h4, ?_, ?_, h7, h8, h9⟩
    · intro k; rw [← h3 k, hp]; simp [Pc.current]
    · intro k now h; exact nomatch h
    · intro k f h; exact nomatch h
  | remove k now hp hk hc =>
    refine ⟨?_, ?_, ?_, ?_, ?_, ?_, h7, h8, h9⟩
    · intro i hi; exact h1 i (List.mem_filter.1 hi).1
    · exact h2.filter _
    · intro i; rw [← h3 i, hp]; simp [Pc.current]
    · intro i hi
      refine List.mem_filter.2 ⟨h4 i hi, ?_⟩
      simp only [bne_iff_ne, ne_eq]
      rintro rfl
      rcases hc with hc | hc <;> rcases hi with hi | hi <;> simp_all
    · intro i now h; exact nomatch h
    · intro i f h; exact nomatch h
  | pick k now hp hk hmin hc next hn =>
    have hst : ∀ i, (upd s.fib k { s.fib k with async := if (s.fib k).async = (s.fib k).check then next else (s.fib k).async, check := next } i).state = (s.fib i).state ∧
        (upd s.fib k { s.fib k with async := if (s.fib k).async = (s.fib k).check then next else (s.fib k).async, check := next } i).wfut = (s.fib i).wfut ∧
        (upd s.fib k { s.fib k with async := if (s.fib k).async = (s.fib k).check then next else (s.fib k).async, check := next } i).yield = (s.fib i).yield := by
      intro i
      by_cases hi : i = k
      · subst hi; simp
      · simp [upd_other _ _ hi]
    refine ⟨h1, h2, ?_, ?_, ?_, ?_, ?_, ?_, h9⟩
    · intro i; show _ ↔ (upd (α := Fib) _ _ _ i).state = _; rw [(hst i).1, ← h3 i, hp]; simp [Pc.current]
    · intro i hi
      have hi : (upd s.fib k _ i).state = _ ∨ (upd s.fib k _ i).state = _ := hi
      rw [(hst i).1] at hi; exact h4 i hi
    · intro i now' h
      cases h
      refine ⟨hk, ?_⟩
      show (upd (α := Fib) _ _ _ k).state ≠ _
      rw [(hst k).1]; exact fun h => hc (.inr h)
    · intro i g h; exact nomatch h
    · intro i hi
      have hi : (upd s.fib k _ i).state = _ := hi
      rw [(hst i).1] at hi
      show lastSuspended i s.trace = some ((upd (α := Fib) _ _ _ i).wfut, (upd (α := Fib) _ _ _ i).yield)
      rw [(hst i).2.1, (hst i).2.2]; exact h7 i hi
    · intro i hi; show (upd (α := Fib) _ _ _ i).state = _; rw [(hst i).1]; exact h8 i hi
  | pass k now f hp =>
    refine ⟨h1, h2, ?_, h4, ?_, ?_, h7, h8, h9⟩
    · intro i; rw [← h3 i, hp]; simp [Pc.current]
    · intro i now h; exact nomatch h
    · intro i f h; exact nomatch h
  | begin_ k now hp hst =>
    refine ⟨h1, h2, ?_, ?_, ?_, ?_, ?_, ?_, h9⟩
    · intro i
      by_cases hi : i = k
      · subst hi; simp [Pc.current]
      · simp only [Pc.current, Option.some.injEq, upd_other _ _ hi, ← h3 i, hp]
        simp; exact fun h => hi h.symm
    · intro i hi
      by_cases hik : i = k
      · subst hik; exact (h5 _ _ hp).1
      · simp only [upd_other _ _ hik] at hi; exact h4 i hi
    · intro i now h; exact nomatch h
    · intro i f h; exact nomatch h
    · intro i hi
      by_cases hik : i = k
      · subst hik; simp at hi
      · simp only [upd_other _ _ hik] at hi ⊢; exact h7 i hi
    · intro i hi
      have : i ≠ k := fun h => by have := h1 _ (h5 _ _ hp).1; subst h; exact Nat.not_lt.2 hi this
      simp only [upd_other _ _ this]; exact h8 i hi
  | resume k now ok hp hst hff hok =>
    have hs : (s.fib k).state = .suspended := by
      have hl := (h5 _ _ hp).2
      cases h : (s.fib k).state with
      | pending => exact absurd h hst
      | suspended => rfl
      | terminated => exact absurd h hl
      | running => have := (h3 k).2 h; rw [hp] at this; exact nomatch this
    refine ⟨h1, h2, ?_, ?_, ?_, ?_, ?_, ?_, ?_⟩
    · intro i
      by_cases hi : i = k
      · subst hi; simp [Pc.current]
      · simp only [Pc.current, Option.some.injEq, upd_other _ _ hi, ← h3 i, hp]
        simp; exact fun h => hi h.symm
    · intro i hi
      by_cases hik : i = k
      · subst hik; exact (h5 _ _ hp).1
      · simp only [upd_other _ _ hik] at hi; exact h4 i hi
    · intro i now h; exact nomatch h
    · intro i f h; exact nomatch h
    · intro i hi
      by_cases hik : i = k
      · subst hik; simp at hi
      · simp only [upd_other _ _ hik] at hi ⊢; exact h7 i hi
    · intro i hi
      have : i ≠ k := fun h => by have := h1 _ (h5 _ _ hp).1; subst h; exact Nat.not_lt.2 hi this
      simp only [upd_other _ _ this]; exact h8 i hi
    · refine ⟨h9, _, h7 k hs, ?_⟩
      intro f hf'
      constructor
      · rcases hff f hf' with h | h
        · exact .inl ((hf.completed f).1 h)
        · exact .inr h
      · intro ho
        rw [hok, hf'] at ho
        simp only [Bool.and_eq_true] at ho
        exact (hf.completed f).1 ho.1
  | yieldOn k f hp =>
    have hr := (h3 k).1 (by rw [hp]; rfl)
    refine ⟨h1, h2, ?_, ?_, ?_, ?_, ?_, ?_, h9⟩
    · intro i
      by_cases hi : i = k
      · subst hi; simp [Pc.current, hr]
      · simp only [Pc.current, Option.some.injEq, upd_other _ _ hi, ← h3 i, hp]
    · intro i hi
      by_cases hik : i = k
      · subst hik; exact h4 _ (.inl hr)
      · simp only [upd_other _ _ hik] at hi; exact h4 i hi
    · intro i now h; exact nomatch h
    · intro i g h; cases h; simp
    · intro i hi
      by_cases hik : i = k
      · subst hik; simp [hr] at hi
      · simp only [upd_other _ _ hik] at hi ⊢; exact h7 i hi
    · intro i hi
      have : i ≠ k := fun h => by have := h1 _ (h4 _ (.inl hr)); subst h; exact Nat.not_lt.2 hi this
      simp only [upd_other _ _ this]; exact h8 i hi
  | yield k hp =>
    have hr := (h3 k).1 (by rw [hp]; rfl)
    refine ⟨h1, h2, ?_, ?_, ?_, ?_, ?_, ?_, h9⟩
    · intro i
      by_cases hi : i = k
      · subst hi; simp [Pc.current]
      · simp only [Pc.current, upd_other _ _ hi, ← h3 i, hp]
        simp; exact fun h => hi h.symm
    · intro i hi
      by_cases hik : i = k
      · subst hik; exact h4 _ (.inl hr)
      · simp only [upd_other _ _ hik] at hi; exact h4 i hi
    · intro i now h; exact nomatch h
    · intro i g h; exact nomatch h
    · intro i hi
      by_cases hik : i = k
      · subst hik; simp [lastSuspended]
      · have : k ≠ i := fun h => hik h.symm
        simp only [upd_other _ _ hik] at hi ⊢
        simp only [lastSuspended, this, if_false]; exact h7 i hi
    · intro i hi
      have : i ≠ k := fun h => by have := h1 _ (h4 _ (.inl hr)); subst h; exact Nat.not_lt.2 hi this
      simp only [upd_other _ _ this]; exact h8 i hi
  | noWait k f hp hl hi =>
    refine ⟨h1, h2, ?_, h4, ?_, ?_, h7, h8, h9⟩
    · intro i; rw [← h3 i, hp]; simp [Pc.current]
    · intro i now h; exact nomatch h
    · intro i f h; exact nomatch h
  | register k f hp hl hi =>
    have hr := (h3 k).1 (by rw [hp]; rfl)
    refine ⟨h1, h2, ?_, ?_, ?_, ?_, ?_, ?_, h9⟩
    · intro i
      by_cases hi : i = k
      · subst hi; simp [Pc.current]
      · simp only [Pc.current, upd_other _ _ hi, ← h3 i, hp]
        simp; exact fun h => hi h.symm
    · intro i hi
      by_cases hik : i = k
      · subst hik; exact h4 _ (.inl hr)
      · simp only [upd_other _ _ hik] at hi; exact h4 i hi
    · intro i now h; exact nomatch h
    · intro i g h; exact nomatch h
    · intro i hi
      by_cases hik : i = k
      · subst hik; simp [lastSuspended, h6 _ _ hp]
      · have : k ≠ i := fun h => hik h.symm
        simp only [upd_other _ _ hik] at hi ⊢
        simp only [lastSuspended, this, if_false]; exact h7 i hi
    · intro i hi
      have : i ≠ k := fun h => by have := h1 _ (h4 _ (.inl hr)); subst h; exact Nat.not_lt.2 hi this
      simp only [upd_other _ _ this]; exact h8 i hi
  | finish k hp =>
    have hr := (h3 k).1 (by rw [hp]; rfl)
    refine ⟨h1, h2, ?_, ?_, ?_, ?_, ?_, ?_, h9⟩
    · intro i
      by_cases hi : i = k
      · subst hi; simp [Pc.current]
      · simp only [Pc.current, upd_other _ _ hi, ← h3 i, hp]
        simp; exact fun h => hi h.symm
    · intro i hi
      by_cases hik : i = k
      · subst hik; exact h4 _ (.inl hr)
      · simp only [upd_other _ _ hik] at hi; exact h4 i hi
    · intro i now h; exact nomatch h
    · intro i g h; exact nomatch h
    · intro i hi
      by_cases hik : i = k
      · subst hik; simp at hi
      · simp only [upd_other _ _ hik] at hi ⊢; exact h7 i hi
    · intro i hi
      have : i ≠ k := fun h => by have := h1 _ (h4 _ (.inl hr)); subst h; exact Nat.not_lt.2 hi this
      simp only [upd_other _ _ this]; exact h8 i hi

theorem fibInv {s} (h : Reachable s) : FibInv s := by
  induction h with
  | init => constructor <;> simp [Pc.current, resumesOk]
  | step a hr hs ih => exact fibInv_step ih (futInv hr) (step_case hs)

end Verif.Fiber
