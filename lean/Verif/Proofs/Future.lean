import Verif.Proofs.Fiber
namespace Verif.Fiber

structure FutInv (s : Sys) : Prop where
  owner : ∀ t f, s.thr t = .initing f → (s.fut f).locked = true ∧ (s.fut f).init = false
  one : ∀ t u f, s.thr t = .initing f → s.thr u = .initing f → t = u
  held : ∀ f, (s.fut f).locked = true → ∃ t, s.thr t = .initing f
  empty : ∀ f, (s.fut f).init = true → (s.fut f).waiters = []
  notifying : ∀ t f since todo, s.thr t = .notifying f since todo → (s.fut f).init = true
  completed : ∀ f, (s.fut f).init = true ↔ Ev.completed f ∈ s.trace
  success : ∀ f, ((s.fut f).init = true ∧ (s.fut f).failed = false) ↔ Ev.initEnded f .ok ∈ s.trace
  failure : ∀ f, ((s.fut f).init = true ∧ (s.fut f).failed = true) ↔ Ev.initEnded f .threw ∈ s.trace
  begins : ∀ f, s.trace.count (.initBegan f) = s.trace.count (.initEnded f .foreign) + (if (s.fut f).init || (s.fut f).locked then 1 else 0)
  final : ∀ f, Ev.finalized f ∈ s.trace → (s.fut f).init = true

theorem init_locked {s} (h : FutInv s) {f} (hi : (s.fut f).init = true) : (s.fut f).locked = false := by
  cases hl : (s.fut f).locked with
  | false => rfl
  | true =>
    obtain ⟨t, ht⟩ := h.held f hl
    rw [(h.owner t f ht).2] at hi
    exact nomatch hi

/-- Steps that change neither futures nor the threads that initialize them. -/
theorem futInv_same {s s' : Sys} (h : FutInv s) (hf : s'.fut = s.fut) (ht : s'.thr = s.thr)
    (tr : List Ev) (htr : s'.trace = tr ++ s.trace)
    (hn : ∀ e ∈ tr, (∀ f, e ≠ .completed f) ∧ (∀ f, e ≠ .initBegan f) ∧ (∀ f x, e ≠ .initEnded f x) ∧ (∀ f, e ≠ .finalized f)) : FutInv s' := by
  have hmem : ∀ e, (∀ x ∈ tr, x ≠ e) → (e ∈ s'.trace ↔ e ∈ s.trace) := by
    intro e he
    rw [htr, List.mem_append]
    constructor
    · rintro (h | h)
      · exact absurd rfl (he e h)
      · exact h
    · exact .inr
  have hcount : ∀ e, (∀ x ∈ tr, x ≠ e) → s'.trace.count e = s.trace.count e := by
    intro e he
    rw [htr, List.count_append, List.count_eq_zero.2 (fun h => he e h rfl), Nat.zero_add]
  constructor
  · rw [hf, ht]; exact h.owner
  · rw [ht]; exact h.one
  · rw [hf, ht]; exact h.held
  · rw [hf]; exact h.empty
  · rw [hf, ht]; exact h.notifying
  · intro f; rw [hf, hmem _ (fun x hx => (hn x hx).1 f)]; exact h.completed f
  · intro f; rw [hf, hmem _ (fun x hx => (hn x hx).2.2.1 f _)]; exact h.success f
  · intro f; rw [hf, hmem _ (fun x hx => (hn x hx).2.2.1 f _)]; exact h.failure f
  · intro f; rw [hf, hcount _ (fun x hx => (hn x hx).2.1 f), hcount _ (fun x hx => (hn x hx).2.2.1 f _)]; exact h.begins f
  · intro f; rw [hf, hmem _ (fun x hx => (hn x hx).2.2.2 f)]; exact h.final f

theorem futInv {s} (h : Reachable s) : FutInv s := by
  induction h with
  | init => constructor <;> simp
  | @step s s' a hr hs ih =>
    cases step_case hs with
    | tick d => exact futInv_same ih rfl rfl [] rfl (by simp)
    | launch v => exact futInv_same ih rfl rfl [_] rfl (by simp)
    | abandon k => exact futInv_same ih rfl rfl [_] rfl (by simp)
    | nop => exact ih
    | choose => exact futInv_same ih rfl rfl [] rfl (by simp)
    | startScan => exact futInv_same ih rfl rfl [_] rfl (by simp)
    | scan => exact futInv_same ih rfl rfl [_] rfl (by simp)
    | endScan => exact futInv_same ih rfl rfl [_] rfl (by simp)
    | sleep => exact futInv_same ih rfl rfl [_, _] rfl (by simp)
    | remove => exact futInv_same ih rfl rfl [_] rfl (by simp)
    | pick => exact futInv_same ih rfl rfl [_] rfl (by simp)
    | pass => exact futInv_same ih rfl rfl [] rfl (by simp)
    | begin_ => exact futInv_same ih rfl rfl [_] rfl (by simp)
    | resume => exact futInv_same ih rfl rfl [_] rfl (by simp)
    | yieldOn => exact futInv_same ih rfl rfl [] rfl (by simp)
    | yield => exact futInv_same ih rfl rfl [_] rfl (by simp)
    | noWait => exact futInv_same ih rfl rfl [_] rfl (by simp)
    | finish => exact futInv_same ih rfl rfl [_] rfl (by simp)
    | call t f ht hl hi =>
      have hne : ∀ u g, s.thr u = .initing g → u ≠ t := fun u g hu he => by rw [he, ht] at hu; exact nomatch hu
      constructor
      · intro u g hu
        by_cases hut : u = t
        · subst hut; simp only [upd_same, Thr.initing.injEq] at hu; subst hu; simp [hi]
        · simp only [upd_other _ _ hut] at hu
          have := ih.owner u g hu
          by_cases hgf : g = f
          · subst hgf; rw [hl] at this; exact nomatch this.1
          · simp only [upd_other _ _ hgf]; exact this
      · intro u v g hu hv
        by_cases hut : u = t <;> by_cases hvt : v = t
        · rw [hut, hvt]
        · subst hut; simp only [upd_same, Thr.initing.injEq] at hu; subst hu
          simp only [upd_other _ _ hvt] at hv
          have := (ih.owner v f hv).1
          rw [hl] at this; exact nomatch this
        · subst hvt; simp only [upd_same, Thr.initing.injEq] at hv; subst hv
          simp only [upd_other _ _ hut] at hu
          have := (ih.owner u f hu).1
          rw [hl] at this; exact nomatch this
        · simp only [upd_other _ _ hut] at hu
          simp only [upd_other _ _ hvt] at hv
          exact ih.one u v g hu hv
      · intro g hg
        by_cases hgf : g = f
        · subst hgf; exact ⟨t, by simp⟩
        · simp only [upd_other _ _ hgf] at hg
          obtain ⟨u, hu⟩ := ih.held g hg
          exact ⟨u, by simp only [upd_other _ _ (hne u g hu)]; exact hu⟩
      · intro g hg
        by_cases hgf : g = f
        · subst hgf; simp [hi] at hg
        · simp only [upd_other _ _ hgf] at hg ⊢; exact ih.empty g hg
      · intro u g since todo hu
        by_cases hut : u = t
        · subst hut; simp at hu
        · simp only [upd_other _ _ hut] at hu
          have := ih.notifying u g since todo hu
          by_cases hgf : g = f
          · subst hgf; rw [hi] at this; exact nomatch this
          · simp only [upd_other _ _ hgf]; exact this
      · intro g
        have := ih.completed g
        by_cases hgf : g = f
        · subst hgf; simpa using this
        · simpa [upd_other _ _ hgf] using this
      · intro g
        have := ih.success g
        by_cases hgf : g = f
        · subst hgf; simpa using this
        · simpa [upd_other _ _ hgf] using this
      · intro g
        have := ih.failure g
        by_cases hgf : g = f
        · subst hgf; simpa using this
        · simpa [upd_other _ _ hgf] using this
      · intro g
        have := ih.begins g
        by_cases hgf : g = f
        · subst hgf; simp [hi, hl] at this ⊢; exact this
        · simp only [upd_other _ _ hgf, List.count_cons]
          have h1 : (Ev.initBegan f == Ev.initBegan g) = false := by simp; exact fun h => hgf h.symm
          rw [h1]; simpa using this
      · intro g hg
        have := ih.final g (by simpa using hg)
        by_cases hgf : g = f
        · subst hgf; simpa using this
        · simpa [upd_other _ _ hgf] using this
    | escape t f ht =>
      obtain ⟨hl, hi⟩ := ih.owner t f ht
      constructor
      · intro u g hu
        by_cases hut : u = t
        · subst hut; simp at hu
        · simp only [upd_other _ _ hut] at hu
          by_cases hgf : g = f
          · subst hgf; exact absurd (ih.one u t g hu ht) hut
          · simp only [upd_other _ _ hgf]; exact ih.owner u g hu
      · intro u v g hu hv
        by_cases hut : u = t
        · subst hut; simp at hu
        · by_cases hvt : v = t
          · subst hvt; simp at hv
          · simp only [upd_other _ _ hut] at hu
            simp only [upd_other _ _ hvt] at hv
            exact ih.one u v g hu hv
      · intro g hg
        by_cases hgf : g = f
        · subst hgf; simp at hg
        · simp only [upd_other _ _ hgf] at hg
          obtain ⟨u, hu⟩ := ih.held g hg
          refine ⟨u, ?_⟩
          have : u ≠ t := fun h => by rw [h, ht] at hu; cases hu; exact hgf rfl
          simp only [upd_other _ _ this]; exact hu
      · intro g hg
        by_cases hgf : g = f
        · subst hgf; simp [hi] at hg
        · simp only [upd_other _ _ hgf] at hg ⊢; exact ih.empty g hg
      · intro u g since todo hu
        by_cases hut : u = t
        · subst hut; simp at hu
        · simp only [upd_other _ _ hut] at hu
          have := ih.notifying u g since todo hu
          by_cases hgf : g = f
          · subst hgf; rw [hi] at this; exact nomatch this
          · simp only [upd_other _ _ hgf]; exact this
      · intro g
        have := ih.completed g
        by_cases hgf : g = f
        · subst hgf; simpa using this
        · simpa [upd_other _ _ hgf] using this
      · intro g
        have := ih.success g
        by_cases hgf : g = f
        · subst hgf; simpa using this
        · simpa [upd_other _ _ hgf] using this
      · intro g
        have := ih.failure g
        by_cases hgf : g = f
        · subst hgf; simpa using this
        · simpa [upd_other _ _ hgf] using this
      · intro g
        have := ih.begins g
        by_cases hgf : g = f
        · subst hgf; simp [hi, hl] at this ⊢; exact this
        · simp only [upd_other _ _ hgf, List.count_cons]
          have h1 : (Ev.initEnded f .foreign == Ev.initEnded g .foreign) = false := by simp; exact fun h => hgf h.symm
          rw [h1]; simpa using this
      · intro g hg
        have := ih.final g (by simpa using hg)
        by_cases hgf : g = f
        · subst hgf; simpa using this
        · simpa [upd_other _ _ hgf] using this
    | complete t f e ht he =>
      obtain ⟨hl, hi⟩ := ih.owner t f ht
      constructor
      · intro u g hu
        by_cases hut : u = t
        · subst hut; simp at hu
        · simp only [upd_other _ _ hut] at hu
          by_cases hgf : g = f
          · subst hgf; exact absurd (ih.one u t g hu ht) hut
          · simp only [upd_other _ _ hgf]; exact ih.owner u g hu
      · intro u v g hu hv
        by_cases hut : u = t
        · subst hut; simp at hu
        · by_cases hvt : v = t
          · subst hvt; simp at hv
          · simp only [upd_other _ _ hut] at hu
            simp only [upd_other _ _ hvt] at hv
            exact ih.one u v g hu hv
      · intro g hg
        by_cases hgf : g = f
        · subst hgf; simp at hg
        · simp only [upd_other _ _ hgf] at hg
          obtain ⟨u, hu⟩ := ih.held g hg
          refine ⟨u, ?_⟩
          have : u ≠ t := fun h => by rw [h, ht] at hu; cases hu; exact hgf rfl
          simp only [upd_other _ _ this]; exact hu
      · intro g hg
        by_cases hgf : g = f
        · subst hgf; simp
        · simp only [upd_other _ _ hgf] at hg ⊢; exact ih.empty g hg
      · intro u g since todo hu
        by_cases hut : u = t
        · subst hut; simp only [upd_same, Thr.notifying.injEq] at hu; obtain ⟨rfl, -⟩ := hu; simp
        · simp only [upd_other _ _ hut] at hu
          have := ih.notifying u g since todo hu
          by_cases hgf : g = f
          · subst hgf; simp
          · simp only [upd_other _ _ hgf]; exact this
      · intro g
        have := ih.completed g
        by_cases hgf : g = f
        · subst hgf; simp
        · simpa [upd_other _ _ hgf, hgf] using this
      · intro g
        have := ih.success g
        by_cases hgf : g = f
        · subst hgf
          have hno : Ev.initEnded g .ok ∉ s.trace := fun h => by have := (ih.success g).2 h; rw [hi] at this; exact nomatch this.1
          cases e with
          | foreign => exact absurd rfl he
          | ok => simp
          | threw => simp [hno]
        · simpa [upd_other _ _ hgf, hgf] using this
      · intro g
        have := ih.failure g
        by_cases hgf : g = f
        · subst hgf
          have hno : Ev.initEnded g .threw ∉ s.trace := fun h => by have := (ih.failure g).2 h; rw [hi] at this; exact nomatch this.1
          cases e with
          | foreign => exact absurd rfl he
          | ok => simp [hno]
          | threw => simp
        · simpa [upd_other _ _ hgf, hgf] using this
      · intro g
        have := ih.begins g
        have h2 : ∀ x, (Ev.initEnded f e == Ev.initEnded x .foreign) = false := by
          intro x; simp; exact fun _ h => he h
        by_cases hgf : g = f
        · subst hgf; simp [hi, hl, List.count_cons, h2] at this ⊢; exact this
        · simp only [upd_other _ _ hgf, List.count_cons, h2]
          simpa using this
      · intro g hg
        by_cases hgf : g = f
        · subst hgf; simp
        · have := ih.final g (by simpa using hg)
          simpa [upd_other _ _ hgf] using this
    | notify t f since k v todo ht hv hk =>
      have hthr : ∀ u, (∀ g, upd s.thr t (.notifying f since todo) u = .initing g ↔ s.thr u = .initing g) := by
        intro u g
        by_cases hut : u = t
        · subst hut; simp [ht]
        · simp only [upd_other _ _ hut]
      constructor
      · intro u g hu; exact ih.owner u g ((hthr u g).1 hu)
      · intro u v g hu hv; exact ih.one u v g ((hthr u g).1 hu) ((hthr v g).1 hv)
      · intro g hg
        obtain ⟨u, hu⟩ := ih.held g hg
        exact ⟨u, (hthr u g).2 hu⟩
      · exact ih.empty
      · intro u g since' todo' hu
        by_cases hut : u = t
        · subst hut; simp only [upd_same, Thr.notifying.injEq] at hu; obtain ⟨rfl, -⟩ := hu; exact ih.notifying u f since _ ht
        · simp only [upd_other _ _ hut] at hu
          exact ih.notifying u g _ _ hu
      · intro g; simpa using ih.completed g
      · intro g; simpa using ih.success g
      · intro g; simpa using ih.failure g
      · intro g; simpa using ih.begins g
      · intro g hg; exact ih.final g (by simpa using hg)
    | gone t f since k todo ht hk =>
      have hthr : ∀ u, (∀ g, upd s.thr t (.notifying f since todo) u = .initing g ↔ s.thr u = .initing g) := by
        intro u g
        by_cases hut : u = t
        · subst hut; simp [ht]
        · simp only [upd_other _ _ hut]
      constructor
      · intro u g hu; exact ih.owner u g ((hthr u g).1 hu)
      · intro u v g hu hv; exact ih.one u v g ((hthr u g).1 hu) ((hthr v g).1 hv)
      · intro g hg
        obtain ⟨u, hu⟩ := ih.held g hg
        exact ⟨u, (hthr u g).2 hu⟩
      · exact ih.empty
      · intro u g since' todo' hu
        by_cases hut : u = t
        · subst hut; simp only [upd_same, Thr.notifying.injEq] at hu; obtain ⟨rfl, -⟩ := hu; exact ih.notifying u f since _ ht
        · simp only [upd_other _ _ hut] at hu
          exact ih.notifying u g _ _ hu
      · intro g; simpa using ih.completed g
      · intro g; simpa using ih.success g
      · intro g; simpa using ih.failure g
      · intro g; simpa using ih.begins g
      · intro g hg; exact ih.final g (by simpa using hg)
    | finalize t f since ht =>
      have hthr : ∀ u, (∀ g, upd s.thr t .idle u = .initing g ↔ s.thr u = .initing g) := by
        intro u g
        by_cases hut : u = t
        · subst hut; simp [ht]
        · simp only [upd_other _ _ hut]
      constructor
      · intro u g hu; exact ih.owner u g ((hthr u g).1 hu)
      · intro u v g hu hv; exact ih.one u v g ((hthr u g).1 hu) ((hthr v g).1 hv)
      · intro g hg
        obtain ⟨u, hu⟩ := ih.held g hg
        exact ⟨u, (hthr u g).2 hu⟩
      · exact ih.empty
      · intro u g since' todo' hu
        by_cases hut : u = t
        · subst hut; simp at hu
        · simp only [upd_other _ _ hut] at hu
          exact ih.notifying u g _ _ hu
      · intro g; simpa using ih.completed g
      · intro g; simpa using ih.success g
      · intro g; simpa using ih.failure g
      · intro g; simpa using ih.begins g
      · intro g hg
        rcases List.mem_cons.1 hg with hg | hg
        · cases hg; exact ih.notifying t f since [] ht
        · exact ih.final g hg
    | register k f hp hl hi =>
      have hfut : ∀ g, (upd s.fut f { s.fut f with waiters := (s.fut f).waiters ++ [k] } g).init = (s.fut g).init ∧
          (upd s.fut f { s.fut f with waiters := (s.fut f).waiters ++ [k] } g).locked = (s.fut g).locked ∧
          (upd s.fut f { s.fut f with waiters := (s.fut f).waiters ++ [k] } g).failed = (s.fut g).failed := by
        intro g
        by_cases hgf : g = f
        · subst hgf; simp
        · simp [upd_other _ _ hgf]
      constructor
      · intro u g hu; rw [(hfut g).1, (hfut g).2.1]; exact ih.owner u g hu
      · exact ih.one
      · intro g hg; rw [(hfut g).2.1] at hg; exact ih.held g hg
      · intro g hg
        rw [(hfut g).1] at hg
        by_cases hgf : g = f
        · subst hgf; rw [hi] at hg; exact nomatch hg
        · simp only [upd_other _ _ hgf]; exact ih.empty g hg
      · intro u g since todo hu; rw [(hfut g).1]; exact ih.notifying u g _ _ hu
      · intro g; rw [(hfut g).1]; simpa using ih.completed g
      · intro g; rw [(hfut g).1, (hfut g).2.2]; simpa using ih.success g
      · intro g; rw [(hfut g).1, (hfut g).2.2]; simpa using ih.failure g
      · intro g; rw [(hfut g).1, (hfut g).2.1]; simpa using ih.begins g
      · intro g hg; rw [(hfut g).1]; exact ih.final g (by simpa using hg)

end Verif.Fiber
