import Verif.Proofs.FiberWake
namespace Verif.Fiber

structure RegInv (s : Sys) : Prop where
  reg : ∀ f k, Ev.waits f k ∈ s.trace → k ∈ (s.fut f).waiters ∨ pending s f k ∨ Ev.notified f k ∈ s.trace ∨ Ev.gone f k ∈ s.trace
  src : ∀ f k, k ∈ (s.fut f).waiters ∨ pending s f k → Ev.waits f k ∈ s.trace ∧ k < s.ids
  one : ∀ t u f a b c d, s.thr t = .notifying f a b → s.thr u = .notifying f c d → t = u
  fin : ∀ f, Ev.finalized f ∈ s.trace → ∀ t a b, s.thr t ≠ .notifying f a b
  left : ∀ k, k < s.ids → k ∈ s.pq ∨ Ev.removed k ∈ s.trace
  gone : ∀ f k, Ev.gone f k ∈ s.trace → Ev.removed k ∈ s.trace
  waits : waitsOk s.trace
  inits : initsOk s.trace

/-- Steps that change neither futures nor the threads that initialize them. -/
theorem regInv_same {s s' : Sys} (h : RegInv s) (hf : s'.fut = s.fut) (ht : s'.thr = s.thr) (hids : s.ids ≤ s'.ids)
    (hpq : ∀ k, k < s'.ids → k ∈ s'.pq ∨ Ev.removed k ∈ s'.trace)
    (tr : List Ev) (htr : s'.trace = tr ++ s.trace)
    (hn : ∀ e ∈ tr, (∀ f k, e ≠ .waits f k) ∧ (∀ f k, e ≠ .gone f k) ∧ (∀ f k, e ≠ .notified f k) ∧ (∀ f, e ≠ .finalized f) ∧ (∀ f, e ≠ .initBegan f) ∧
      (∀ k f, e = .returned k f → (s.fut f).init = true)) (hF : FutInv s) : RegInv s' := by
  have hmem : ∀ e, (∀ x ∈ tr, x ≠ e) → (e ∈ s'.trace ↔ e ∈ s.trace) := by
    intro e he
    rw [htr, List.mem_append]
    constructor
    · rintro (h | h)
      · exact absurd rfl (he e h)
      · exact h
    · exact .inr
  have hup : ∀ e, e ∈ s.trace → e ∈ s'.trace := fun e he => by rw [htr]; exact List.mem_append.2 (.inr he)
  have hpend : ∀ f k, pending s' f k ↔ pending s f k := by intro f k; simp only [pending, ht]
  constructor
  · intro f k hk
    rw [hf, hpend, hmem _ (fun x hx => (hn x hx).2.2.1 f k), hmem _ (fun x hx => (hn x hx).2.1 f k)]
    exact h.reg f k ((hmem _ (fun x hx => (hn x hx).1 f k)).1 hk)
  · intro f k hk
    rw [hf, hpend] at hk
    obtain ⟨h1, h2⟩ := h.src f k hk
    exact ⟨hup _ h1, Nat.lt_of_lt_of_le h2 hids⟩
  · rw [ht]; exact h.one
  · intro f hx; rw [ht]; exact h.fin f ((hmem _ (fun x hx => (hn x hx).2.2.2.1 f)).1 hx)
  · exact hpq
  · intro f k hk; exact hup _ (h.gone f k ((hmem _ (fun x hx => (hn x hx).2.1 f k)).1 hk))
  · rw [htr]
    have hw := h.waits
    clear htr hmem hup
    induction tr with
    | nil => exact hw
    | cons e tr iht =>
      have iht := iht (fun x hx => hn x (List.mem_cons_of_mem _ hx))
      have he := hn e (List.mem_cons_self ..)
      cases e with
      | waits f k => exact absurd rfl (he.1 f k)
      | notified f k => exact absurd rfl (he.2.2.1 f k)
      | returned k f => exact ⟨iht, List.mem_append.2 (.inr ((hF.completed f).1 (he.2.2.2.2.2 k f rfl)))⟩
      | _ => exact iht
  · rw [htr]
    have hw := h.inits
    clear htr hmem hup
    induction tr with
    | nil => exact hw
    | cons e tr iht =>
      have iht := iht (fun x hx => hn x (List.mem_cons_of_mem _ hx))
      have he := hn e (List.mem_cons_self ..)
      cases e with
      | initBegan f => exact absurd rfl (he.2.2.2.2.1 f)
      | _ => exact iht

theorem regInv_step {s s'} (ih : RegInv s) (hF : FutInv s) (hI : FibInv s) (hc : Case s s') : RegInv s' := by
  have hup : ∀ {e : Ev}, (∀ k, k < s.ids → k ∈ s.pq ∨ Ev.removed k ∈ e :: s.trace) := fun k hk => (ih.left k hk).imp id (List.mem_cons_of_mem _)
  cases hc with
  | tick d => exact regInv_same ih rfl rfl (Nat.le_refl _) ih.left [] rfl (by simp) hF
  | nop => exact ih
  | abandon k hk => exact regInv_same ih rfl rfl (Nat.le_refl _) hup [_] rfl (by simp) hF
  | choose => exact regInv_same ih rfl rfl (Nat.le_refl _) ih.left [] rfl (by simp) hF
  | startScan => exact regInv_same ih rfl rfl (Nat.le_refl _) hup [_] rfl (by simp) hF
  | scan => exact regInv_same ih rfl rfl (Nat.le_refl _) hup [_] rfl (by simp) hF
  | endScan => exact regInv_same ih rfl rfl (Nat.le_refl _) hup [_] rfl (by simp) hF
  | sleep => exact regInv_same ih rfl rfl (Nat.le_refl _) (fun k hk => (ih.left k hk).imp id (fun h => by simp [h])) [_, _] rfl (by simp) hF
  | remove k now hp hk hc =>
    refine regInv_same ih rfl rfl (Nat.le_refl _) ?_ [_] rfl (by simp) hF
    intro i hi
    by_cases hik : i = k
    · subst hik; exact .inr (List.mem_cons_self ..)
    · rcases ih.left i hi with h | h
      · exact .inl (List.mem_filter.2 ⟨h, by simpa using hik⟩)
      · exact .inr (List.mem_cons_of_mem _ h)
  | pick => exact regInv_same ih rfl rfl (Nat.le_refl _) hup [_] rfl (by simp) hF
  | pass => exact regInv_same ih rfl rfl (Nat.le_refl _) ih.left [] rfl (by simp) hF
  | begin_ => exact regInv_same ih rfl rfl (Nat.le_refl _) hup [_] rfl (by simp) hF
  | resume => exact regInv_same ih rfl rfl (Nat.le_refl _) hup [_] rfl (by simp) hF
  | yieldOn => exact regInv_same ih rfl rfl (Nat.le_refl _) ih.left [] rfl (by simp) hF
  | yield => exact regInv_same ih rfl rfl (Nat.le_refl _) hup [_] rfl (by simp) hF
  | noWait k f hp hl hi => exact regInv_same ih rfl rfl (Nat.le_refl _) hup [_] rfl (by simp; exact hi) hF
  | finish => exact regInv_same ih rfl rfl (Nat.le_refl _) hup [_] rfl (by simp) hF
  | launch v hl hv =>
    refine regInv_same ih rfl rfl (Nat.le_succ _) ?_ [_] rfl (by simp) hF
    intro k hk
    by_cases hks : k = s.ids
    · subst hks; exact .inl (List.mem_append.2 (.inr (by simp)))
    · have : k < s.ids := Nat.lt_of_le_of_ne (Nat.le_of_lt_succ hk) hks
      exact (ih.left k this).imp (fun h => List.mem_append.2 (.inl h)) (List.mem_cons_of_mem _)
  | call t g ht hl hi =>
    have hw : ∀ f, (upd s.fut g { s.fut g with locked := true } f).waiters = (s.fut f).waiters := by
      intro f
      by_cases h : f = g
      · subst h; simp
      · simp [upd_other _ _ h]
    have hthr : ∀ u f a b, upd s.thr t (.initing g) u = .notifying f a b ↔ s.thr u = .notifying f a b := by
      intro u f a b
      by_cases hut : u = t
      · subst hut; simp [ht]
      · simp only [upd_other _ _ hut]
    have hpend : ∀ f k, pending { s with fut := upd s.fut g { s.fut g with locked := true }, thr := upd s.thr t (.initing g), trace := .initBegan g :: s.trace } f k ↔ pending s f k := by
      intro f k; simp only [pending, hthr]
    constructor
    · intro f k hk
      rw [hpend]; simp only [hw]
      have := ih.reg f k (by simpa using hk)
      simpa using this
    · intro f k hk
      rw [hpend] at hk; simp only [hw] at hk
      have := ih.src f k hk
      exact ⟨List.mem_cons_of_mem _ this.1, this.2⟩
    · intro u v f a b c d h1 h2; exact ih.one u v f a b c d ((hthr u f a b).1 h1) ((hthr v f c d).1 h2)
    · intro f hx u a b h1; exact ih.fin f (by simpa using hx) u a b ((hthr u f a b).1 h1)
    · exact hup
    · intro f k hk; exact List.mem_cons_of_mem _ (ih.gone f k (by simpa using hk))
    · exact ih.waits
    · refine ⟨ih.inits, ?_, ?_⟩
      · rw [← hF.completed, hi]; exact fun h => nomatch h
      · have := hF.begins g; rw [hi, hl] at this; simpa using this
  | escape t g ht =>
    have hw : ∀ f, (upd s.fut g { s.fut g with locked := false } f).waiters = (s.fut f).waiters := by
      intro f
      by_cases h : f = g
      · subst h; simp
      · simp [upd_other _ _ h]
    have hthr : ∀ u f a b, upd s.thr t .idle u = .notifying f a b ↔ s.thr u = .notifying f a b := by
      intro u f a b
      by_cases hut : u = t
      · subst hut; simp [ht]
      · simp only [upd_other _ _ hut]
    have hpend : ∀ f k, pending { s with fut := upd s.fut g { s.fut g with locked := false }, thr := upd s.thr t .idle, trace := .initEnded g .foreign :: s.trace } f k ↔ pending s f k := by
      intro f k; simp only [pending, hthr]
    constructor
    · intro f k hk
      rw [hpend]; simp only [hw]
      have := ih.reg f k (by simpa using hk)
      simpa using this
    · intro f k hk
      rw [hpend] at hk; simp only [hw] at hk
      have := ih.src f k hk
      exact ⟨List.mem_cons_of_mem _ this.1, this.2⟩
    · intro u v f a b c d h1 h2; exact ih.one u v f a b c d ((hthr u f a b).1 h1) ((hthr v f c d).1 h2)
    · intro f hx u a b h1; exact ih.fin f (by simpa using hx) u a b ((hthr u f a b).1 h1)
    · exact hup
    · intro f k hk; exact List.mem_cons_of_mem _ (ih.gone f k (by simpa using hk))
    · exact ih.waits
    · exact ih.inits
  | complete t g e ht he =>
    have hi := (hF.owner t g ht).2
    have hnn : ∀ u a b, s.thr u ≠ .notifying g a b := fun u a b h => by have := hF.notifying u g a b h; rw [hi] at this; exact nomatch this
    have hthr : ∀ u f a b, upd s.thr t (.notifying g s.clock (s.fut g).waiters) u = .notifying f a b →
        (u = t ∧ f = g ∧ b = (s.fut g).waiters) ∨ (f ≠ g ∧ s.thr u = .notifying f a b) := by
      intro u f a b h
      by_cases hut : u = t
      · subst hut; simp only [upd_same, Thr.notifying.injEq] at h; exact .inl ⟨rfl, h.1.symm, h.2.2.symm⟩
      · simp only [upd_other _ _ hut] at h
        exact .inr ⟨fun hfg => hnn u a b (hfg ▸ h), h⟩
    have hpend : ∀ f k, pending s f k → pending { s with
        fut := upd s.fut g { init := true, locked := false, failed := e == .threw, waiters := [] }
        thr := upd s.thr t (.notifying g s.clock (s.fut g).waiters)
        trace := .completed g :: .initEnded g e :: s.trace } f k :=
      fun f k h => pending_other rfl (fun _ _ h => by rw [ht] at h; exact nomatch h) h
    constructor
    · intro f k hk
      rcases ih.reg f k (by simpa using hk) with h | h | h | h
      · by_cases hfg : f = g
        · subst hfg; exact .inr (.inl ⟨t, s.clock, (s.fut f).waiters, by simp, h⟩)
        · exact .inl (by simp only [upd_other _ _ hfg]; exact h)
      · exact .inr (.inl (hpend f k h))
      · exact .inr (.inr (.inl (by simp [h])))
      · exact .inr (.inr (.inr (by simp [h])))
    · intro f k hk
      have : k ∈ (s.fut f).waiters ∨ pending s f k := by
        rcases hk with hk | ⟨u, a, b, hu, hkb⟩
        · by_cases hfg : f = g
          · subst hfg; simp at hk
          · simp only [upd_other _ _ hfg] at hk; exact .inl hk
        · rcases hthr u f a b hu with ⟨-, rfl, rfl⟩ | ⟨-, h⟩
          · exact .inl hkb
          · exact .inr ⟨u, a, b, h, hkb⟩
      obtain ⟨h1, h2⟩ := ih.src f k this
      exact ⟨by simp [h1], h2⟩
    · intro u v f a b c d h1 h2
      rcases hthr u f a b h1 with ⟨hu, hf, -⟩ | ⟨hf, h1⟩ <;> rcases hthr v f c d h2 with ⟨hv, hf', -⟩ | ⟨hf', h2⟩
      · rw [hu, hv]
      · exact absurd hf hf'
      · exact absurd hf' hf
      · exact ih.one u v f a b c d h1 h2
    · intro f hx u a b h1
      have hx : Ev.finalized f ∈ s.trace := by simpa using hx
      rcases hthr u f a b h1 with ⟨-, hf, -⟩ | ⟨-, h1⟩
      · have := hF.final f hx; rw [hf, hi] at this; exact nomatch this
      · exact ih.fin f hx u a b h1
    · intro k hk; exact (ih.left k hk).imp id (fun h => by simp [h])
    · intro f k hk
      have := ih.gone f k (by simpa using hk)
      simp [this]
    · exact ih.waits
    · exact ih.inits
  | notify t g since i v todo ht hv hi =>
    have hthr : ∀ u f a b, upd s.thr t (.notifying g since todo) u = .notifying f a b → ∃ b', s.thr u = .notifying f a b' ∧ ∀ x ∈ b, x ∈ b' := by
      intro u f a b h
      by_cases hut : u = t
      · subst hut; simp only [upd_same, Thr.notifying.injEq] at h; obtain ⟨rfl, rfl, rfl⟩ := h
        exact ⟨_, ht, fun x hx => List.mem_cons_of_mem _ hx⟩
      · simp only [upd_other _ _ hut] at h; exact ⟨b, h, fun x hx => hx⟩
    constructor
    · intro f k hk
      rcases ih.reg f k (by simpa using hk) with h | ⟨u, a, b, hu, hkb⟩ | h | h
      · exact .inl h
      · by_cases hut : u = t
        · subst hut
          rw [ht] at hu
          cases hu
          rcases List.mem_cons.1 hkb with rfl | hkb
          · exact .inr (.inr (.inl (by simp)))
          · exact .inr (.inl ⟨u, since, todo, by simp, hkb⟩)
        · exact .inr (.inl ⟨u, a, b, by simp only [upd_other _ _ hut]; exact hu, hkb⟩)
      · exact .inr (.inr (.inl (by simp [h])))
      · exact .inr (.inr (.inr (by simp [h])))
    · intro f k hk
      have : k ∈ (s.fut f).waiters ∨ pending s f k := by
        rcases hk with hk | ⟨u, a, b, hu, hkb⟩
        · exact .inl hk
        · obtain ⟨b', hu, hb⟩ := hthr u f a b hu
          exact .inr ⟨u, a, b', hu, hb k hkb⟩
      obtain ⟨h1, h2⟩ := ih.src f k this
      exact ⟨List.mem_cons_of_mem _ h1, h2⟩
    · intro u v f a b c d h1 h2
      obtain ⟨b', h1, -⟩ := hthr u f a b h1
      obtain ⟨d', h2, -⟩ := hthr v f c d h2
      exact ih.one u v f a b' c d' h1 h2
    · intro f hx u a b h1
      obtain ⟨b', h1, -⟩ := hthr u f a b h1
      exact ih.fin f (by simpa using hx) u a b' h1
    · exact hup
    · intro f k hk; exact List.mem_cons_of_mem _ (ih.gone f k (by simpa using hk))
    · refine ⟨ih.waits, ?_, ?_⟩
      · exact (hF.completed g).1 (hF.notifying t g _ _ ht)
      · exact (ih.src g i (.inr ⟨t, since, _, ht, List.mem_cons_self ..⟩)).1
    · exact ih.inits
  | gone t g since i todo ht hi =>
    have hthr : ∀ u f a b, upd s.thr t (.notifying g since todo) u = .notifying f a b → ∃ b', s.thr u = .notifying f a b' ∧ ∀ x ∈ b, x ∈ b' := by
      intro u f a b h
      by_cases hut : u = t
      · subst hut; simp only [upd_same, Thr.notifying.injEq] at h; obtain ⟨rfl, rfl, rfl⟩ := h
        exact ⟨_, ht, fun x hx => List.mem_cons_of_mem _ hx⟩
      · simp only [upd_other _ _ hut] at h; exact ⟨b, h, fun x hx => hx⟩
    constructor
    · intro f k hk
      rcases ih.reg f k (by simpa using hk) with h | ⟨u, a, b, hu, hkb⟩ | h | h
      · exact .inl h
      · by_cases hut : u = t
        · subst hut
          rw [ht] at hu
          cases hu
          rcases List.mem_cons.1 hkb with rfl | hkb
          · exact .inr (.inr (.inr (by simp)))
          · exact .inr (.inl ⟨u, since, todo, by simp, hkb⟩)
        · exact .inr (.inl ⟨u, a, b, by simp only [upd_other _ _ hut]; exact hu, hkb⟩)
      · exact .inr (.inr (.inl (by simp [h])))
      · exact .inr (.inr (.inr (by simp [h])))
    · intro f k hk
      have : k ∈ (s.fut f).waiters ∨ pending s f k := by
        rcases hk with hk | ⟨u, a, b, hu, hkb⟩
        · exact .inl hk
        · obtain ⟨b', hu, hb⟩ := hthr u f a b hu
          exact .inr ⟨u, a, b', hu, hb k hkb⟩
      obtain ⟨h1, h2⟩ := ih.src f k this
      exact ⟨List.mem_cons_of_mem _ h1, h2⟩
    · intro u v f a b c d h1 h2
      obtain ⟨b', h1, -⟩ := hthr u f a b h1
      obtain ⟨d', h2, -⟩ := hthr v f c d h2
      exact ih.one u v f a b' c d' h1 h2
    · intro f hx u a b h1
      obtain ⟨b', h1, -⟩ := hthr u f a b h1
      exact ih.fin f (by simpa using hx) u a b' h1
    · exact hup
    · intro f k hk
      rcases List.mem_cons.1 hk with hk | hk
      · cases hk
        have := (ih.src g i (.inr ⟨t, since, _, ht, List.mem_cons_self ..⟩)).2
        exact List.mem_cons_of_mem _ ((ih.left i this).resolve_left hi)
      · exact List.mem_cons_of_mem _ (ih.gone f k hk)
    · exact ih.waits
    · exact ih.inits
  | finalize t g since ht =>
    have hthr : ∀ u f a b, upd s.thr t .idle u = .notifying f a b → u ≠ t ∧ s.thr u = .notifying f a b := by
      intro u f a b h
      by_cases hut : u = t
      · subst hut; simp at h
      · simp only [upd_other _ _ hut] at h; exact ⟨hut, h⟩
    constructor
    · intro f k hk
      rcases ih.reg f k (by simpa using hk) with h | ⟨u, a, b, hu, hkb⟩ | h | h
      · exact .inl h
      · by_cases hut : u = t
        · subst hut
          rw [ht] at hu
          cases hu
          exact nomatch hkb
        · exact .inr (.inl ⟨u, a, b, by simp only [upd_other _ _ hut]; exact hu, hkb⟩)
      · exact .inr (.inr (.inl (by simp [h])))
      · exact .inr (.inr (.inr (by simp [h])))
    · intro f k hk
      have : k ∈ (s.fut f).waiters ∨ pending s f k := by
        rcases hk with hk | ⟨u, a, b, hu, hkb⟩
        · exact .inl hk
        · exact .inr ⟨u, a, b, (hthr u f a b hu).2, hkb⟩
      obtain ⟨h1, h2⟩ := ih.src f k this
      exact ⟨List.mem_cons_of_mem _ h1, h2⟩
    · intro u v f a b c d h1 h2; exact ih.one u v f a b c d (hthr u f a b h1).2 (hthr v f c d h2).2
    · intro f hx u a b h1
      obtain ⟨hne, h1⟩ := hthr u f a b h1
      rcases List.mem_cons.1 hx with hx | hx
      · cases hx; exact hne (ih.one u t g a b since [] h1 ht)
      · exact ih.fin f hx u a b h1
    · exact hup
    · intro f k hk; exact List.mem_cons_of_mem _ (ih.gone f k (by simpa using hk))
    · exact ih.waits
    · exact ih.inits
  | register j g hp hl hi =>
    have hr := (hI.current j).1 (by rw [hp]; rfl)
    have hw : ∀ f k, k ∈ (upd s.fut g { s.fut g with waiters := (s.fut g).waiters ++ [j] } f).waiters ↔ k ∈ (s.fut f).waiters ∨ (f = g ∧ k = j) := by
      intro f k
      by_cases h : f = g
      · subst h; simp
      · simp [upd_other _ _ h, h]
    constructor
    · intro f k hk
      simp only [hw]
      simp only [List.mem_cons, Ev.waits.injEq, reduceCtorEq, false_or] at hk
      rcases hk with hk | hk
      · exact .inl (.inr hk)
      · rcases ih.reg f k hk with h | h | h | h
        · exact .inl (.inl h)
        · exact .inr (.inl h)
        · exact .inr (.inr (.inl (by simp [h])))
        · exact .inr (.inr (.inr (by simp [h])))
    · intro f k hk
      simp only [hw] at hk
      rcases hk with (hk | ⟨rfl, rfl⟩) | hk
      · obtain ⟨h1, h2⟩ := ih.src f k (.inl hk)
        exact ⟨by simp [h1], h2⟩
      · exact ⟨by simp, hI.bound _ (hI.alive _ (.inl hr))⟩
      · obtain ⟨h1, h2⟩ := ih.src f k (.inr hk)
        exact ⟨by simp [h1], h2⟩
    · exact ih.one
    · intro f hx; exact ih.fin f (by simpa using hx)
    · intro k hk; exact (ih.left k hk).imp id (fun h => by simp [h])
    · intro f k hk
      have := ih.gone f k (by simpa using hk)
      simp [this]
    · refine ⟨ih.waits, ?_⟩
      rw [← hF.completed, hi]; exact fun h => nomatch h
    · exact ih.inits

theorem regInv {s} (h : Reachable s) : RegInv s := by
  induction h with
  | init => constructor <;> simp [waitsOk, initsOk, pending]
  | step a hr hs ih => exact regInv_step ih (futInv hr) (fibInv hr) (step_case hs)

end Verif.Fiber
