import Verif.Proofs.FiberLife
namespace Verif.Fiber

/-- The fiber that has been taken and has not been suspended again. -/
def Pc.taken : Pc → Option Nat
  | .looking k _ | .running k | .yielding k _ => some k
  | _ => none

/-- How often fiber `b` may still be taken before a fiber whose check time is `c`. -/
def mu (warn fail c : Nat) (b : Fib) (taken : Bool) : Nat :=
  if c < b.check then 0
  else if b.state = .terminated then 1
  else if c < b.yield + fail then (c - b.check) / warn + 2
  else (c - min b.check (b.yield + fail)) / warn + (if taken then 3 else 4)

def total (s : Sys) (c : Nat) : Nat := (s.pq.map fun j => mu s.warn s.fail c (s.fib j) (s.pc.taken == some j)).sum

theorem sum_le {l : List Nat} {f g : Nat → Nat} (h : ∀ j ∈ l, g j ≤ f j) : (l.map g).sum ≤ (l.map f).sum := by
  induction l with
  | nil => exact Nat.le_refl _
  | cons a l ih =>
    simp only [List.map_cons, List.sum_cons]
    exact Nat.add_le_add (h a (List.mem_cons_self ..)) (ih fun j hj => h j (List.mem_cons_of_mem _ hj))

theorem sum_lt {l : List Nat} {f g : Nat → Nat} {k : Nat} (h : ∀ j ∈ l, g j ≤ f j) (hk : k ∈ l) (hlt : g k + 1 ≤ f k) : (l.map g).sum + 1 ≤ (l.map f).sum := by
  induction l with
  | nil => exact nomatch hk
  | cons a l ih =>
    simp only [List.map_cons, List.sum_cons]
    have h1 := h a (List.mem_cons_self ..)
    have h2 : ∀ j ∈ l, g j ≤ f j := fun j hj => h j (List.mem_cons_of_mem _ hj)
    rcases List.mem_cons.1 hk with rfl | hk
    · have := sum_le h2; omega
    · have := ih h2 hk; omega

theorem sum_filter {l : List Nat} {f : Nat → Nat} {k : Nat} (hk : k ∈ l) (h : 1 ≤ f k) : ((l.filter fun i => i != k).map f).sum + 1 ≤ (l.map f).sum := by
  have hle : ∀ l : List Nat, ((l.filter fun i => i != k).map f).sum ≤ (l.map f).sum := by
    intro l
    induction l with
    | nil => exact Nat.le_refl _
    | cons a l ih =>
      simp only [List.filter_cons]
      split
      · simp only [List.map_cons, List.sum_cons]; omega
      · simp only [List.map_cons, List.sum_cons]; omega
  induction l with
  | nil => exact nomatch hk
  | cons a l ih =>
    by_cases hak : a = k
    · subst hak
      have := hle l
      simp only [List.filter_cons, bne_self_eq_false, Bool.false_eq_true, if_false, List.map_cons, List.sum_cons]
      omega
    · have hk' : k ∈ l := (List.mem_cons.1 hk).resolve_left fun h => hak h.symm
      have := ih hk'
      have hb : (a != k) = true := by simpa using hak
      simp only [List.filter_cons, hb, if_true, List.map_cons, List.sum_cons]
      omega

theorem mu_pick {w f c : Nat} {b b' : Fib} (hw : 0 < w) (h1 : ¬ c < b.check) (h2 : b.state ≠ .terminated)
    (hc : b'.check = min (b.check + w) (b.yield + f)) (hy : b'.yield = b.yield) (hs : b'.state = b.state) : mu w f c b' true + 1 ≤ mu w f c b false := by
  unfold mu
  rw [hs, hy, if_neg h1, if_neg h2, if_neg h2]
  by_cases hcy : c < b.yield + f
  · rw [if_pos hcy, if_pos hcy]
    split
    · generalize (c - b.check) / w = q; omega
    · have : b'.check = b.check + w := by omega
      rw [this]
      have := Nat.div_eq_sub_div hw (show w ≤ c - b.check by omega)
      rw [Nat.sub_sub] at this
      omega
  · rw [if_neg hcy, if_neg hcy, if_neg (by omega)]
    have : (c - min b'.check (b.yield + f)) / w ≤ (c - min b.check (b.yield + f)) / w := Nat.div_le_div_right (by omega)
    simp only [if_true, Bool.false_eq_true, if_false]
    omega

theorem mu_yield {w f c : Nat} {b b' : Fib} {t : Bool} (h2 : b.state ≠ .terminated)
    (hc : b'.check = b.check) (hy : c < b'.yield + f) (hs : b'.state ≠ .terminated) : mu w f c b' t ≤ mu w f c b true := by
  unfold mu
  rw [hc, if_neg h2, if_neg hs, if_pos hy]
  split
  · exact Nat.le_refl _
  · split
    · exact Nat.le_refl _
    · have : (c - b.check) / w ≤ (c - min b.check (b.yield + f)) / w := Nat.div_le_div_right (by omega)
      simp only [if_true]
      omega

theorem mu_finish {w f c : Nat} {b b' : Fib} {t : Bool} (h2 : b.state ≠ .terminated)
    (hc : b'.check = b.check) (hs : b'.state = .terminated) : mu w f c b' t ≤ mu w f c b true := by
  unfold mu
  rw [hc, if_neg h2, if_pos hs]
  split
  · exact Nat.le_refl _
  · split <;> simp

structure Waiting (k c : Nat) (s : Sys) : Prop where
  clock : c ≤ s.clock
  mem : k ∈ s.pq
  check : (s.fib k).check = c
  look : ∀ j now, s.pc = .looking j now → c ≤ now
  choose : ∀ now, s.pc = .choosing now → c ≤ now
  noscan : ∀ i now, s.pc ≠ .scanning i now
  yield : ∀ j f, s.pc = .yielding j f → c ≤ (s.fib j).yield

/-- `s'` comes after `s` in a step in which nothing is taken out of the queue. -/
def Calm (c : Nat) (s s' : Sys) : Prop := (∃ tr, s'.trace = tr ++ s.trace ∧ tr.countP Ev.isChoice = 0) ∧ total s' c ≤ total s c

theorem due_of {s : Sys} {k c : Nat} (h : Waiting k c s) : due s s.clock = true := by
  unfold due
  exact List.any_eq_true.2 ⟨k, h.mem, decide_eq_true (h.check ▸ h.clock)⟩

/-- A step in which no fiber is changed but perhaps one, for which the measure does not grow. -/
theorem total_upd {s s' : Sys} {c : Nat} (hpq : s'.pq = s.pq) (hw : s'.warn = s.warn) (hf : s'.fail = s.fail)
    (h : ∀ j ∈ s.pq, mu s.warn s.fail c (s'.fib j) (s'.pc.taken == some j) ≤ mu s.warn s.fail c (s.fib j) (s.pc.taken == some j)) : total s' c ≤ total s c := by
  unfold total
  rw [hpq, hw, hf]
  exact sum_le h

theorem mu_taken (w f c : Nat) (b : Fib) (t : Bool) : mu w f c b true ≤ mu w f c b t := by
  unfold mu
  cases t <;> simp
  split <;> try exact Nat.le_refl _
  split <;> try exact Nat.le_refl _
  split <;> omega

theorem fair_step {s s' : Sys} {k c : Nat} (hw : 0 < s.warn) (hf : 0 < s.fail) (h : Waiting k c s) (hI : FibInv s) (hc : Case s s')
    (hl : ∀ v, s' = launch s v → c < v) :
    s'.trace = .picked k :: s.trace ∨ s'.trace = .removed k :: s.trace ∨
    (Waiting k c s' ∧ s'.warn = s.warn ∧ s'.fail = s.fail ∧ ∃ tr, s'.trace = tr ++ s.trace ∧ tr.countP Ev.isChoice + total s' c ≤ total s c) := by
  obtain ⟨h1, h2, h3, h4, h5, h6, h7⟩ := h
  cases hc with
  | tick d =>
    exact .inr (.inr ⟨⟨Nat.le_trans h1 (Nat.le_add_right _ _), h2, h3, h4, h5, h6, h7⟩, rfl, rfl, [], rfl, by simp [total]⟩)
  | nop => exact .inr (.inr ⟨⟨h1, h2, h3, h4, h5, h6, h7⟩, rfl, rfl, [], rfl, by simp⟩)
  | launch v hlk hv =>
    have hcv := hl v rfl
    refine .inr (.inr ⟨⟨h1, List.mem_append.2 (.inl h2), ?_, h4, h5, h6, ?_⟩, rfl, rfl, [_], rfl, ?_⟩)
    · show (upd (α := Fib) _ _ _ k).check = c
      have : k ≠ s.ids := fun h => Nat.lt_irrefl _ (hI.bound _ (by rw [← h]; exact h2))
      rw [upd_other _ _ this]; exact h3
    · intro j f hp
      have hr := (hI.current j).1 (by rw [show s.pc = _ from hp]; rfl)
      have : j ≠ s.ids := fun h => Nat.lt_irrefl _ (hI.bound _ (by rw [← h]; exact hI.alive _ (.inl hr)))
      show c ≤ (upd (α := Fib) _ _ _ j).yield
      rw [upd_other _ _ this]; exact h7 j f hp
    · simp only [total, launch, List.map_append, List.map_cons, List.map_nil, List.sum_append]
      have e1 : mu s.warn s.fail c (upd s.fib s.ids { async := v, check := v, yield := v } s.ids) (s.pc.taken == some s.ids) = 0 := by
        simp [mu, hcv]
      rw [e1]
      simp only [List.countP_cons, List.countP_nil, Ev.isChoice, Bool.false_eq_true, if_false, Nat.zero_add, List.sum_cons, List.sum_nil, Nat.add_zero]
      refine sum_le fun j hj => ?_
      have : j ≠ s.ids := fun h => Nat.lt_irrefl _ (hI.bound _ (by rw [← h]; exact hj))
      rw [upd_other _ _ this]
      exact Nat.le_refl _
  | abandon => exact .inr (.inr ⟨⟨h1, h2, h3, h4, h5, h6, h7⟩, rfl, rfl, [_], rfl, by simp [total, Ev.isChoice]⟩)
  | call => exact .inr (.inr ⟨⟨h1, h2, h3, h4, h5, h6, h7⟩, rfl, rfl, [_], rfl, by simp [total, Ev.isChoice]⟩)
  | escape => exact .inr (.inr ⟨⟨h1, h2, h3, h4, h5, h6, h7⟩, rfl, rfl, [_], rfl, by simp [total, Ev.isChoice]⟩)
  | complete => exact .inr (.inr ⟨⟨h1, h2, h3, h4, h5, h6, h7⟩, rfl, rfl, [_, _], rfl, by simp [total, Ev.isChoice]⟩)
  | gone => exact .inr (.inr ⟨⟨h1, h2, h3, h4, h5, h6, h7⟩, rfl, rfl, [_], rfl, by simp [total, Ev.isChoice]⟩)
  | finalize => exact .inr (.inr ⟨⟨h1, h2, h3, h4, h5, h6, h7⟩, rfl, rfl, [_], rfl, by simp [total, Ev.isChoice]⟩)
  | notify t f since i v todo ht hv hi =>
    refine .inr (.inr ⟨⟨h1, h2, ?_, h4, h5, h6, ?_⟩, rfl, rfl, [_], rfl, ?_⟩)
    · by_cases hk : k = i
      · subst hk; simpa using h3
      · simp only [upd_other _ _ hk]; exact h3
    · intro j g hp
      by_cases hk : j = i
      · subst hk; simpa using h7 j g hp
      · simp only [upd_other _ _ hk]; exact h7 j g hp
    · simp only [List.countP_cons, List.countP_nil, Ev.isChoice, Bool.false_eq_true, if_false, Nat.zero_add]
      refine total_upd rfl rfl rfl fun j hj => ?_
      by_cases hji : j = i
      · subst hji; simp [mu]
      · simp [upd_other _ _ hji]
  | choose hp hd =>
    refine .inr (.inr ⟨⟨h1, h2, h3, fun _ _ h => (nomatch h), fun n h => by cases h; exact h1, fun _ _ h => (nomatch h), fun _ _ h => (nomatch h)⟩, rfl, rfl, [], rfl, ?_⟩)
    simp [total, Pc.taken, hp]
  | startScan hp hd =>
    have := due_of ⟨h1, h2, h3, h4, h5, h6, h7⟩
    rw [hd] at this; exact nomatch this
  | scan i now j hp => exact absurd hp (h6 _ _)
  | endScan now hp => exact absurd hp (h6 _ _)
  | sleep now hp => exact absurd hp (h6 _ _)
  | remove j now hp hj hc hmin =>
    by_cases hjk : j = k
    · subst hjk; exact .inr (.inl rfl)
    · have hkj : k ≠ j := fun h => hjk h.symm
      refine .inr (.inr ⟨⟨h1, List.mem_filter.2 ⟨h2, by simpa using hkj⟩, h3, fun _ _ h => (nomatch h), fun _ h => (nomatch h), fun _ _ h => (nomatch h), fun _ _ h => (nomatch h)⟩, rfl, rfl, [_], rfl, ?_⟩)
      have e : s.pc.taken = none := by rw [hp]; rfl
      have hcj : ¬ c < (s.fib j).check := by have := hmin k h2; omega
      simp only [total, List.countP_cons, List.countP_nil, Ev.isChoice, if_true, e, Nat.zero_add]
      simp only [Pc.taken]
      rw [Nat.add_comm]
      refine sum_filter (f := fun j => mu s.warn s.fail c (s.fib j) (none == some j)) hj ?_
      simp only [mu, hcj, if_false]
      split
      · exact Nat.le_refl _
      · split
        · generalize (c - (s.fib j).check) / s.warn = q; omega
        · generalize (c - min (s.fib j).check ((s.fib j).yield + s.fail)) / s.warn = q
          split <;> omega
  | pick j now hp hj hmin hc next hn =>
    by_cases hjk : j = k
    · subst hjk; exact .inl rfl
    · have hkj : k ≠ j := fun h => hjk h.symm
      refine .inr (.inr ⟨⟨h1, h2, by simp only [upd_other _ _ hkj]; exact h3, fun _ n h => by cases h; exact h5 _ hp, fun _ h => (nomatch h), fun _ _ h => (nomatch h), fun _ _ h => (nomatch h)⟩, rfl, rfl, [_], rfl, ?_⟩)
      have e : s.pc.taken = none := by rw [hp]; rfl
      have hcj : ¬ c < (s.fib j).check := by have := hmin k h2; omega
      have hnt : ¬ (s.fib j).state = .terminated := fun h => hc (.inr h)
      simp only [total, List.countP_cons, List.countP_nil, Ev.isChoice, if_true, e, Nat.zero_add]
      simp only [Pc.taken]
      rw [Nat.add_comm]
      refine sum_lt (f := fun j => mu s.warn s.fail c (s.fib j) (none == some j)) (k := j) (fun i hi => ?_) hj ?_
      · by_cases hij : i = j
        · subst hij
          rw [upd_same, show (some i == some i) = true from beq_self_eq_true _, show ((none : Option Nat) == some i) = false from rfl]
          exact Nat.le_of_succ_le (mu_pick hw hcj hnt hn rfl rfl)
        · have : (some j == some i) = false := by simp; exact fun h => hij h.symm
          rw [upd_other _ _ hij, this]
          exact Nat.le_refl _
      · rw [upd_same, show (some j == some j) = true from beq_self_eq_true _, show ((none : Option Nat) == some j) = false from rfl]
        exact mu_pick hw hcj hnt hn rfl rfl
  | pass j now g hp hg ht hi =>
    refine .inr (.inr ⟨⟨h1, h2, h3, fun _ _ h => (nomatch h), fun _ h => (nomatch h), fun _ _ h => (nomatch h), fun _ _ h => (nomatch h)⟩, rfl, rfl, [], rfl, ?_⟩)
    simp only [List.countP_nil, Nat.zero_add]
    refine total_upd rfl rfl rfl fun i hi => ?_
    have hcn := h4 _ _ hp
    by_cases hij : i = j
    · subst hij
      have : c < (s.fib i).yield + s.fail := by omega
      simp [mu, this]
    · have : (some j == some i) = false := by simp; exact fun h => hij h.symm
      simp only [hp, Pc.taken, this]
      exact Nat.le_refl _
  | begin_ j now hp hst =>
    refine .inr (.inr ⟨⟨h1, h2, ?_, fun _ _ h => (nomatch h), fun _ h => (nomatch h), fun _ _ h => (nomatch h), fun _ _ h => (nomatch h)⟩, rfl, rfl, [_], rfl, ?_⟩)
    · by_cases hk : k = j
      · subst hk; simpa using h3
      · simp only [upd_other _ _ hk]; exact h3
    · simp only [List.countP_cons, List.countP_nil, Ev.isChoice, Bool.false_eq_true, if_false, Nat.zero_add]
      refine total_upd rfl rfl rfl fun i hi => ?_
      by_cases hij : i = j
      · subst hij; simp [mu, Pc.taken, hp, hst]
      · have : j ≠ i := fun h => hij h.symm
        simp [Pc.taken, hp, upd_other _ _ hij]
  | resume j now ok hp hst hff hok =>
    have hnt := (hI.looking _ _ hp).2
    refine .inr (.inr ⟨⟨h1, h2, ?_, fun _ _ h => (nomatch h), fun _ h => (nomatch h), fun _ _ h => (nomatch h), fun _ _ h => (nomatch h)⟩, rfl, rfl, [_], rfl, ?_⟩)
    · by_cases hk : k = j
      · subst hk; simpa using h3
      · simp only [upd_other _ _ hk]; exact h3
    · simp only [List.countP_cons, List.countP_nil, Ev.isChoice, Bool.false_eq_true, if_false, Nat.zero_add]
      refine total_upd rfl rfl rfl fun i hi => ?_
      by_cases hij : i = j
      · subst hij; simp [mu, Pc.taken, hp, hnt]
      · have : j ≠ i := fun h => hij h.symm
        simp [Pc.taken, hp, upd_other _ _ hij]
  | yieldOn j f hp =>
    have hr := (hI.current j).1 (by rw [hp]; rfl)
    refine .inr (.inr ⟨⟨h1, h2, ?_, fun _ _ h => (nomatch h), fun _ h => (nomatch h), fun _ _ h => (nomatch h), fun _ _ h => by cases h; simpa using h1⟩, rfl, rfl, [], rfl, ?_⟩)
    · by_cases hk : k = j
      · subst hk; simpa using h3
      · simp only [upd_other _ _ hk]; exact h3
    · simp only [List.countP_nil, Nat.zero_add]
      refine total_upd rfl rfl rfl fun i hi => ?_
      by_cases hij : i = j
      · subst hij
        have : c < s.clock + s.fail := by omega
        simp only [Pc.taken, hp, upd_same, beq_self_eq_true]
        exact mu_yield (by rw [hr]; decide) rfl this (by simp [hr])
      · have : j ≠ i := fun h => hij h.symm
        simp [Pc.taken, hp, upd_other _ _ hij]
  | yield j hp =>
    have hr := (hI.current j).1 (by rw [hp]; rfl)
    refine .inr (.inr ⟨⟨h1, h2, ?_, fun _ _ h => (nomatch h), fun _ h => (nomatch h), fun _ _ h => (nomatch h), fun _ _ h => (nomatch h)⟩, rfl, rfl, [_], rfl, ?_⟩)
    · by_cases hk : k = j
      · subst hk; simpa using h3
      · simp only [upd_other _ _ hk]; exact h3
    · simp only [List.countP_cons, List.countP_nil, Ev.isChoice, Bool.false_eq_true, if_false, Nat.zero_add]
      refine total_upd rfl rfl rfl fun i hi => ?_
      by_cases hij : i = j
      · subst hij
        have : c < s.clock + s.fail := by omega
        simp only [Pc.taken, hp, upd_same, beq_self_eq_true]
        exact mu_yield (by rw [hr]; decide) rfl this (by simp)
      · have : (some j == some i) = false := by simp; exact fun h => hij h.symm
        simp only [hp, Pc.taken, this, upd_other _ _ hij]
        exact Nat.le_refl _
  | noWait j f hp hl hi =>
    refine .inr (.inr ⟨⟨h1, h2, h3, fun _ _ h => (nomatch h), fun _ h => (nomatch h), fun _ _ h => (nomatch h), fun _ _ h => (nomatch h)⟩, rfl, rfl, [_], rfl, ?_⟩)
    simp only [List.countP_cons, List.countP_nil, Ev.isChoice, Bool.false_eq_true, if_false, Nat.zero_add]
    refine total_upd rfl rfl rfl fun i hi => ?_
    simp [Pc.taken, hp]
  | register j f hp hl hi =>
    have hr := (hI.current j).1 (by rw [hp]; rfl)
    refine .inr (.inr ⟨⟨h1, h2, ?_, fun _ _ h => (nomatch h), fun _ h => (nomatch h), fun _ _ h => (nomatch h), fun _ _ h => (nomatch h)⟩, rfl, rfl, [_, _], rfl, ?_⟩)
    · by_cases hk : k = j
      · subst hk; simpa using h3
      · simp only [upd_other _ _ hk]; exact h3
    · simp only [List.countP_cons, List.countP_nil, Ev.isChoice, Bool.false_eq_true, if_false, Nat.zero_add]
      refine total_upd rfl rfl rfl fun i hi => ?_
      by_cases hij : i = j
      · subst hij
        have := h7 _ _ hp
        simp only [Pc.taken, hp, upd_same, beq_self_eq_true]
        exact mu_yield (by rw [hr]; decide) rfl (show c < (s.fib i).yield + s.fail by omega) (by simp)
      · have : (some j == some i) = false := by simp; exact fun h => hij h.symm
        simp only [hp, Pc.taken, this, upd_other _ _ hij]
        exact Nat.le_refl _
  | finish j hp =>
    have hr := (hI.current j).1 (by rw [hp]; rfl)
    refine .inr (.inr ⟨⟨h1, h2, ?_, fun _ _ h => (nomatch h), fun _ h => (nomatch h), fun _ _ h => (nomatch h), fun _ _ h => (nomatch h)⟩, rfl, rfl, [_], rfl, ?_⟩)
    · by_cases hk : k = j
      · subst hk; simpa using h3
      · simp only [upd_other _ _ hk]; exact h3
    · simp only [List.countP_cons, List.countP_nil, Ev.isChoice, Bool.false_eq_true, if_false, Nat.zero_add]
      refine total_upd rfl rfl rfl fun i hi => ?_
      by_cases hij : i = j
      · subst hij
        simp only [Pc.taken, hp, upd_same, beq_self_eq_true]
        exact mu_finish (by rw [hr]; decide) rfl rfl
      · have : (some j == some i) = false := by simp; exact fun h => hij h.symm
        simp only [hp, Pc.taken, this, upd_other _ _ hij]
        exact Nat.le_refl _

theorem total_le_backlog (s : Sys) (c : Nat) : total s c ≤ backlog s c := by
  unfold total backlog
  refine sum_le fun j hj => ?_
  unfold mu
  split
  · exact Nat.le_refl _
  · split
    · exact Nat.le_add_left 1 _
    · have : (c - (s.fib j).check) / s.warn ≤ (c - min (s.fib j).check ((s.fib j).yield + s.fail)) / s.warn := Nat.div_le_div_right (by omega)
      split
      · omega
      · split
        · exact Nat.add_le_add_left (by decide) _
        · exact Nat.le_refl _

theorem step_ids {s a s'} (h : step s a = some s') (ha : ∀ v, a ≠ .launch v) : s'.ids = s.ids := by
  cases a with
  | launch v => exact absurd rfl (ha v)
  | exit t e =>
    simp only [step] at h
    split at h
    · cases h; cases e <;> rfl
    · exact nomatch h
  | notify t v =>
    simp only [step] at h
    split at h
    · split at h
      · cases h; unfold notify; split <;> rfl
      · exact nomatch h
    · exact nomatch h
  | pick k =>
    simp only [step] at h
    split at h
    · split at h
      · cases h; unfold pick; dsimp only; split <;> rfl
      · exact nomatch h
    · exact nomatch h
  | look =>
    have he : ∀ k now, (enterFiber s k now).ids = s.ids := by
      intro k now; unfold enterFiber; dsimp only; split <;> rfl
    simp only [step] at h
    split at h
    · cases h
      unfold look
      split
      · exact he _ _
      · split
        · rfl
        · exact he _ _
    · exact nomatch h
  | yield f =>
    simp only [step] at h
    split at h
    · cases h; unfold yield; split <;> rfl
    · exact nomatch h
  | register =>
    simp only [step] at h
    split at h
    · split at h
      · exact nomatch h
      · cases h; unfold register; split <;> rfl
    · exact nomatch h
  | _ =>
    simp only [step] at h
    repeat' split at h
    all_goals first | (cases h; rfl) | (cases h; done)

theorem fair_run {k c : Nat} (acts : List Act) : ∀ {s s' : Sys}, 0 < s.warn → 0 < s.fail → Reachable s → Waiting k c s → run s acts = some s' →
    (∀ v, Act.launch v ∈ acts → c < v) →
    ∃ new, s'.trace = new ++ s.trace ∧ (Ev.picked k ∈ new ∨ Ev.removed k ∈ new ∨ new.countP Ev.isChoice + total s' c ≤ total s c) := by
  have hmono : ∀ (acts : List Act) {s s' : Sys}, run s acts = some s' → ∃ new, s'.trace = new ++ s.trace := by
    intro acts
    induction acts with
    | nil => intro s s' h; cases h; exact ⟨[], rfl⟩
    | cons a acts ih =>
      intro s s' h
      simp only [run] at h
      cases hs : step s a with
      | none => rw [hs] at h; exact nomatch h
      | some s1 =>
        rw [hs] at h
        obtain ⟨new, hn⟩ := ih (show run s1 acts = some s' from h)
        have : ∃ tr, s1.trace = tr ++ s.trace := by
          cases step_case hs <;> first | exact ⟨[], rfl⟩ | exact ⟨[_], rfl⟩ | exact ⟨[_, _], rfl⟩
        obtain ⟨tr, ht⟩ := this
        exact ⟨new ++ tr, by rw [hn, ht, List.append_assoc]⟩
  induction acts with
  | nil => intro s s' _ _ _ _ h _; cases h; exact ⟨[], rfl, .inr (.inr (by simp))⟩
  | cons a acts ih =>
    intro s s' hw hf hr hwt h hl
    simp only [run] at h
    cases hs : step s a with
    | none => rw [hs] at h; exact nomatch h
    | some s1 =>
      rw [hs] at h
      have h : run s1 acts = some s' := h
      obtain ⟨new', hn'⟩ := hmono acts h
      have hlv : ∀ v, s1 = launch s v → c < v := by
        intro v hv
        cases a with
        | launch u =>
          have hcu := hl u (List.mem_cons_self ..)
          simp only [step] at hs
          split at hs
          · cases hs
            have := congrArg (fun t => (t.fib s.ids).check) hv
            simp [launch] at this
            exact this ▸ hcu
          · exact nomatch hs
        | _ =>
          have h1 := step_ids hs (fun v h => nomatch h)
          rw [hv] at h1
          exact absurd h1 (Nat.succ_ne_self _)
      rcases fair_step hw hf hwt (fibInv hr) (step_case hs) hlv with h1 | h1 | ⟨h1, h2, h3, tr, ht, hle⟩
      · exact ⟨new' ++ [.picked k], by rw [hn', h1]; simp, .inl (by simp)⟩
      · exact ⟨new' ++ [.removed k], by rw [hn', h1]; simp, .inr (.inl (by simp))⟩
      · obtain ⟨new, hn, hcase⟩ := ih (h2 ▸ hw) (h3 ▸ hf) (.step a hr hs) h1 h (fun v hv => hl v (List.mem_cons_of_mem _ hv))
        refine ⟨new ++ tr, by rw [hn, ht, List.append_assoc], ?_⟩
        rcases hcase with hc | hc | hc
        · exact .inl (List.mem_append.2 (.inl hc))
        · exact .inr (.inl (List.mem_append.2 (.inl hc)))
        · refine .inr (.inr ?_)
          rw [List.countP_append]; omega

end Verif.Fiber
