import Verif.Spec.Appointment
namespace Verif.Appoint

theorem place_cons_ne {e : Ev} {t : List Ev} {j : Nat} (h : e.who ≠ j) : place (e :: t) j = place t j := by
  unfold place
  rw [List.find?_cons_of_neg (by simpa using h)]

theorem place_self {e : Ev} {t : List Ev} {j : Nat} (h : e.who = j) : place (e :: t) j = (match e with | .enrolls _ f b => some (f, b) | _ => none) := by
  unfold place
  rw [List.find?_cons_of_pos (by simpa using h)]
  cases e <;> rfl

/-- Everything about a byte below the current one: it was found to be locked in this call. -/
def Tried (t : List Ev) (i f b : Nat) : Prop :=
  ∃ mid pre j, t = mid ++ .busy i f b :: pre ∧ (∀ e ∈ mid, e.who = i → ∃ x, e = .busy i f x) ∧ j ≠ i ∧ place pre j = some (f, b)

theorem Tried.cons {t : List Ev} {i f b : Nat} {e : Ev} (h : Tried t i f b) (he : e.who = i → ∃ x, e = .busy i f x) : Tried (e :: t) i f b := by
  obtain ⟨mid, pre, j, h1, h2, h3⟩ := h
  refine ⟨e :: mid, pre, j, by rw [h1]; rfl, ?_, h3⟩
  intro e' he'
  rcases List.mem_cons.1 he' with rfl | hm
  · exact he
  · exact h2 e' hm

/-- What is known about an acquisition. -/
def Fair (t : List Ev) : Prop := ∀ post i f b pre, t = post ++ .enrolls i f b :: pre → ¬ Taken pre f b ∧ ∀ b' < b, Tried pre i f b'

structure Inv (s : Sys) : Prop where
  locks : ∀ f b i, (f, b, i) ∈ s.locks ↔ place s.trace i = some (f, b)
  uniq : ∀ f b i j, (f, b, i) ∈ s.locks → (f, b, j) ∈ s.locks → i = j
  idle : ∀ i, (s.obj i).probe = none → (s.obj i).index = (match place s.trace i with | some (_, b) => (b : Int) | none => -1)
  fd : ∀ i, (s.obj i).probe = none → (s.obj i).fd = (place s.trace i).map Prod.fst
  busy : ∀ i f b, (s.obj i).probe = some (f, b) → (s.obj i).index = -1 ∧ (s.obj i).fd = none ∧ place s.trace i = none ∧ ∀ b' < b, Tried s.trace i f b'
  fair : Fair s.trace

theorem mem_close {i : Nat} {l : Nat × Nat × Nat} {ls : List (Nat × Nat × Nat)} : l ∈ close i ls ↔ l ∈ ls ∧ l.2.2 ≠ i := by
  unfold close; simp

theorem fair_cons {t : List Ev} {e : Ev} (h : Fair t) (he : ∀ i f b, e ≠ .enrolls i f b) : Fair (e :: t) := by
  intro post i f b pre hp
  cases post with
  | nil => exact absurd (List.cons.inj hp).1 (he _ _ _)
  | cons p ps => exact h ps i f b pre (List.cons.inj hp).2

/-- All actions by which an object gives up what it has. -/
theorem inv_release {s : Sys} (h : Inv s) (i : Nat) (o : Obj) (e : Ev) (he : e.who = i) (hn : ∀ j f b, e ≠ .enrolls j f b) (hfd : o.fd = none) (hix : o.index = -1)
    (hp : ∀ f b, o.probe = some (f, b) → b = 0) : Inv { obj := put s i o, locks := close i s.locks, trace := e :: s.trace } := by
  have hs : place (e :: s.trace) i = none := by
    rw [place_self he]
    cases e <;> first | rfl | exact absurd rfl (hn _ _ _)
  refine ⟨?_, ?_, ?_, ?_, ?_, fair_cons h.fair hn⟩
  · intro f b j
    simp only [mem_close]
    by_cases hj : j = i
    · subst hj; simp [hs]
    · rw [place_cons_ne (by rw [he]; exact fun x => hj x.symm), h.locks]; simp [hj]
  · intro f b j k hj hk
    exact h.uniq f b j k (mem_close.1 hj).1 (mem_close.1 hk).1
  · intro j hj
    simp only [put] at hj ⊢
    by_cases hji : j = i
    · subst hji; simp [hs, hix]
    · rw [if_neg hji] at hj ⊢
      rw [place_cons_ne (by rw [he]; exact fun x => hji x.symm)]; exact h.idle j hj
  · intro j hj
    simp only [put] at hj ⊢
    by_cases hji : j = i
    · subst hji; simp [hs, hfd]
    · rw [if_neg hji] at hj ⊢
      rw [place_cons_ne (by rw [he]; exact fun x => hji x.symm)]; exact h.fd j hj
  · intro j f b hj
    simp only [put] at hj ⊢
    by_cases hji : j = i
    · subst hji
      simp only [if_true] at hj ⊢
      have := hp f b hj; subst this
      exact ⟨hix, hfd, hs, fun b' hb => absurd hb (Nat.not_lt_zero _)⟩
    · rw [if_neg hji] at hj ⊢
      obtain ⟨h1, h2, h3, h4⟩ := h.busy j f b hj
      have hne : e.who ≠ j := by rw [he]; exact fun x => hji x.symm
      exact ⟨h1, h2, by rw [place_cons_ne hne]; exact h3, fun b' hb => (h4 b' hb).cons (fun x => absurd x hne)⟩

theorem inv_step {s s' : Sys} {a : Act} (h : Inv s) (hs : step s a = some s') : Inv s' := by
  cases a with
  | enroll i f =>
    simp only [step] at hs
    split at hs
    · exact nomatch hs
    · injection hs with hs; subst hs
      refine inv_release h i _ (.calls i f) rfl (fun _ _ _ x => nomatch x) rfl rfl ?_
      intro f' b' hp
      simp only [Option.some.injEq, Prod.mk.injEq] at hp
      exact hp.2.symm
  | error i =>
    simp only [step] at hs
    split at hs
    · exact nomatch hs
    · injection hs with hs; subst hs
      exact inv_release h i _ (.throws i) rfl (fun _ _ _ x => nomatch x) rfl rfl (fun _ _ x => nomatch x)
  | withdraw i =>
    simp only [step] at hs
    split at hs
    · exact nomatch hs
    · injection hs with hs; subst hs
      exact inv_release h i _ (.leaves i) rfl (fun _ _ _ x => nomatch x) rfl rfl (fun _ _ x => nomatch x)
  | die i =>
    simp only [step] at hs
    injection hs with hs; subst hs
    exact inv_release h i _ (.leaves i) rfl (fun _ _ _ x => nomatch x) rfl rfl (fun _ _ x => nomatch x)
  | lock i =>
    simp only [step] at hs
    split at hs
    · exact nomatch hs
    rename_i f b hpr
    obtain ⟨b1, b2, b3, b4⟩ := h.busy i f b hpr
    split at hs
    · rename_i hany
      injection hs with hs; subst hs
      have hme : place (.busy i f b :: s.trace) i = none := place_self rfl
      have hot : ∀ j, j ≠ i → place (.busy i f b :: s.trace) j = place s.trace j := fun j hj => place_cons_ne (fun x => hj x.symm)
      have hall : ∀ j, place (.busy i f b :: s.trace) j = place s.trace j := by
        intro j
        by_cases hj : j = i
        · subst hj; rw [hme, b3]
        · exact hot j hj
      have hholder : ∃ j, j ≠ i ∧ place s.trace j = some (f, b) := by
        rw [List.any_eq_true] at hany
        obtain ⟨⟨f', b', j⟩, hm, hc⟩ := hany
        simp only [ne_eq, decide_eq_true_eq] at hc
        obtain ⟨rfl, rfl, hj⟩ := hc
        exact ⟨j, hj, (h.locks _ _ _).1 hm⟩
      refine ⟨fun f' b' j => by rw [h.locks, hall], h.uniq, ?_, ?_, ?_, fair_cons h.fair (fun _ _ _ x => nomatch x)⟩
      · intro j hj
        rw [hall]
        simp only [put] at hj ⊢
        by_cases hji : j = i
        · subst hji; simp at hj
        · rw [if_neg hji] at hj ⊢; exact h.idle j hj
      · intro j hj
        rw [hall]
        simp only [put] at hj ⊢
        by_cases hji : j = i
        · subst hji; simp at hj
        · rw [if_neg hji] at hj ⊢; exact h.fd j hj
      · intro j f' b' hj
        rw [hall]
        simp only [put] at hj ⊢
        by_cases hji : j = i
        · subst hji
          simp only [if_true, Option.some.injEq, Prod.mk.injEq] at hj ⊢
          obtain ⟨rfl, rfl⟩ := hj
          refine ⟨b1, b2, b3, fun b' hb => ?_⟩
          rcases Nat.lt_succ_iff_lt_or_eq.1 hb with hb | rfl
          · exact (b4 b' hb).cons (fun _ => ⟨_, rfl⟩)
          · obtain ⟨k, hk, hp⟩ := hholder
            exact ⟨[], s.trace, k, rfl, (fun _ x => nomatch x), hk, hp⟩
        · rw [if_neg hji] at hj ⊢
          obtain ⟨h1, h2, h3, h4⟩ := h.busy j f' b' hj
          exact ⟨h1, h2, h3, fun b' hb => (h4 b' hb).cons (fun x => absurd x.symm hji)⟩
    · rename_i hany
      injection hs with hs; subst hs
      have hme : place (.enrolls i f b :: s.trace) i = some (f, b) := place_self rfl
      have hot : ∀ j, j ≠ i → place (.enrolls i f b :: s.trace) j = place s.trace j := fun j hj => place_cons_ne (fun x => hj x.symm)
      have hfree : ∀ j, (f, b, j) ∉ s.locks := by
        intro j hj
        by_cases hji : j = i
        · subst hji; rw [h.locks, b3] at hj; exact nomatch hj
        · exact hany (List.any_eq_true.2 ⟨_, hj, by simpa using hji⟩)
      have hni : ∀ f' b', (f', b', i) ∉ s.locks := fun f' b' hj => by rw [h.locks, b3] at hj; exact nomatch hj
      refine ⟨?_, ?_, ?_, ?_, ?_, ?_⟩
      · intro f' b' j
        simp only [List.mem_cons, Prod.mk.injEq]
        by_cases hji : j = i
        · subst hji
          rw [hme]; simp only [and_true, Option.some.injEq, Prod.mk.injEq]
          constructor
          · rintro (⟨rfl, rfl⟩ | hj)
            · exact ⟨rfl, rfl⟩
            · exact absurd hj (hni _ _)
          · rintro ⟨rfl, rfl⟩; exact .inl ⟨rfl, rfl⟩
        · rw [hot j hji, ← h.locks]; simp [hji]
      · intro f' b' j k hj hk
        rcases List.mem_cons.1 hj with e1 | e1 <;> rcases List.mem_cons.1 hk with e2 | e2
        · simp only [Prod.mk.injEq] at e1 e2; rw [e1.2.2, e2.2.2]
        · simp only [Prod.mk.injEq] at e1; obtain ⟨rfl, rfl, -⟩ := e1; exact absurd e2 (hfree _)
        · simp only [Prod.mk.injEq] at e2; obtain ⟨rfl, rfl, -⟩ := e2; exact absurd e1 (hfree _)
        · exact h.uniq _ _ _ _ e1 e2
      · intro j hj
        simp only [put] at hj ⊢
        by_cases hji : j = i
        · subst hji; simp [hme]
        · rw [if_neg hji] at hj ⊢; rw [hot j hji]; exact h.idle j hj
      · intro j hj
        simp only [put] at hj ⊢
        by_cases hji : j = i
        · subst hji; simp [hme]
        · rw [if_neg hji] at hj ⊢; rw [hot j hji]; exact h.fd j hj
      · intro j f' b' hj
        simp only [put] at hj ⊢
        by_cases hji : j = i
        · subst hji; simp at hj
        · rw [if_neg hji] at hj ⊢
          obtain ⟨h1, h2, h3, h4⟩ := h.busy j f' b' hj
          exact ⟨h1, h2, by rw [hot j hji]; exact h3, fun b' hb => (h4 b' hb).cons (fun x => absurd x.symm hji)⟩
      · intro post i' f' b' pre hp
        cases post with
        | nil =>
          rw [List.nil_append] at hp
          injection hp with hp1 hp2
          injection hp1 with e1 e2 e3
          subst e1 e2 e3 hp2
          exact ⟨fun ⟨j, hj⟩ => hfree j ((h.locks _ _ _).2 hj), b4⟩
        | cons p ps => exact h.fair ps i' f' b' pre (List.cons.inj hp).2

theorem inv {s : Sys} (h : Reachable s) : Inv s := by
  induction h with
  | init =>
    refine ⟨?_, ?_, ?_, ?_, ?_, ?_⟩
    · intro f b i; simp [place]
    · intro f b i j hi; exact nomatch hi
    · intro i _; simp [place]
    · intro i _; simp [place]
    · intro i f b h; exact nomatch h
    · intro post i f b pre hp; exact absurd hp (by simp)
  | step _ hs ih => exact inv_step ih hs

/-- The number of locks at or after a byte: this is how often an attempt to lock may fail. -/
def ahead (s : Sys) (i f b : Nat) : Nat := (s.locks.filter (fun l => l.1 = f ∧ b ≤ l.2.1 ∧ l.2.2 ≠ i)).length

theorem filter_lt {α : Type} (p q : α → Bool) (l : List α) (h : ∀ a ∈ l, p a → q a) (x : α) (hx : x ∈ l) (hq : q x = true) (hp : p x = false) :
    (l.filter p).length < (l.filter q).length := by
  induction l with
  | nil => exact nomatch hx
  | cons a as ih =>
    have hle : ∀ as : List α, (∀ a ∈ as, p a → q a) → (as.filter p).length ≤ (as.filter q).length := by
      intro as
      induction as with
      | nil => intro _; exact Nat.le_refl _
      | cons c cs ihc =>
        intro hc
        have := ihc (fun a ha => hc a (List.mem_cons_of_mem _ ha))
        have h1 := hc c (List.mem_cons_self)
        simp only [List.filter_cons]
        cases hpc : p c
        · cases hqc : q c <;> simp <;> omega
        · rw [h1 hpc]; simp; exact this
    have h1 := h a List.mem_cons_self
    have h2 := hle as (fun a ha => h a (List.mem_cons_of_mem _ ha))
    simp only [List.filter_cons]
    rcases List.mem_cons.1 hx with rfl | hx
    · rw [hq, hp]; simp; omega
    · have := ih (fun a ha => h a (List.mem_cons_of_mem _ ha)) hx
      cases hpc : p a
      · cases hqc : q a <;> simp <;> omega
      · rw [h1 hpc]; simp; exact this

theorem terminates (n : Nat) : ∀ (s : Sys) (i f b : Nat), (s.obj i).probe = some (f, b) → ahead s i f b ≤ n →
    ∃ k s' b', k ≤ n + 1 ∧ run s (List.replicate k (.lock i)) = some s' ∧ s'.trace.head? = some (.enrolls i f b') ∧ (s'.obj i).index = b' := by
  induction n with
  | zero =>
    intro s i f b hp hn
    by_cases hany : s.locks.any (fun l => l.1 = f ∧ l.2.1 = b ∧ l.2.2 ≠ i) = true
    · exfalso
      rw [List.any_eq_true] at hany
      obtain ⟨l, hl, hc⟩ := hany
      simp only [ne_eq, decide_eq_true_eq] at hc
      have : l ∈ s.locks.filter (fun l => l.1 = f ∧ b ≤ l.2.1 ∧ l.2.2 ≠ i) := List.mem_filter.2 ⟨hl, by simpa using ⟨hc.1, Nat.le_of_eq hc.2.1.symm, hc.2.2⟩⟩
      unfold ahead at hn
      have := List.length_pos_of_mem this
      omega
    · refine ⟨1, { obj := put s i { fd := some f, index := b }, locks := (f, b, i) :: s.locks, trace := .enrolls i f b :: s.trace }, b, Nat.le_refl _, ?_, ?_, ?_⟩
      · simp only [List.replicate_succ, List.replicate_zero, run, step, hp]
        rw [if_neg hany]
      · rfl
      · simp [put]
  | succ n ih =>
    intro s i f b hp hn
    by_cases hany : s.locks.any (fun l => l.1 = f ∧ l.2.1 = b ∧ l.2.2 ≠ i) = true
    · obtain ⟨l, hl, hc⟩ := List.any_eq_true.1 hany
      simp only [ne_eq, decide_eq_true_eq] at hc
      have hlt : ahead s i f (b + 1) < ahead s i f b := by
        unfold ahead
        refine filter_lt _ _ _ ?_ l hl ?_ ?_
        · intro a _ ha
          simp only [ne_eq, decide_eq_true_eq] at ha ⊢
          exact ⟨ha.1, by omega, ha.2.2⟩
        · simp only [ne_eq, decide_eq_true_eq]; exact ⟨hc.1, by omega, hc.2.2⟩
        · simp only [ne_eq, decide_eq_false_iff_not]; omega
      have := ih { s with obj := put s i { s.obj i with probe := some (f, b + 1) }, trace := .busy i f b :: s.trace } i f (b + 1) (by simp [put]) (by unfold ahead at hlt hn ⊢; simp only; omega)
      obtain ⟨k, s', b', hk, hr, h1, h2⟩ := this
      refine ⟨k + 1, s', b', by omega, ?_, h1, h2⟩
      simp only [List.replicate_succ, run, step, hp]
      rw [if_pos hany]
      exact hr
    · refine ⟨1, { obj := put s i { fd := some f, index := b }, locks := (f, b, i) :: s.locks, trace := .enrolls i f b :: s.trace }, b, by omega, ?_, ?_, ?_⟩
      · simp only [List.replicate_succ, List.replicate_zero, run, step, hp]
        rw [if_neg hany]
      · rfl
      · simp [put]

end Verif.Appoint
