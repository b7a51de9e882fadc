import Verif.Spec.Timer
import Verif.Proofs.Heap
import Verif.Spec.Heap
/-! # Proofs about the queue of timers -/
namespace Verif.TimerHeap
open Verif.Heap Verif.Timer

structure Inv (s : Sys) : Prop where
  heap : isHeap Entry.next s.pq = true
  empty : ∀ late, s.thread = .asleep none late → s.pq = []
  until_ : ∀ d late, s.thread = .asleep (some d) late → ∀ x ∈ s.pq, d - late ≤ x.next

theorem inv_init (t : Int) : Inv { clock := t } := ⟨rfl, by simp, by simp⟩

/-- `push_heap()` is defined, and what it does. -/
theorem push_cases {s : Sys} {arr : List Entry} {e : Entry} {l : List Entry} (h : isHeap Entry.next arr = true) :
    push s (arr ++ [e]) l = .no ∨ (push s (arr ++ [e]) l = .ok { s with pq := l } ∧ l.Perm (arr ++ [e]) ∧ isHeap Entry.next l = true) := by
  unfold push
  rw [if_neg (by simp [mayPush, h])]
  split
  · rename_i ha; exact .inr ⟨rfl, arranged_iff.mp ha⟩
  · exact .inl rfl

/-- The result of `insert_weak()`. -/
theorem insert_cases {s : Sys} (h : isHeap Entry.next s.pq = true) (timer : Nat) (delay period ago : Int) (l : List Entry) :
    insert s timer delay period ago l = .no ∨
    (insert s timer delay period ago l = .ok s ∧ ago ≥ 0 ∧ timer ∉ s.dead ∧ (delay < 0 ∨ delay > limit ∨ period < 0 ∨ period > limit)) ∨
    (∃ s', insert s timer delay period ago l = .ok s' ∧ ago ≥ 0 ∧ timer ∉ s.dead ∧ ¬ (delay < 0 ∨ delay > limit) ∧ ¬ (period < 0 ∨ period > limit) ∧
      s' = { s with pq := l, ids := s.ids + 1, thread := match s.thread with | .asleep _ _ => .entering | t => t, trace := .inserted s.ids timer (s.clock - ago) delay period :: s.trace } ∧
      l.Perm (s.pq ++ [{ id := s.ids, timer := timer, next := s.clock - ago + delay, period := period }]) ∧ isHeap Entry.next l = true) := by
  unfold insert
  by_cases h1 : ago < 0
  · rw [if_pos h1]; exact .inl rfl
  rw [if_neg h1]
  by_cases h2 : timer ∈ s.dead
  · rw [if_pos h2]; exact .inl rfl
  rw [if_neg h2]
  by_cases h3 : delay < 0 ∨ delay > limit
  · rw [if_pos h3]; exact .inr (.inl ⟨rfl, by omega, h2, by omega⟩)
  rw [if_neg h3]
  by_cases h4 : period < 0 ∨ period > limit
  · rw [if_pos h4]; exact .inr (.inl ⟨rfl, by omega, h2, by omega⟩)
  rw [if_neg h4]
  simp only []
  rcases push_cases (e := { id := s.ids, timer := timer, next := s.clock - ago + delay, period := period }) (l := l) h with h5 | ⟨h5, h6, h7⟩
  · rw [h5]; exact .inl rfl
  · rw [h5]; exact .inr (.inr ⟨_, rfl, by omega, h2, h3, h4, rfl, h6, h7⟩)

/-- The result of `thread_loop()`. -/
theorem loop_cases {s : Sys} (h : isHeap Entry.next s.pq = true) (l l' : List Entry) (late : Int) :
    loop s l l' late = .no ∨
    (s.pq = [] ∧ loop s l l' late = .ok { s with thread := .asleep none 0 }) ∨
    (∃ e ∈ s.pq, (∀ x ∈ s.pq, e.next ≤ x.next) ∧
      ((s.clock < e.next ∧ late ≥ 0 ∧ loop s l l' late = .ok { s with clock := s.clock + late, thread := .asleep (some (e.next + late)) late }) ∨
       (e.next ≤ s.clock ∧ ∃ l0, (l0 ++ [e]).Perm s.pq ∧ isHeap Entry.next l0 = true ∧
        ((e.timer ∈ s.dead ∧ loop s l l' late = .ok { s with pq := l0 }) ∨
         (e.timer ∉ s.dead ∧ e.period ≠ 0 ∧ l'.Perm (l0 ++ [{ e with next := e.next + e.period }]) ∧ isHeap Entry.next l' = true ∧
           loop s l l' late = .ok { s with pq := l', thread := .calling e, trace := .taken e.id e.timer e.next s.clock :: s.trace }) ∨
         (e.timer ∉ s.dead ∧ e.period = 0 ∧ loop s l l' late = .ok { s with pq := l0, thread := .calling e, trace := .taken e.id e.timer e.next s.clock :: s.trace }))))) := by
  unfold loop
  cases hpq : s.pq with
  | nil => exact .inr (.inl ⟨rfl, rfl⟩)
  | cons front t =>
    rw [hpq] at h
    have hf := head_least h
    simp only []
    by_cases h1 : s.clock < front.next
    · rw [if_pos h1]
      by_cases h2 : late < 0
      · rw [if_pos h2]; exact .inl rfl
      · rw [if_neg h2]
        refine .inr (.inr ⟨front, by simp, hf, .inl ⟨h1, by omega, ?_⟩⟩)
        rw [show front.next - s.clock + (s.clock + late) = front.next + late by omega]
    rw [if_neg h1, if_neg (by simp [mayPop, h])]
    by_cases h2 : popped Entry.next (front :: t) l = true
    · rw [if_neg (by simp [h2])]
      cases hl : l.getLast? with
      | none =>
        rw [popped_iff, hl] at h2
        simp at h2
      | some e =>
        obtain ⟨p1, p2, p3, p4, p5⟩ := popped_last h h2 hl
        simp only [List.head?_cons, Option.some.injEq] at p3
        subst p3
        simp only []
        by_cases h3 : front.timer ∈ s.dead
        · rw [if_pos h3]
          exact .inr (.inr ⟨front, by simp, hf, .inr ⟨by omega, _, p2, p5, .inl ⟨h3, rfl⟩⟩⟩)
        rw [if_neg h3]
        by_cases h4 : front.period ≠ 0
        · rw [if_pos h4]
          rcases push_cases (e := { front with next := front.next + front.period }) (l := l') (s := { s with thread := .calling front, trace := .taken front.id front.timer front.next s.clock :: s.trace }) p5 with h5 | ⟨h5, h6, h7⟩
          · simp only [hpq] at h5; rw [h5]; exact .inl rfl
          · refine .inr (.inr ⟨front, by simp, hf, .inr ⟨by omega, _, p2, p5, .inr (.inl ⟨h3, h4, h6, h7, ?_⟩)⟩⟩)
            simp only [hpq] at h5; rw [h5]
        · rw [if_neg h4]
          exact .inr (.inr ⟨front, by simp, hf, .inr ⟨by omega, _, p2, p5, .inr (.inr ⟨h3, by omega, rfl⟩)⟩⟩)
    · rw [if_pos (by simpa using h2)]; exact .inl rfl

theorem step_inv {s : Sys} (h : Inv s) (a : Act) : step s a ≠ .undefined ∧ ∀ s', step s a = .ok s' → Inv s' := by
  cases a with
  | pass d =>
    simp only [step]
    split
    · exact ⟨by simp, by rintro s' ⟨⟩; exact ⟨h.heap, h.empty, h.until_⟩⟩
    · exact ⟨by simp, by rintro s' ⟨⟩⟩
  | insert timer delay period ago l =>
    simp only [step]
    rcases insert_cases h.heap timer delay period ago l with e | ⟨e, -⟩ | ⟨s', e, -, -, -, -, rfl, e2, e3⟩
    · rw [e]; exact ⟨by simp, by rintro s' ⟨⟩⟩
    · rw [e]; exact ⟨by simp, by rintro s' ⟨⟩; exact h⟩
    · rw [e]
      refine ⟨by simp, ?_⟩
      rintro s' ⟨⟩
      refine ⟨e3, ?_, ?_⟩
      · intro late ht; simp only at ht; split at ht
        · cases ht
        · rename_i hn; exact absurd ht (hn _ _)
      · intro d late ht; simp only at ht; split at ht
        · cases ht
        · rename_i hn; exact absurd ht (hn _ _)
  | release timer => exact ⟨by simp [step], by rintro s' ⟨⟩; exact ⟨h.heap, h.empty, h.until_⟩⟩
  | loop l l' late =>
    simp only [step]
    split
    · rcases loop_cases h.heap l l' late with e | ⟨e1, e⟩ | ⟨x, -, hx, ⟨-, -, e⟩ | ⟨-, l0, -, e2, ⟨-, e⟩ | ⟨-, -, -, e3, e⟩ | ⟨-, -, e⟩⟩⟩
      · rw [e]; exact ⟨by simp, by rintro s' ⟨⟩⟩
      · rw [e]; refine ⟨by simp, ?_⟩; rintro s' ⟨⟩; exact ⟨h.heap, fun _ _ => e1, by simp⟩
      · rw [e]; refine ⟨by simp, ?_⟩; rintro s' ⟨⟩
        refine ⟨h.heap, by simp, ?_⟩
        intro d lt ht y hy
        simp only [Thread.asleep.injEq, Option.some.injEq] at ht
        obtain ⟨rfl, rfl⟩ := ht
        have := hx y hy
        omega
      · rename_i ht
        rw [e]; refine ⟨by simp, ?_⟩; rintro s' ⟨⟩
        exact ⟨e2, by simp [ht], by simp [ht]⟩
      · rw [e]; refine ⟨by simp, ?_⟩; rintro s' ⟨⟩; exact ⟨e3, by simp, by simp⟩
      · rw [e]; refine ⟨by simp, ?_⟩; rintro s' ⟨⟩; exact ⟨e2, by simp, by simp⟩
    · exact ⟨by simp, by rintro s' ⟨⟩⟩
  | wake =>
    simp only [step]
    split
    · exact ⟨by simp, by rintro s' ⟨⟩; exact ⟨h.heap, by simp, by simp⟩⟩
    · exact ⟨by simp, by rintro s' ⟨⟩⟩
  | call =>
    simp only [step]
    split
    · exact ⟨by simp, by rintro s' ⟨⟩; exact ⟨h.heap, by simp, by simp⟩⟩
    · exact ⟨by simp, by rintro s' ⟨⟩⟩

theorem run_inv {s : Sys} (h : Inv s) (as : List Act) : run s as ≠ .undefined ∧ ∀ s', run s as = .ok s' → Inv s' := by
  induction as generalizing s with
  | nil => exact ⟨by simp [run], by rintro s' ⟨⟩; exact h⟩
  | cons a as ih =>
    simp only [run]
    obtain ⟨h1, h2⟩ := step_inv h a
    cases hs : step s a with
    | no => exact ⟨by simp, by rintro s' ⟨⟩⟩
    | undefined => exact absurd hs h1
    | ok s1 => exact ih (h2 s1 hs)

/-! ## Refinement -/

structure Rel (s : Sys) (t : Timer.Sys) : Prop where
  clock : t.clock = s.clock
  pq : t.pq.Perm s.pq
  dead : t.dead = s.dead
  current : ∀ e, t.current = some e ↔ s.thread = .calling e
  ids : t.ids = s.ids
  trace : t.trace = s.trace

theorem erase_perm {l : List α} {k : Nat} {e : α} {l0 : List α} (hk : l[k]? = some e) (h : (l0 ++ [e]).Perm l) : (l.eraseIdx k).Perm l0 := by
  obtain ⟨h1, h2⟩ := List.getElem?_eq_some_iff.mp hk
  have : l.Perm (e :: l.eraseIdx k) := by
    have h3 : l = l.take k ++ e :: l.drop (k + 1) := by
      conv => lhs; rw [← List.take_append_drop k l, List.drop_eq_getElem_cons h1, h2]
    rw [List.eraseIdx_eq_take_drop_succ]
    conv => lhs; rw [h3]
    exact List.perm_middle
  have h3 := (h.trans this)
  have h4 : (e :: l0).Perm (e :: l.eraseIdx k) := (List.perm_append_comm (l₁ := [e]) (l₂ := l0)).trans h3
  exact ((List.perm_cons e).mp h4).symm

theorem refine_step {s s' : Sys} {t : Timer.Sys} (h : Inv s) (r : Rel s t) (ht : Timer.Reachable t) (a : Act) (hs : step s a = .ok s') : ∃ t', Timer.Reachable t' ∧ Rel s' t' := by
  cases a with
  | pass d =>
    simp only [step] at hs
    split at hs
    · rename_i hd; cases hs
      exact ⟨{ t with clock := t.clock + d }, .step (.pass d) ht (by simp only [Timer.step, if_pos hd]), ⟨by simp [r.clock], r.pq, r.dead, r.current, r.ids, r.trace⟩⟩
    · cases hs
  | insert timer delay period ago l =>
    simp only [step] at hs
    rcases insert_cases h.heap timer delay period ago l with e | ⟨e, -⟩ | ⟨s1, e, h1, h2, h3, h4, rfl, e2, e3⟩
    · rw [e] at hs; cases hs
    · rw [e] at hs; cases hs; exact ⟨t, ht, r⟩
    · rw [e] at hs; cases hs
      refine ⟨{ t with pq := t.pq ++ [{ id := t.ids, timer := timer, next := t.clock - ago + delay, period := period }], ids := t.ids + 1, trace := .inserted t.ids timer (t.clock - ago) delay period :: t.trace }, .step (.insert timer delay period ago) ht (by simp only [Timer.step]; rw [if_neg (by omega), if_neg (by rw [r.dead]; exact h2), if_neg h3, if_neg h4]), ⟨r.clock, ?_, r.dead, ?_, by simp [r.ids], by simp [r.ids, r.clock, r.trace]⟩⟩
      · rw [r.ids, r.clock]; exact (r.pq.append_right _).trans e2.symm
      · intro e; simp only [r.current]
        cases s.thread <;> simp
  | release timer => cases hs; exact ⟨{ t with dead := timer :: t.dead, trace := .released timer :: t.trace }, .step (.release timer) ht rfl, ⟨r.clock, r.pq, by simp [r.dead], r.current, r.ids, by simp [r.trace]⟩⟩
  | loop l l' late =>
    simp only [step] at hs
    split at hs
    · rename_i hth
      have hcur : t.current = none := by
        cases hc : t.current with
        | none => rfl
        | some e => have := (r.current e).mp hc; rw [hth] at this; cases this
      rcases loop_cases h.heap l l' late with e | ⟨e1, e⟩ | ⟨x, hx0, hx, ⟨hlt, hlate, e⟩ | ⟨hle, l0, hp, e2, hr⟩⟩
      · rw [e] at hs; cases hs
      · rw [e] at hs; cases hs
        exact ⟨t, ht, ⟨r.clock, r.pq, r.dead, by simp [hcur], r.ids, r.trace⟩⟩
      · rw [e] at hs; cases hs
        exact ⟨{ t with clock := t.clock + late }, .step (.pass late) ht (by simp only [Timer.step, if_pos hlate]), ⟨by simp [r.clock], r.pq, r.dead, by simp [hcur], r.ids, r.trace⟩⟩
      · obtain ⟨k, hk, hkx⟩ := List.getElem_of_mem (r.pq.mem_iff.mpr hx0)
        have hk' : t.pq[k]? = some x := by rw [List.getElem?_eq_getElem hk, hkx]
        have hleast : Timer.least t.pq x = true := by
          simp only [Timer.least, List.all_eq_true, decide_eq_true_eq]
          intro y hy; exact hx y (r.pq.mem_iff.mp hy)
        have her := erase_perm hk' (hp.trans r.pq.symm)
        rcases hr with ⟨hd, e⟩ | ⟨hd, hper, hp2, e3, e⟩ | ⟨hd, hper, e⟩
        · rw [e] at hs; cases hs
          refine ⟨{ t with pq := t.pq.eraseIdx k }, .step (.loop k) ht (by simp only [Timer.step, hcur, Option.isSome_none, Bool.false_eq_true, if_false, hk', hleast, if_true]; rw [if_neg (by rw [r.clock]; omega), if_pos (by rw [r.dead]; exact hd)]),
            ⟨r.clock, her, r.dead, by simp [hcur, hth], r.ids, r.trace⟩⟩
        · rw [e] at hs; cases hs
          refine ⟨{ t with pq := t.pq.eraseIdx k ++ [{ x with next := x.next + x.period }], current := some x, trace := .taken x.id x.timer x.next t.clock :: t.trace }, .step (.loop k) ht (by simp only [Timer.step, hcur, Option.isSome_none, Bool.false_eq_true, if_false, hk', hleast, if_true]; rw [if_neg (by rw [r.clock]; omega), if_neg (by rw [r.dead]; exact hd), if_pos hper]),
            ⟨r.clock, (her.append_right _).trans hp2.symm, r.dead, ?_, r.ids, by simp [r.clock, r.trace]⟩⟩
          intro y; simp
        · rw [e] at hs; cases hs
          refine ⟨{ t with pq := t.pq.eraseIdx k, current := some x, trace := .taken x.id x.timer x.next t.clock :: t.trace }, .step (.loop k) ht (by simp only [Timer.step, hcur, Option.isSome_none, Bool.false_eq_true, if_false, hk', hleast, if_true]; rw [if_neg (by rw [r.clock]; omega), if_neg (by rw [r.dead]; exact hd), if_neg (by simp [hper])]),
            ⟨r.clock, her, r.dead, ?_, r.ids, by simp [r.clock, r.trace]⟩⟩
          intro y; simp
    · cases hs
  | wake =>
    simp only [step] at hs
    split at hs
    · rename_i hth; cases hs
      exact ⟨t, ht, ⟨r.clock, r.pq, r.dead, by intro e; rw [r.current]; simp [hth], r.ids, r.trace⟩⟩
    · cases hs
  | call =>
    simp only [step] at hs
    split at hs
    · rename_i e hth; cases hs
      have hc := (r.current e).mpr hth
      exact ⟨{ t with current := none, trace := .tick e.id e.timer e.next t.clock :: t.trace }, .step .call ht (by simp only [Timer.step, hc]), ⟨r.clock, r.pq, r.dead, by simp, r.ids, by simp [r.clock, r.trace]⟩⟩
    · cases hs

theorem refine_run {s s' : Sys} {t : Timer.Sys} (h : Inv s) (r : Rel s t) (ht : Timer.Reachable t) (as : List Act) (hs : run s as = .ok s') : ∃ t', Timer.Reachable t' ∧ Rel s' t' := by
  induction as generalizing s t with
  | nil => cases hs; exact ⟨t, ht, r⟩
  | cons a as ih =>
    simp only [run] at hs
    cases h1 : step s a with
    | no => rw [h1] at hs; cases hs
    | undefined => rw [h1] at hs; cases hs
    | ok s1 =>
      rw [h1] at hs
      obtain ⟨t1, ht1, r1⟩ := refine_step h r ht a h1
      exact ih ((step_inv h a).2 s1 h1) r1 ht1 hs

/-! ## Punctual runs -/

structure OnTime (s : Sys) : Prop where
  later : ∀ x ∈ s.pq, s.clock ≤ x.next
  period : ∀ x ∈ s.pq, 0 ≤ x.period
  taken : ∀ id t a b, Ev.taken id t a b ∈ s.trace → b = a
  late : ∀ u late, s.thread = .asleep u late → late = 0

theorem onTime_step {s s' : Sys} (h : Inv s) (o : OnTime s) (a : Act) (as : List Act) (hp : Punctual s (a :: as)) (hs : step s a = .ok s') : OnTime s' := by
  have hp := hp.1
  cases a with
  | pass d =>
    obtain ⟨u, late, ht, hu⟩ := hp
    simp only [step] at hs
    split at hs
    · cases hs
      refine ⟨?_, o.period, o.taken, o.late⟩
      intro x hx
      cases u with
      | none => rw [show s.pq = [] from h.empty late ht] at hx; cases hx
      | some t =>
        have h1 := h.until_ t late ht x hx
        have h2 := hu t rfl
        have h3 := o.late _ _ ht
        simp only
        omega
    · cases hs
  | insert timer delay period ago l =>
    simp only [step] at hs
    rcases insert_cases h.heap timer delay period ago l with e | ⟨e, -⟩ | ⟨s1, e, h1, h2, h3, h4, rfl, e2, e3⟩
    · rw [e] at hs; cases hs
    · rw [e] at hs; cases hs; exact o
    · rw [e] at hs; cases hs
      simp only at hp
      refine ⟨?_, ?_, ?_, ?_⟩
      · intro x hx
        rcases List.mem_append.mp (e2.mem_iff.mp hx) with hx | hx
        · exact o.later x hx
        · rw [List.mem_singleton] at hx; subst hx; simp only; omega
      · intro x hx
        rcases List.mem_append.mp (e2.mem_iff.mp hx) with hx | hx
        · exact o.period x hx
        · rw [List.mem_singleton] at hx; subst hx; simp only; omega
      · intro id t a b hm
        simp only [List.mem_cons, reduceCtorEq, false_or] at hm
        exact o.taken id t a b hm
      · intro u late ht; simp only at ht; split at ht
        · cases ht
        · rename_i hn; exact absurd ht (hn _ _)
  | release timer =>
    cases hs
    refine ⟨o.later, o.period, ?_, o.late⟩
    intro id t a b hm
    simp only [List.mem_cons, reduceCtorEq, false_or] at hm
    exact o.taken id t a b hm
  | loop l l' late =>
    simp only at hp
    subst hp
    simp only [step] at hs
    split at hs
    · rename_i hth
      rcases loop_cases h.heap l l' 0 with e | ⟨e1, e⟩ | ⟨x, hx0, hx, ⟨hlt, hlate, e⟩ | ⟨hle, l0, hp, e2, hr⟩⟩
      · rw [e] at hs; cases hs
      · rw [e] at hs; cases hs
        exact ⟨o.later, o.period, o.taken, by intro u lt ht; simp only [Thread.asleep.injEq] at ht; exact ht.2.symm⟩
      · rw [e] at hs; cases hs
        exact ⟨by simpa using o.later, o.period, o.taken, by intro u lt ht; simp only [Thread.asleep.injEq] at ht; exact ht.2.symm⟩
      · have hsub : ∀ y ∈ l0, y ∈ s.pq := fun y hy => hp.mem_iff.mp (List.mem_append_left _ hy)
        have heq : s.clock = x.next := by have := o.later x hx0; omega
        rcases hr with ⟨hd, e⟩ | ⟨hd, hper, hp2, e3, e⟩ | ⟨hd, hper, e⟩
        · rw [e] at hs; cases hs
          exact ⟨fun y hy => o.later y (hsub y hy), fun y hy => o.period y (hsub y hy), o.taken, o.late⟩
        · rw [e] at hs; cases hs
          refine ⟨?_, ?_, ?_, by simp⟩
          · intro y hy
            rcases List.mem_append.mp (hp2.mem_iff.mp hy) with hy | hy
            · exact o.later y (hsub y hy)
            · rw [List.mem_singleton] at hy; subst hy
              have := o.period x hx0
              simp only; omega
          · intro y hy
            rcases List.mem_append.mp (hp2.mem_iff.mp hy) with hy | hy
            · exact o.period y (hsub y hy)
            · rw [List.mem_singleton] at hy; subst hy; exact o.period x hx0
          · intro id t a b hm
            rcases List.mem_cons.mp hm with hm | hm
            · cases hm; exact heq
            · exact o.taken id t a b hm
        · rw [e] at hs; cases hs
          refine ⟨fun y hy => o.later y (hsub y hy), fun y hy => o.period y (hsub y hy), ?_, by simp⟩
          intro id t a b hm
          rcases List.mem_cons.mp hm with hm | hm
          · cases hm; exact heq
          · exact o.taken id t a b hm
    · cases hs
  | wake =>
    simp only [step] at hs
    split at hs
    · cases hs; exact ⟨o.later, o.period, o.taken, by simp⟩
    · cases hs
  | call =>
    simp only [step] at hs
    split at hs
    · cases hs
      refine ⟨o.later, o.period, ?_, by simp⟩
      intro id t a b hm
      simp only [List.mem_cons, reduceCtorEq, false_or] at hm
      exact o.taken id t a b hm
    · cases hs

theorem onTime_run {s s' : Sys} (h : Inv s) (o : OnTime s) (as : List Act) (hp : Punctual s as) (hs : run s as = .ok s') : OnTime s' := by
  induction as generalizing s with
  | nil => cases hs; exact o
  | cons a as ih =>
    simp only [run] at hs
    cases h1 : step s a with
    | no => rw [h1] at hs; cases hs
    | undefined => rw [h1] at hs; cases hs
    | ok s1 => rw [h1] at hs; exact ih ((step_inv h a).2 s1 h1) (onTime_step h o a as hp h1) (hp.2 s1 h1) hs

structure Called (s : Sys) : Prop where
  calling : ∀ e, s.thread = .calling e → e.next = s.clock
  tick : ∀ id t a b, Ev.tick id t a b ∈ s.trace → b = a
  dead : ∀ t ∈ s.dead, Ev.released t ∈ s.trace

theorem called_step {s s' : Sys} (h : Inv s) (o : OnTime s) (c : Called s) (a : Act) (as : List Act) (hp : Punctual s (a :: as)) (hs : step s a = .ok s') : Called s' := by
  have hp := hp.1
  cases a with
  | pass d =>
    obtain ⟨u, late, ht, hu⟩ := hp
    simp only [step] at hs
    split at hs
    · cases hs
      exact ⟨by simp [ht], c.tick, c.dead⟩
    · cases hs
  | insert timer delay period ago l =>
    simp only [step] at hs
    rcases insert_cases h.heap timer delay period ago l with e | ⟨e, -⟩ | ⟨s1, e, h1, h2, h3, h4, rfl, e2, e3⟩
    · rw [e] at hs; cases hs
    · rw [e] at hs; cases hs; exact c
    · rw [e] at hs; cases hs
      refine ⟨?_, ?_, ?_⟩
      · intro x hx
        simp only at hx
        split at hx
        · cases hx
        · exact c.calling x hx
      · intro id t a b hm
        simp only [List.mem_cons, reduceCtorEq, false_or] at hm
        exact c.tick id t a b hm
      · intro t ht; exact List.mem_cons_of_mem _ (c.dead t ht)
  | release timer =>
    cases hs
    refine ⟨c.calling, ?_, ?_⟩
    · intro id t a b hm
      simp only [List.mem_cons, reduceCtorEq, false_or] at hm
      exact c.tick id t a b hm
    · intro t ht
      rcases List.mem_cons.mp ht with rfl | ht
      · exact List.mem_cons_self ..
      · exact List.mem_cons_of_mem _ (c.dead t ht)
  | loop l l' late =>
    simp only at hp
    subst hp
    simp only [step] at hs
    split at hs
    · rename_i hth
      rcases loop_cases h.heap l l' 0 with e | ⟨e1, e⟩ | ⟨x, hx0, hx, ⟨hlt, hlate, e⟩ | ⟨hle, l0, hp, e2, hr⟩⟩
      · rw [e] at hs; cases hs
      · rw [e] at hs; cases hs
        exact ⟨by simp, c.tick, c.dead⟩
      · rw [e] at hs; cases hs
        exact ⟨by simp, c.tick, c.dead⟩
      · have heq : x.next = s.clock := by have := o.later x hx0; omega
        rcases hr with ⟨hd, e⟩ | ⟨hd, hper, hp2, e3, e⟩ | ⟨hd, hper, e⟩
        · rw [e] at hs; cases hs
          exact ⟨c.calling, c.tick, c.dead⟩
        all_goals
          rw [e] at hs; cases hs
          refine ⟨by simp [heq], ?_, fun t ht => List.mem_cons_of_mem _ (c.dead t ht)⟩
          intro id t a b hm
          simp only [List.mem_cons, reduceCtorEq, false_or] at hm
          exact c.tick id t a b hm
    · cases hs
  | wake =>
    simp only [step] at hs
    split at hs
    · cases hs; exact ⟨by simp, c.tick, c.dead⟩
    · cases hs
  | call =>
    simp only [step] at hs
    split at hs
    · rename_i e he
      cases hs
      refine ⟨by simp, ?_, fun t ht => List.mem_cons_of_mem _ (c.dead t ht)⟩
      intro id t a b hm
      rcases List.mem_cons.mp hm with hm | hm
      · cases hm; exact (c.calling e he).symm
      · exact c.tick id t a b hm
    · cases hs

theorem called_run {s s' : Sys} (h : Inv s) (o : OnTime s) (c : Called s) (as : List Act) (hp : Punctual s as) (hs : run s as = .ok s') : Called s' := by
  induction as generalizing s with
  | nil => cases hs; exact c
  | cons a as ih =>
    simp only [run] at hs
    cases h1 : step s a with
    | no => rw [h1] at hs; cases hs
    | undefined => rw [h1] at hs; cases hs
    | ok s1 => rw [h1] at hs; exact ih ((step_inv h a).2 s1 h1) (onTime_step h o a as hp h1) (called_step h o c a as hp h1) (hp.2 s1 h1) hs

theorem mem_ticks {id : Nat} {x : Int} {tr : List Ev} (h : x ∈ ticks id tr) : ∃ t n, Ev.tick id t x n ∈ tr := by
  induction tr with
  | nil => cases h
  | cons e tr ih =>
    have cont : x ∈ ticks id tr → ∃ t n, Ev.tick id t x n ∈ e :: tr := fun h => by
      obtain ⟨t, n, h⟩ := ih h
      exact ⟨t, n, List.mem_cons_of_mem _ h⟩
    cases e with
    | tick i t sch n =>
      simp only [ticks] at h
      split at h
      · rename_i hi
        subst hi
        rcases List.mem_append.mp h with h | h
        · exact cont h
        · rw [List.mem_singleton] at h; subst h; exact ⟨t, n, List.mem_cons_self ..⟩
      · exact cont h
    | _ => exact cont h

theorem mem_schedule {start period : Int} {n k : Nat} (h : k < n) : start + (k : Int) * period ∈ schedule start period n := by
  simp only [schedule, List.mem_map, List.mem_range]
  exact ⟨k, h, rfl⟩

end Verif.TimerHeap
