import Verif.Proofs.Timer
/-!
# C32: timers
-/
namespace Verif.Props
open Verif.Timer

/-- C32: the callback of a timer never begins before its scheduled time. -/
theorem C32_never_early (s : Sys) (h : Reachable s) (id t : Nat) (scheduled now : Int) (hm : Ev.tick id t scheduled now ∈ s.trace) : scheduled ≤ now :=
  (late h).tick id t scheduled now hm

/-- C32: for a timer inserted at `now`, the scheduled times that the callback has been called with are `now + delay`, `now + delay + period`,
`now + delay + 2 * period`, …, in this order, however late the callbacks were; a one-shot timer (with period 0) fires at most once. -/
theorem C32_schedule (s : Sys) (h : Reachable s) (id t : Nat) (now delay period : Int) (hm : Ev.inserted id t now delay period ∈ s.trace) :
    ∃ n, ticks id s.trace = schedule (now + delay) period n ∧ (period = 0 → n ≤ 1) := by
  obtain ⟨-, h1, h2⟩ := (inv h).sched id t now delay period hm
  cases hc : s.current with
  | none =>
    rw [(inv h).idle hc id] at h1 h2
    exact ⟨_, h1, h2⟩
  | some e =>
    have h3 := (inv h).current e hc id
    split at h3
    · have hl : (takes id s.trace).length = (ticks id s.trace).length + 1 := by rw [h3]; simp
      rw [hl, schedule_succ, h3] at h1
      refine ⟨_, (List.append_inj h1 (by rw [schedule_length])).1, fun hp => ?_⟩
      have := h2 hp
      omega
    · rw [h3, List.append_nil] at h1 h2
      exact ⟨_, h1, h2⟩

/-- C32: a callback is made only for a timer that has been inserted. -/
theorem C32_inserted (s : Sys) (h : Reachable s) (id t : Nat) (scheduled n : Int) (hm : Ev.tick id t scheduled n ∈ s.trace) :
    ∃ now delay period, Ev.inserted id t now delay period ∈ s.trace := (kept h).tick id t scheduled n hm

/-- C32: a timer that has been released is not scheduled any more. -/
theorem C32_released (s : Sys) (h : Reachable s) (a b : List Ev) (id t : Nat) (scheduled now : Int) (he : s.trace = a ++ .taken id t scheduled now :: b) :
    Ev.released t ∉ b := (dead h).after a b id t scheduled now he

/-- C32: after a timer has been released, at most one callback begins: the one that the timer thread was already about to make. -/
theorem C32_after_release (s : Sys) (h : Reachable s) (a b : List Ev) (t : Nat) (he : s.trace = a ++ .released t :: b) : a.countP (ofTimer t) ≤ 1 := by
  obtain ⟨s0, r0, h0⟩ := suffix h (a ++ [.released t]) b (by simp [he])
  have e1 := balance h t
  have e0 := balance r0 t
  have ha : a.countP (takeOf t) = 0 := by
    rw [List.countP_eq_zero]
    intro x hx
    obtain ⟨a1, a2, rfl⟩ := List.append_of_mem hx
    cases x with
    | taken id t' sch now =>
      intro ht
      have ht : t' = t := by simpa [takeOf] using ht
      subst ht
      exact (dead h).after a1 (a2 ++ .released t' :: b) id t' sch now (by rw [he]; simp) (by simp)
    | _ => simp [takeOf]
  rw [he] at e1
  rw [h0] at e0
  simp only [List.countP_append, List.countP_cons, takeOf, ofTimer, ha] at e1
  simp only [Bool.false_eq_true, if_false] at e1
  split at e0 <;> split at e1 <;> omega

/-- C32: the element that the timer thread takes is one with the least scheduled time. -/
theorem C32_earliest (s s' : Sys) (k : Nat) (hs : step s (.loop k) = some s') (id t : Nat) (scheduled now : Int)
    (hm : s'.trace = .taken id t scheduled now :: s.trace) : ∀ x ∈ s.pq, scheduled ≤ x.next := by
  have hne : ∀ e : Ev, s.trace ≠ e :: s.trace := fun e h => by have := congrArg List.length h; simp at this
  simp only [step] at hs
  split at hs
  · exact nomatch hs
  split at hs
  · exact nomatch hs
  split at hs
  · rename_i hl
    have hl := List.all_eq_true.1 hl
    split at hs
    · cases hs; exact absurd hm (hne _)
    split at hs
    · cases hs; exact absurd hm (hne _)
    split at hs
    all_goals
      cases hs
      simp only [List.cons.injEq, Ev.taken.injEq, and_true] at hm
      intro x hx
      have := of_decide_eq_true (hl x hx)
      omega
  · exact nomatch hs

/-- C32: a timer that has not been released is still in the queue, unless it is a one-shot timer that has been taken. -/
theorem C32_not_lost (s : Sys) (h : Reachable s) (id t : Nat) (now delay period : Int) (hm : Ev.inserted id t now delay period ∈ s.trace) (hd : t ∉ s.dead) :
    (∃ e ∈ s.pq, e.id = id) ∨ (period = 0 ∧ ∃ t' sch n, Ev.taken id t' sch n ∈ s.trace) := by
  have key : ∀ tr, takes id tr ≠ [] → ∃ t' sch n, Ev.taken id t' sch n ∈ tr := by
    intro tr
    induction tr with
    | nil => intro h; exact absurd rfl h
    | cons e tr ih =>
      intro hne
      have : takes id tr ≠ [] ∨ ∃ t' sch n, e = .taken id t' sch n := by
        cases e with
        | taken i t' sch n =>
          by_cases hi : i = id
          · exact .inr ⟨t', sch, n, by rw [hi]⟩
          · left; simpa [takes, hi] using hne
        | _ => exact .inl hne
      rcases this with h | ⟨t', sch, n, rfl⟩
      · obtain ⟨t', sch, n, h⟩ := ih h
        exact ⟨t', sch, n, List.mem_cons_of_mem _ h⟩
      · exact ⟨t', sch, n, List.mem_cons_self ..⟩
  rcases (kept h).there id t now delay period hm hd with h1 | ⟨h1, h2⟩
  · exact .inl h1
  · exact .inr ⟨h1, key _ h2⟩

/-- A periodic timer and a one-shot timer; the periodic one is late, and is released in the end. -/
def demoTimers : List Act :=
  [.insert 7 100 50 0, .insert 8 120 0 0, .pass 260, .loop 0, .call, .loop 0, .call, .loop 0, .call, .loop 0, .release 7, .call, .pass 500, .loop 0]

example : ∃ s, run { clock := 0 } demoTimers = some s ∧ ticks 0 s.trace = [100, 150, 200] ∧ ticks 1 s.trace = [120] ∧ s.pq = [] ∧
    Ev.inserted 0 7 0 100 50 ∈ s.trace ∧ Ev.inserted 1 8 0 120 0 ∈ s.trace ∧ s.trace.head? = some (.tick 0 7 200 260) := by
  refine ⟨_, rfl, rfl, rfl, rfl, ?_, ?_, rfl⟩ <;> decide

theorem timer_run_reachable (acts : List Act) : ∀ {s s' : Sys}, Reachable s → run s acts = some s' → Reachable s' := by
  induction acts with
  | nil => intro s s' h hr; cases hr; exact h
  | cons a as ih =>
    intro s s' h hr
    simp only [run, Option.bind_eq_some_iff] at hr
    obtain ⟨m, hm, hr⟩ := hr
    exact ih (h.step a hm) hr

end Verif.Props
