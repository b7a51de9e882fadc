import Verif.Proofs.FiberTimeout
import Verif.Proofs.FiberFair
/-!
# C34, C36, C37, C64, C65, C66: fibers and futures
-/
namespace Verif.Props
open Verif.Fiber

theorem fiber_run_reachable (acts : List Act) : ∀ {s s' : Sys}, Reachable s → run s acts = some s' → Reachable s' := by
  induction acts with
  | nil => intro s s' hr h; cases h; exact hr
  | cons a acts ih =>
    intro s s' hr h
    simp only [run] at h
    cases hs : step s a with
    | none => rw [hs] at h; exact nomatch h
    | some s1 => rw [hs] at h; exact ih (.step a hr hs) h

/-- The state of a fiber whose history says that it is suspended. -/
theorem suspended_state {s : Sys} (h : Reachable s) {k : Nat} (hl : life k s.trace = .suspended) : k ∈ s.pq ∧ (s.fib k).state = .suspended := by
  rw [(lifeInv h).life k] at hl
  unfold expected at hl
  split at hl
  · exact nomatch hl
  · split at hl
    · exact nomatch hl
    · rename_i hk
      refine ⟨Classical.byContradiction hk, ?_⟩
      split at hl <;> first | assumption | exact nomatch hl

theorem running_state {s : Sys} (h : Reachable s) {k : Nat} (hl : life k s.trace = .running) : (s.fib k).state = .running := by
  rw [(lifeInv h).life k] at hl
  unfold expected at hl
  split at hl
  · exact nomatch hl
  · split at hl
    · exact nomatch hl
    · split at hl <;> first | assumption | exact nomatch hl

/-- C34: whenever a fiber is resumed in `yield(f)`, `f` has completed or the time limit has passed since the fiber was suspended; and `yield(f)` returns
normally only if `f` has completed. -/
theorem C34_not_early (s : Sys) (h : Reachable s) : resumesOk s.fail s.trace := (fibInv h).resumes

/-- C34: once a future has completed and its waiters have been notified, a fiber that is suspended on it has been notified since it was suspended or last
looked at, or the scheduler has chosen it and is about to look at the future. -/
theorem C34_woken (s : Sys) (h : Reachable s) (k f y : Nat) (hl : life k s.trace = .suspended) (hs : lastSuspended k s.trace = some (some f, y))
    (hc : Ev.completed f ∈ s.trace) (hn : Ev.finalized f ∈ s.trace) : phase k s.trace ≠ .asleep ∨ ∃ now, s.pc = .looking k now := by
  obtain ⟨-, hst⟩ := suspended_state h hl
  have hw := (fibInv h).susp k hst
  rw [hs] at hw
  have hwf : (s.fib k).wfut = some f := by injection hw with hw; injection hw with hw _; exact hw.symm
  rcases wakeInv h k f hst hwf with ⟨h1, -⟩ | ⟨-, ⟨t, a, b, h2, -⟩ | h2 | h2⟩
  · rw [((futInv h).completed f).2 hc] at h1; exact nomatch h1
  · exact absurd h2 ((regInv h).fin f hn t a b)
  · exact .inl h2
  · exact .inr h2

/-- C34: if the scheduler has chosen a fiber whose future has completed, then it resumes it; and `yield()` returns normally unless the fiber was abandoned. -/
theorem C34_resumed (s : Sys) (h : Reachable s) (k f y now : Nat) (hl : life k s.trace = .suspended) (hs : lastSuspended k s.trace = some (some f, y))
    (hc : Ev.completed f ∈ s.trace) (hp : s.pc = .looking k now) :
    ∃ s' ok, step s .look = some s' ∧ s'.trace = .resumed k (some f) now ok :: s.trace ∧ (ok = true ↔ Ev.abandoned k ∉ s.trace) := by
  obtain ⟨-, hst⟩ := suspended_state h hl
  have hw := (fibInv h).susp k hst
  rw [hs] at hw
  have hwf : (s.fib k).wfut = some f := by injection hw with hw; injection hw with hw _; exact hw.symm
  have hi := ((futInv h).completed f).2 hc
  refine ⟨look s k now, (s.fut f).init && decide (k ∉ s.dead), by simp [step, hp], ?_, ?_⟩
  · simp [look, hwf, hi, enterFiber, hst]
  · simp [hi, (lifeInv h).dead k]

/-- C34: a scan that ends has looked at all fibers, since it began. -/
theorem C34_scan (s s' : Sys) (h : Reachable s) (hs : step s .endScan = some s') : ∀ k ∈ s.pq, isScanned k s.trace = true := by
  intro k hk
  simp only [step] at hs
  split at hs
  · rename_i i now hp
    split at hs
    · rename_i hi
      subst hi
      obtain ⟨j, hj⟩ := List.mem_iff_getElem?.1 hk
      exact scanInv h _ now hp j (List.getElem?_eq_some_iff.1 hj).1 k hj
    · exact nomatch hs
  · exact nomatch hs

/-- C34: what the scan finds to have been notified is due.  Then the scheduler does not sleep when it is entered next. -/
theorem C34_due (s : Sys) (h : Reachable s) (k : Nat) (hk : k ∈ s.pq) (hf : phase k s.trace = .found) :
    (s.fib k).check ≤ s.clock ∧ ∀ s', step s .enter = some s' → s'.pc = .choosing s.clock := by
  have hc := (timeInv h).check k hf
  refine ⟨hc, fun s' hs => ?_⟩
  have : due s s.clock = true := List.any_eq_true.2 ⟨k, hk, decide_eq_true hc⟩
  simp only [step, this, if_true] at hs
  split at hs
  · cases hs; rfl
  · exact nomatch hs

/-- C34: the scheduler sleeps only right after a scan, for half a second at most, and not beyond the time that any fiber is due. -/
theorem C34_sleep (s s' : Sys) (a : Act) (h : Reachable s) (hs : step s a = some s') (d : Nat) (tr : List Ev) (ht : s'.trace = .slept d :: tr)
    (hn : s'.trace ≠ s.trace) :
    tr = .scanEnded :: s.trace ∧ d ≤ 500000000 ∧ ∃ now ≤ s.clock, s.pc = .scanning s.pq.length now ∧ ∀ k ∈ s.pq, now + d ≤ (s.fib k).check := by
  cases step_case hs with
  | sleep now hp hz =>
    cases ht
    exact ⟨rfl, sleepTime_max s now, now, (timeInv h).scan _ _ hp, hp, fun k hk => sleepTime_le s now k hk hz⟩
  | _ => first | exact absurd rfl hn | exact nomatch ht

/-- C34: a suspended fiber is due when the time limit has passed since it was suspended, whether its future has completed or not; then the scheduler does
not sleep when it is entered, and resumes the fiber when it has chosen it. -/
theorem C34_timeout (s : Sys) (h : Reachable s) (k y : Nat) (fo : Option Nat) (hl : life k s.trace = .suspended) (hs : lastSuspended k s.trace = some (fo, y))
    (hy : y + s.fail ≤ s.clock) :
    (s.fib k).check ≤ s.clock ∧ (∀ s', step s .enter = some s' → s'.pc = .choosing s.clock) ∧
    (∀ now, s.pc = .looking k now → y + s.fail ≤ now → ∃ s' ok, step s .look = some s' ∧ s'.trace = .resumed k fo now ok :: s.trace) := by
  obtain ⟨hk, hst⟩ := suspended_state h hl
  have hw := (fibInv h).susp k hst
  rw [hs] at hw
  injection hw with hw
  injection hw with hw1 hw2
  have hb := (bounded h k).check
  rw [← hw2] at hb
  have hc : (s.fib k).check ≤ s.clock := by omega
  refine ⟨hc, fun s' hs => ?_, fun now hp hn => ?_⟩
  · have : due s s.clock = true := List.any_eq_true.2 ⟨k, hk, decide_eq_true hc⟩
    simp only [step, this, if_true] at hs
    split at hs
    · cases hs; rfl
    · exact nomatch hs
  · simp only [step, hp]
    have hne : ¬ now < (s.fib k).yield + s.fail := by rw [← hw2]; omega
    cases hf : (s.fib k).wfut with
    | none =>
      refine ⟨look s k now, decide (k ∉ s.dead), rfl, ?_⟩
      simp [look, enterFiber, hst, hw1, hf]
    | some f =>
      refine ⟨look s k now, (s.fut f).init && decide (k ∉ s.dead), rfl, ?_⟩
      simp [look, enterFiber, hst, hw1, hf, hne]

/-- C34: the scheduler does not sleep beyond the time limit of any suspended fiber. -/
theorem C34_sleep_timeout (s s' : Sys) (a : Act) (h : Reachable s) (hs : step s a = some s') (d : Nat) (tr : List Ev) (ht : s'.trace = .slept d :: tr)
    (hn : s'.trace ≠ s.trace) (k y : Nat) (fo : Option Nat) (hl : life k s.trace = .suspended) (hy : lastSuspended k s.trace = some (fo, y)) :
    ∃ now ≤ s.clock, s.pc = .scanning s.pq.length now ∧ now + d ≤ max (y + s.fail) s.clock := by
  obtain ⟨-, -, now, hnow, hp, hle⟩ := C34_sleep s s' a h hs d tr ht hn
  obtain ⟨hk, hst⟩ := suspended_state h hl
  have hw := (fibInv h).susp k hst
  rw [hy] at hw
  injection hw with hw
  injection hw with hw1 hw2
  have hb := (bounded h k).check
  rw [← hw2] at hb
  exact ⟨now, hnow, hp, Nat.le_trans (hle k hk) hb⟩

/-- Non-vacuity: a suspended fiber whose time limit has passed, although its future has not completed. -/
example : ∃ s, run { warn := 1000, fail := 5000 } [.launch 0, .enter, .pick 0, .look, .yield (some 7), .register, .tick 4000, .enter, .pick 0, .look, .tick 1000] = some s ∧
    life 0 s.trace = .suspended ∧ lastSuspended 0 s.trace = some (some 7, 0) ∧ 0 + s.fail ≤ s.clock ∧ Ev.completed 7 ∉ s.trace := ⟨_, rfl, by decide, by decide, by decide, by decide⟩

/-- A fiber waits for a future, another thread completes it while the scheduler looks at the fiber, and the scan finds it. -/
def wakeActs : List Act :=
  [.launch 0, .enter, .pick 0, .look, .yield (some 7), .register, .call 3 7, .tick 5, .enter, .scan, .endScan, .pick 0, .look, .tick 3, .enter,
   .exit 3 .ok, .scan, .endScan, .notify 3 8, .tick 1, .finalize 3, .enter, .scan, .endScan]

/-- Non-vacuity: in this run, the fiber is suspended, the future has completed, and the scan has found the fiber. -/
example : ∃ s, run { warn := 1000, fail := 5000 } wakeActs = some s ∧ life 0 s.trace = .suspended ∧ lastSuspended 0 s.trace = some (some 7, 0) ∧
    Ev.completed 7 ∈ s.trace ∧ Ev.finalized 7 ∈ s.trace ∧ phase 0 s.trace = .found ∧ (s.pc = .choosing 9) :=
  ⟨_, rfl, by decide, by decide, by decide, by decide, by decide, rfl⟩

/-- Non-vacuity: it is then resumed. -/
example : ∃ s, run { warn := 1000, fail := 5000 } (wakeActs ++ [.pick 0, .look]) = some s ∧ s.trace.head? = some (.resumed 0 (some 7) 9 true) :=
  ⟨_, rfl, rfl⟩

/-- Non-vacuity: a fiber whose future does not complete is resumed after the time limit, and `yield()` throws. -/
example : ∃ s, run { warn := 1000, fail := 5000 } [.launch 0, .enter, .pick 0, .look, .yield (some 7), .register, .tick 5000, .enter, .pick 0, .look] = some s ∧
    s.trace.head? = some (.resumed 0 (some 7) 5000 false) := ⟨_, rfl, rfl⟩

/-- C36: the initializer of a future begins only if all runs before it exited with foreign exceptions, and not after the future has completed. -/
theorem C36_initializer (s : Sys) (h : Reachable s) : initsOk s.trace := (regInv h).inits

/-- C36: if it does not throw foreign exceptions, the initializer begins at most once. -/
theorem C36_once (s : Sys) (h : Reachable s) (f : Nat) (hn : Ev.initEnded f .foreign ∉ s.trace) : s.trace.count (.initBegan f) ≤ 1 := by
  have := (futInv h).begins f
  rw [List.count_eq_zero.2 hn] at this
  rw [this]
  split <;> omega

/-- C36: when the completing thread is through, all waiters have been notified, except fibers that have ceased to exist. -/
theorem C36_all_notified (s : Sys) (h : Reachable s) (f k : Nat) (hf : Ev.finalized f ∈ s.trace) (hw : Ev.waits f k ∈ s.trace) :
    Ev.notified f k ∈ s.trace ∨ (Ev.gone f k ∈ s.trace ∧ Ev.removed k ∈ s.trace) := by
  rcases (regInv h).reg f k hw with h1 | ⟨t, a, b, h1, -⟩ | h1 | h1
  · rw [(futInv h).empty f ((futInv h).final f hf)] at h1; exact nomatch h1
  · exact absurd h1 ((regInv h).fin f hf t a b)
  · exact .inl h1
  · exact .inr ⟨h1, (regInv h).gone f k h1⟩

/-- C36: no fiber becomes a waiter after completion; only waiters are notified, and only after completion; `yield()` does not suspend if the future has
completed. -/
theorem C36_no_late_waiter (s : Sys) (h : Reachable s) : waitsOk s.trace := (regInv h).waits

/-- C36: a future is successful if and only if its initializer has returned without an exception; it is initialized if and only if it has returned, or
thrown an exception that is derived from `std::exception`. -/
theorem C36_successful (s : Sys) (h : Reachable s) (f : Nat) :
    (successful s f = true ↔ Ev.initEnded f .ok ∈ s.trace) ∧
    ((s.fut f).init = true ↔ Ev.initEnded f .ok ∈ s.trace ∨ Ev.initEnded f .threw ∈ s.trace) := by
  rw [← (futInv h).success, ← (futInv h).failure]
  cases hi : (s.fut f).init <;> cases hx : (s.fut f).failed <;> simp [successful, hi, hx]

/-- Non-vacuity: two threads call at the same time; one runs the initializer, and the other one finds the future completed. -/
example : ∃ s, run { warn := 1000, fail := 5000 } [.call 1 4, .exit 1 .threw, .call 2 4, .finalize 1] = some s ∧ (s.fut 4).init = true ∧ successful s 4 = false :=
  ⟨_, rfl, rfl, rfl⟩

/-- An initializer that throws a foreign exception can run again; this is why `C36_once` has a hypothesis. -/
theorem C36_foreign : ∃ s, run { warn := 1000, fail := 5000 } [.call 1 4, .exit 1 .foreign, .call 2 4] = some s ∧ s.trace.count (.initBegan 4) = 2 :=
  ⟨_, rfl, by decide⟩

/-- C37 (part): checking a future that has not completed throws.  Missing: checking a future that has failed does not rethrow, see `C37_not_rethrown`. -/
theorem C37_incomplete_partial (s : Sys) (h : Reachable s) (f : Nat) :
    (Ev.completed f ∉ s.trace → checkSuccess s f = .notInitialized) ∧ (Ev.completed f ∈ s.trace → checkSuccess s f = .returns) := by
  rw [← (futInv h).completed]
  constructor
  · intro hi
    have : (s.fut f).init = false := by simpa using hi
    simp [checkSuccess, this]
  · intro hi; simp [checkSuccess, hi]

/-- C37 does not hold: `check_success()` on a future whose initializer threw returns normally; it never rethrows anything. -/
theorem C37_not_rethrown : (∃ s, Reachable s ∧ Ev.initEnded 4 .threw ∈ s.trace ∧ checkSuccess s 4 = .returns) ∧ ∀ s f, checkSuccess s f ≠ .rethrows := by
  constructor
  · exact ⟨_, fiber_run_reachable [.call 1 4, .exit 1 .threw] (.init 1000 5000) rfl, by decide, rfl⟩
  · intro s f
    unfold checkSuccess
    split
    · rename_i hi; simp [hi]
    · exact fun h => nomatch h

/-- C37 does not hold for `yield()` either: it returns normally although the future has failed. -/
theorem C37_yield_ignores_failure : ∃ s, Reachable s ∧ Ev.initEnded 4 .threw ∈ s.trace ∧ s.trace.head? = some (.resumed 0 (some 4) 2 true) :=
  ⟨_, fiber_run_reachable [.launch 0, .enter, .pick 0, .look, .yield (some 4), .register, .call 1 4, .exit 1 .threw, .tick 1, .notify 1 1, .finalize 1,
      .tick 1, .enter, .scan, .endScan, .pick 0, .look] (.init 1000 5000) rfl, by decide, rfl⟩

/-- C64: each fiber begins at most once; it is suspended and resumed in alternation; it is dropped only after it has finished, or if it was abandoned before
it began; and nothing happens to it afterwards. -/
theorem C64_life (s : Sys) (h : Reachable s) (k : Nat) : life k s.trace ≠ .wrong := by
  rw [(lifeInv h).life k]
  unfold expected
  split
  · exact fun h => nomatch h
  · split
    · exact fun h => nomatch h
    · split <;> exact fun h => nomatch h

/-- C64: at most one fiber runs at a time. -/
theorem C64_one_at_a_time (s : Sys) (h : Reachable s) (i j : Nat) (hi : life i s.trace = .running) (hj : life j s.trace = .running) : i = j := by
  have h1 := ((fibInv h).current i).2 (running_state h hi)
  have h2 := ((fibInv h).current j).2 (running_state h hj)
  rw [h1] at h2
  exact Option.some.inj h2

/-- C64: what has been launched stays in the scheduler until it is dropped. -/
theorem C64_not_lost (s : Sys) (h : Reachable s) (k : Nat) (hk : Ev.launched k ∈ s.trace) : k ∈ s.pq ∨ life k s.trace = .dropped := by
  have hb : ∀ {s : Sys}, Reachable s → Ev.launched k ∈ s.trace → k < s.ids := by
    intro s h
    induction h with
    | init => exact fun h => nomatch h
    | @step s s' a hr hs ih =>
      intro hk
      cases step_case hs with
      | launch v =>
        rcases List.mem_cons.1 (show Ev.launched k ∈ Ev.launched s.ids :: s.trace from hk) with h | h
        · cases h; exact Nat.lt_succ_self _
        · exact Nat.lt_succ_of_lt (ih h)
      | _ => exact ih (by simpa using hk)
  rw [(lifeInv h).life k]
  unfold expected
  rw [if_neg (Nat.not_le.2 (hb h hk))]
  by_cases hp : k ∈ s.pq
  · exact .inl hp
  · exact .inr (if_pos hp)

/-- Non-vacuity: a fiber is dropped after it has finished; an abandoned one is dropped without having begun. -/
example : ∃ s, run { warn := 1000, fail := 5000 } [.launch 0, .launch 0, .abandon 1, .enter, .pick 0, .look, .finish, .enter, .pick 1, .enter, .scan, .endScan, .pick 0] = some s ∧
    life 0 s.trace = .dropped ∧ life 1 s.trace = .dropped ∧ Ev.began 1 ∉ s.trace ∧ s.pq = [] := ⟨_, rfl, by decide, by decide, by decide, rfl⟩

/-- C65: a fiber that is due is taken after a bounded number of others, if both timeouts in the configuration are positive.  The bound depends only on the
state in which it is due; fibers that are launched later do not count. -/
theorem C65_not_starved_partial (s s' : Sys) (h : Reachable s) (hw : 0 < s.warn) (hf : 0 < s.fail) (hp : s.pc = .idle) (k : Nat) (hk : k ∈ s.pq)
    (hc : (s.fib k).check ≤ s.clock) (acts : List Act) (hr : run s acts = some s') (hl : ∀ v, Act.launch v ∈ acts → (s.fib k).check < v) :
    ∃ new, s'.trace = new ++ s.trace ∧ (Ev.picked k ∈ new ∨ Ev.removed k ∈ new ∨ new.countP Ev.isChoice ≤ backlog s (s.fib k).check) := by
  have hwt : Waiting k (s.fib k).check s :=
    ⟨hc, hk, rfl, fun _ _ h => (by rw [hp] at h; exact nomatch h), fun _ h => (by rw [hp] at h; exact nomatch h), fun _ _ h => (by rw [hp] at h; exact nomatch h),
      fun _ _ h => (by rw [hp] at h; exact nomatch h)⟩
  obtain ⟨new, h1, h2⟩ := fair_run acts hw hf h hwt hr hl
  refine ⟨new, h1, h2.imp id (Or.imp id fun h3 => ?_)⟩
  exact Nat.le_trans (Nat.le_of_add_right_le h3) (total_le_backlog s _)

/-- Non-vacuity: two fibers are due. -/
example : ∃ s, run { warn := 1000, fail := 5000 } [.launch 0, .tick 10, .launch 9] = some s ∧ s.pc = .idle ∧ 1 ∈ s.pq ∧ (s.fib 1).check ≤ s.clock ∧
    backlog s (s.fib 1).check = 8 := ⟨_, rfl, rfl, by decide, by decide, by decide⟩

/-- Fiber 0 waits for future 0 and is always the first in the queue; fiber 1 is due. -/
structure Stuck (s : Sys) : Prop where
  warn : s.warn = 0
  clock : 1 ≤ s.clock
  pq : s.pq = [0, 1]
  ids : s.ids = 2
  check0 : (s.fib 0).check = 0
  yield0 : (s.fib 0).yield = 0
  state0 : (s.fib 0).state = .suspended
  fut0 : (s.fib 0).wfut = some 0
  check1 : (s.fib 1).check = 1
  state1 : (s.fib 1).state = .pending
  init0 : (s.fut 0).init = false
  waiters : ∀ f, f ≠ 0 → (s.fut f).waiters = []
  todo : ∀ t f a b, s.thr t = .notifying f a b → b = []
  pc : s.pc = .idle ∨ (∃ now ≤ s.clock, s.pc = .choosing now) ∨ (∃ now ≤ s.clock, s.pc = .looking 0 now)
  began : Ev.began 1 ∉ s.trace

def StuckOr (s : Sys) : Prop := Ev.completed 0 ∈ s.trace ∨ Ev.launched 2 ∈ s.trace ∨ s.fail ≤ s.clock ∨ Stuck s

theorem stuck_step {s s' : Sys} (h : StuckOr s) (hc : Case s s') : StuckOr s' := by
  rcases h with h | h | h | h
  · exact .inl (by cases hc <;> first | exact h | exact List.mem_cons_of_mem _ h | exact List.mem_cons_of_mem _ (List.mem_cons_of_mem _ h))
  · exact .inr (.inl (by cases hc <;> first | exact h | exact List.mem_cons_of_mem _ h | exact List.mem_cons_of_mem _ (List.mem_cons_of_mem _ h)))
  · exact .inr (.inr (.inl (by cases hc <;> first | exact h | exact Nat.le_trans h (Nat.le_add_right _ _))))
  · by_cases hfc : s.fail ≤ s.clock
    · exact .inr (.inr (.inl (by cases hc <;> first | exact hfc | exact Nat.le_trans hfc (Nat.le_add_right _ _))))
    obtain ⟨a1, a2, a3, a4, a5, a6, a7, a8, a9, a10, a11, a12, a13, a14, a15⟩ := h
    have hmin : ∀ k, k ∈ s.pq → (∀ j ∈ s.pq, (s.fib k).check ≤ (s.fib j).check) → k = 0 := by
      intro k hk hm
      rw [a3] at hk hm
      rcases List.mem_cons.1 hk with rfl | hk
      · rfl
      · rw [List.mem_singleton.1 hk] at hm
        have := hm 0 (by simp)
        rw [a5, a9] at this
        exact absurd this (by decide)
    have hnp : ∀ {P : Prop} {p : Pc}, s.pc = p → (p ≠ .idle) → (∀ n, p ≠ .choosing n) → (∀ n, p ≠ .looking 0 n) → P := by
      intro P p hp h1 h2 h3
      rcases a14 with h | ⟨n, -, h⟩ | ⟨n, -, h⟩ <;> rw [hp] at h
      · exact absurd h h1
      · exact absurd h (h2 n)
      · exact absurd h (h3 n)
    cases hc with
    | tick d =>
      refine .inr (.inr (.inr ⟨a1, Nat.le_trans a2 (Nat.le_add_right _ _), a3, a4, a5, a6, a7, a8, a9, a10, a11, a12, a13, ?_, a15⟩))
      rcases a14 with h | ⟨n, hn, h⟩ | ⟨n, hn, h⟩
      · exact .inl h
      · exact .inr (.inl ⟨n, Nat.le_trans hn (Nat.le_add_right _ _), h⟩)
      · exact .inr (.inr ⟨n, Nat.le_trans hn (Nat.le_add_right _ _), h⟩)
    | nop => exact .inr (.inr (.inr ⟨a1, a2, a3, a4, a5, a6, a7, a8, a9, a10, a11, a12, a13, a14, a15⟩))
    | launch v => exact .inr (.inl (by show Ev.launched 2 ∈ Ev.launched s.ids :: s.trace; rw [a4]; exact List.mem_cons_self ..))
    | abandon k => exact .inr (.inr (.inr ⟨a1, a2, a3, a4, a5, a6, a7, a8, a9, a10, a11, a12, a13, a14, by simpa using a15⟩))
    | call t f ht hl hi =>
      refine .inr (.inr (.inr ⟨a1, a2, a3, a4, a5, a6, a7, a8, a9, a10, ?_, ?_, ?_, a14, by simpa using a15⟩))
      · by_cases h : 0 = f
        · subst h; simp [hi]
        · simp only [upd_other _ _ h]; exact a11
      · intro g hg
        by_cases h : g = f
        · subst h; simpa using a12 g hg
        · simp only [upd_other _ _ h]; exact a12 g hg
      · intro u g x y hu
        by_cases h : u = t
        · subst h; simp at hu
        · simp only [upd_other _ _ h] at hu; exact a13 u g x y hu
    | escape t f ht =>
      refine .inr (.inr (.inr ⟨a1, a2, a3, a4, a5, a6, a7, a8, a9, a10, ?_, ?_, ?_, a14, by simpa using a15⟩))
      · by_cases h : 0 = f
        · subst h; simpa using a11
        · simp only [upd_other _ _ h]; exact a11
      · intro g hg
        by_cases h : g = f
        · subst h; simpa using a12 g hg
        · simp only [upd_other _ _ h]; exact a12 g hg
      · intro u g x y hu
        by_cases h : u = t
        · subst h; simp at hu
        · simp only [upd_other _ _ h] at hu; exact a13 u g x y hu
    | complete t f e ht he =>
      by_cases hf : f = 0
      · subst hf; exact .inl (List.mem_cons_self ..)
      · refine .inr (.inr (.inr ⟨a1, a2, a3, a4, a5, a6, a7, a8, a9, a10, ?_, ?_, ?_, a14, by simpa using a15⟩))
        · have : 0 ≠ f := fun h => hf h.symm
          simp only [upd_other _ _ this]; exact a11
        · intro g hg
          by_cases h : g = f
          · subst h; simp
          · simp only [upd_other _ _ h]; exact a12 g hg
        · intro u g x y hu
          by_cases h : u = t
          · subst h; simp only [upd_same, Thr.notifying.injEq] at hu; rw [← hu.2.2]; exact a12 f hf
          · simp only [upd_other _ _ h] at hu; exact a13 u g x y hu
    | notify t f since k v todo ht => exact absurd (a13 _ _ _ _ ht) (by simp)
    | gone t f since k todo ht => exact absurd (a13 _ _ _ _ ht) (by simp)
    | finalize t f since ht =>
      refine .inr (.inr (.inr ⟨a1, a2, a3, a4, a5, a6, a7, a8, a9, a10, a11, a12, ?_, a14, by simpa using a15⟩))
      intro u g x y hu
      by_cases h : u = t
      · subst h; simp at hu
      · simp only [upd_other _ _ h] at hu; exact a13 u g x y hu
    | choose hp hd =>
      exact .inr (.inr (.inr ⟨a1, a2, a3, a4, a5, a6, a7, a8, a9, a10, a11, a12, a13, .inr (.inl ⟨_, Nat.le_refl _, rfl⟩), a15⟩))
    | startScan hp hd =>
      have : due s s.clock = true := List.any_eq_true.2 ⟨0, by simp [a3], by simp [a5]⟩
      rw [hd] at this; exact nomatch this
    | scan i now k hp => exact hnp hp (by simp) (by simp) (by simp)
    | endScan now hp => exact hnp hp (by simp) (by simp) (by simp)
    | sleep now hp => exact hnp hp (by simp) (by simp) (by simp)
    | remove k now hp hk hc hm =>
      have := hmin k hk hm
      subst this
      rw [a7] at hc
      rcases hc with ⟨h, -⟩ | h <;> exact nomatch h
    | pick k now hp hk hm hc next hn =>
      have := hmin k hk hm
      subst this
      have hn0 : next = 0 := by rw [hn, a5, a1]; exact Nat.zero_min _
      refine .inr (.inr (.inr ⟨a1, a2, a3, a4, by simp [hn0], by simp [a6], by simp [a7], by simp [a8], ?_, ?_, a11, a12, a13, .inr (.inr ⟨now, ?_, rfl⟩), by simpa using a15⟩))
      · simp only [upd_other _ _ (show (1 : Nat) ≠ 0 by decide)]; exact a9
      · simp only [upd_other _ _ (show (1 : Nat) ≠ 0 by decide)]; exact a10
      · rcases a14 with h | ⟨n, hn, h⟩ | ⟨n, hn, h⟩ <;> rw [hp] at h <;> cases h
        exact hn
    | pass k now f hp =>
      exact .inr (.inr (.inr ⟨a1, a2, a3, a4, a5, a6, a7, a8, a9, a10, a11, a12, a13, .inl rfl, a15⟩))
    | begin_ k now hp hst =>
      rcases a14 with h | ⟨n, hn, h⟩ | ⟨n, hn, h⟩ <;> rw [hp] at h <;> cases h
      rw [a7] at hst; exact nomatch hst
    | resume k now ok hp hst hff hok =>
      rcases a14 with h | ⟨n, hn, h⟩ | ⟨n, hn, h⟩ <;> rw [hp] at h <;> cases h
      rcases hff 0 a8 with h | h
      · rw [a11] at h; exact nomatch h
      · rw [a6, Nat.zero_add] at h; exact absurd (Nat.le_trans h hn) hfc
    | yieldOn k f hp => exact hnp hp (by simp) (by simp) (by simp)
    | yield k hp => exact hnp hp (by simp) (by simp) (by simp)
    | noWait k f hp => exact hnp hp (by simp) (by simp) (by simp)
    | register k f hp => exact hnp hp (by simp) (by simp) (by simp)
    | finish k hp => exact hnp hp (by simp) (by simp) (by simp)

/-- C65 does not hold if `fiber.warn_timeout` is configured as zero, which is permitted: a fiber that waits for a future is always the first in the queue, and
a fiber that was launched later does not begin, for as long as the future does not complete and the time limit has not passed; even if it is the one
that would complete the future. -/
theorem C65_starved : ∃ s, Reachable s ∧ s.warn = 0 ∧ s.fail = 300000000000 ∧ life 1 s.trace = .launched ∧ (s.fib 1).check ≤ s.clock ∧
    ∀ acts s', run s acts = some s' → Ev.completed 0 ∉ s'.trace → Ev.launched 2 ∉ s'.trace → s'.clock < s'.fail → Ev.began 1 ∉ s'.trace := by
  have key : ∀ (acts : List Act) {s s' : Sys}, StuckOr s → run s acts = some s' → StuckOr s' := by
    intro acts
    induction acts with
    | nil => intro s s' h hr; cases hr; exact h
    | cons a acts ih =>
      intro s s' h hr
      simp only [run] at hr
      cases hs : step s a with
      | none => rw [hs] at hr; exact nomatch hr
      | some s1 => rw [hs] at hr; exact ih (stuck_step h (step_case hs)) hr
  refine ⟨_, fiber_run_reachable [.launch 0, .enter, .pick 0, .look, .yield (some 0), .register, .tick 1, .launch 1] (.init 0 300000000000) rfl, rfl, rfl,
    by decide, by decide, ?_⟩
  intro acts s' hr h1 h2 h3
  have hst := key acts (.inr (.inr (.inr (by
    constructor
    · rfl
    · decide
    · rfl
    · rfl
    · rfl
    · rfl
    · rfl
    · rfl
    · rfl
    · rfl
    · rfl
    · intro f hf; simp [upd, register, yield, launch, hf, enterFiber, look, pick]
    · intro t f a b h; exact nomatch h
    · exact .inl rfl
    · decide)))) hr
  rcases hst with h | h | h | h
  · exact absurd h h1
  · exact absurd h h2
  · exact absurd h (Nat.not_le.2 h3)
  · exact h.began

/-- An action of the fiber thread. -/
def isFiberThread : Act → Bool
  | .enter | .scan | .endScan | .pick _ | .look | .yield _ | .register | .finish => true
  | _ => false

structure CanGoOn (s : Sys) : Prop where
  scan : ∀ i now, s.pc = .scanning i now → i ≤ s.pq.length
  choose : ∀ now, s.pc = .choosing now → s.pq ≠ []

theorem canGoOn {s : Sys} (h : Reachable s) : CanGoOn s := by
  induction h with
  | init => exact ⟨fun _ _ h => (nomatch h), fun _ h => (nomatch h)⟩
  | @step s s' a hr hs ih =>
    obtain ⟨h1, h2⟩ := ih
    cases step_case hs with
    | launch v hl =>
      constructor
      · intro i n hp; rw [show s.pc = .scanning i n from hp] at hl; exact nomatch hl
      · intro n hp; rw [show s.pc = .choosing n from hp] at hl; exact nomatch hl
    | choose hp hd =>
      refine ⟨fun _ _ h => (nomatch h), fun n _ he => ?_⟩
      have he : s.pq = [] := he
      simp [due, he] at hd
    | startScan hp hd => exact ⟨fun i n h => by cases h; exact Nat.zero_le _, fun _ h => (nomatch h)⟩
    | scan i now k hp hk =>
      refine ⟨fun j n h => ?_, fun _ h => (nomatch h)⟩
      cases h
      exact (List.getElem?_eq_some_iff.1 hk).1
    | endScan now hp hz =>
      refine ⟨fun _ _ h => (nomatch h), fun n _ he => ?_⟩
      have he : s.pq = [] := he
      have : least s = none := by simp [least, he]
      simp only [sleepTime, this] at hz
      omega
    | sleep => exact ⟨fun _ _ h => (nomatch h), fun _ h => (nomatch h)⟩
    | remove => exact ⟨fun _ _ h => (nomatch h), fun _ h => (nomatch h)⟩
    | pick => exact ⟨fun _ _ h => (nomatch h), fun _ h => (nomatch h)⟩
    | pass => exact ⟨fun _ _ h => (nomatch h), fun _ h => (nomatch h)⟩
    | begin_ => exact ⟨fun _ _ h => (nomatch h), fun _ h => (nomatch h)⟩
    | resume => exact ⟨fun _ _ h => (nomatch h), fun _ h => (nomatch h)⟩
    | yieldOn => exact ⟨fun _ _ h => (nomatch h), fun _ h => (nomatch h)⟩
    | yield => exact ⟨fun _ _ h => (nomatch h), fun _ h => (nomatch h)⟩
    | noWait => exact ⟨fun _ _ h => (nomatch h), fun _ h => (nomatch h)⟩
    | register => exact ⟨fun _ _ h => (nomatch h), fun _ h => (nomatch h)⟩
    | finish => exact ⟨fun _ _ h => (nomatch h), fun _ h => (nomatch h)⟩
    | _ => exact ⟨h1, h2⟩

theorem exists_min {l : List Nat} (f : Nat → Nat) (h : l ≠ []) : ∃ k ∈ l, ∀ j ∈ l, f k ≤ f j := by
  induction l with
  | nil => exact absurd rfl h
  | cons a l ih =>
    by_cases hl : l = []
    · subst hl; exact ⟨a, by simp, by simp⟩
    · obtain ⟨k, hk, hm⟩ := ih hl
      by_cases hc : f a ≤ f k
      · refine ⟨a, List.mem_cons_self .., fun j hj => ?_⟩
        rcases List.mem_cons.1 hj with rfl | hj
        · exact Nat.le_refl _
        · exact Nat.le_trans hc (hm j hj)
      · refine ⟨k, List.mem_cons_of_mem _ hk, fun j hj => ?_⟩
        rcases List.mem_cons.1 hj with rfl | hj
        · omega
        · exact hm j hj

/-- C66: the fiber thread can go on, whatever the other threads do; except when a fiber has called `yield(f)` while another thread is in the initializer of
`f`. -/
theorem C66_not_blocked_partial (s : Sys) (h : Reachable s) (hn : ¬ ∃ k f, s.pc = .yielding k f ∧ (s.fut f).locked = true) :
    ∃ a, isFiberThread a = true ∧ (step s a).isSome = true := by
  have hr := canGoOn h
  cases hp : s.pc with
  | idle =>
    refine ⟨.enter, rfl, ?_⟩
    simp only [step, hp, if_true]
    split <;> rfl
  | scanning i now =>
    have := hr.scan i now hp
    by_cases hi : i = s.pq.length
    · refine ⟨.endScan, rfl, ?_⟩
      simp only [step, hp, hi, if_true]
      split <;> rfl
    · refine ⟨.scan, rfl, ?_⟩
      have : i < s.pq.length := by omega
      simp [step, hp, List.getElem?_eq_getElem this]
  | choosing now =>
    obtain ⟨k, hk, hm⟩ := exists_min (fun k => (s.fib k).check) (hr.choose now hp)
    refine ⟨.pick k, rfl, ?_⟩
    simp only [step, hp]
    rw [if_pos ⟨hk, List.all_eq_true.2 fun j hj => decide_eq_true (hm j hj)⟩]
    rfl
  | looking k now => exact ⟨.look, rfl, by simp [step, hp]⟩
  | running k => exact ⟨.finish, rfl, by simp [step, hp]⟩
  | yielding k f =>
    refine ⟨.register, rfl, ?_⟩
    have : (s.fut f).locked = false := by
      cases hl : (s.fut f).locked with
      | false => rfl
      | true => exact absurd ⟨k, f, hp, hl⟩ hn
    simp [step, hp, this]

/-- C66 does not hold: a fiber that waits for a future whose initializer is being run by another thread blocks the fiber thread, and so all fibers, until the
initializer exits.  (`do_abstract_future_initialize_once()` calls the initializer with `m_init_mutex` locked.) -/
theorem C66_blocked : (∃ s, Reachable s ∧ life 1 s.trace = .launched ∧ s.pc = .yielding 0 7 ∧ s.thr 3 = .initing 7) ∧
    ∀ s, Reachable s → ∀ k f t, s.pc = .yielding k f → s.thr t = .initing f → ∀ a, isFiberThread a = true → step s a = none := by
  constructor
  · exact ⟨_, fiber_run_reachable [.launch 0, .launch 0, .enter, .pick 0, .look, .call 3 7, .yield (some 7)] (.init 1000 5000) rfl, by decide, rfl, rfl⟩
  · intro s h k f t hp ht a ha
    have hl := ((futInv h).owner t f ht).1
    cases a <;> simp [isFiberThread] at ha <;> simp [step, hp, hl]

end Verif.Props
