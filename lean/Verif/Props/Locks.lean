import Verif.Proofs.LocksAll
/-!
# C104: threads do not block one another
-/
namespace Verif.Props
open Verif.Locks Verif.Spec.Locks

/-- A program of all threads: network callbacks send, pass on events, and launch tasks; tasks initialize futures and connect sockets; fibers
wait for futures and send compressed messages; timers send; user threads log, reload and send. -/
def Locks.demo : Program where
  network := [.event true 1 [.inflate 1, .push 7 true 0, .send 1 1, .sendCompressed 2 0 false, .launchTask, .insertSocket 0] 1, .idle,
    .event false 2 [.push 7 false 0, .sendCompressed 2 1 true, .synchronize true] 0, .gone true]
  main := [.fiber 1 1 [.call (.table 7), .call (.sendCompressed 1 0 false), .await 3], .idle 1, .other [.call .reloadLogger, .call .network]]
  timer := [(1, some [.call (.send 1 0), .call .insertTimer]), (2, none)]
  logger := 2
  tasks := [[(1, some [.init 3 [.allocate 0, .pool 0 false 0, .sendCompressed 1 0 false]]), (3, some [.call .launchTask])],
    [(2, some [.call (.insertSocket 0), .call (.connect 8), .inited 3])]]
  others := [[.call .log, .call (.synchronize true), .call (.sendCompressed 1 2 false)], [.call .mainConfig, .call .uuid]]

theorem Locks.demo_tasks : TasksApart Locks.demo := by
  simp only [TasksApart, Locks.demo, List.pairwise_cons]
  refine ⟨?_, by simp⟩
  rintro rs hrs i is is' h h'
  simp at hrs
  subst hrs
  simp at h h'
  omega

theorem Locks.demo_compression : CompressionApart Locks.demo := by
  intro s
  by_cases h : s = 2
  · subst h
    exact .inr (by simp [Locks.demo, elsewhere, calls])
  · refine .inl ?_
    intro c cs n hm m f hf
    simp [Locks.demo] at hm
    rcases hm with ⟨rfl, rfl, rfl, rfl⟩ | ⟨rfl, rfl, rfl, rfl⟩
    · simp at hf
    · exact h rfl

/-- **C104**, with two restrictions: whatever threads of the library and of the user do, in whichever order, if no task is executed by two
threads and no session is sent compressed messages both from its own callbacks and from elsewhere, then no threads ever block one another. -/
theorem C104_no_deadlock_partial (p : Program) (ht : TasksApart p) (hc : CompressionApart p) (ks : List Nat) (st : State)
    (h : run p.start ks = some st) (C : List Nat) : ¬ Deadlock st C := by
  intro hd
  obtain ⟨js, st', hr, hf⟩ := completes (apart ht) (left st) (Nat.le_refl _) (run_good h (start_good hc)) (run_within h (start_within p))
  exact deadlock_unfinished (deadlock_run hd hr) hf

example : ∃ st, run Locks.demo.start [0, 0, 0, 0, 0, 0, 0, 0, 0, 4, 4, 4, 0] = some st ∧ ∀ C, ¬ Deadlock st C := by
  cases h : run Locks.demo.start [0, 0, 0, 0, 0, 0, 0, 0, 0, 4, 4, 4, 0] with
  | none => exact absurd h (by decide +kernel)
  | some st => exact ⟨st, rfl, C104_no_deadlock_partial _ Locks.demo_tasks Locks.demo_compression _ st h⟩

/-- … so as long as some thread has something to do, some thread can go on, … -/
theorem C104_progress_partial (p : Program) (ht : TasksApart p) (hc : CompressionApart p) (ks : List Nat) (st : State)
    (h : run p.start ks = some st) : Finished st ∨ ∃ k, (step k st).isSome := by
  by_cases hs : ∀ k, step k st = none
  · exact .inl (progress (apart ht) (run_good h (start_good hc)) (run_within h (start_within p)) hs)
  · obtain ⟨k, hk⟩ := Classical.not_forall.1 hs
    refine .inr ⟨k, ?_⟩
    cases hx : step k st with
    | none => exact absurd hx hk
    | some s => rfl

example : ∃ k, (step k Locks.demo.start).isSome := ⟨0, by decide +kernel⟩

/-- … and as no thread can go on for ever without doing what it has to do, every call returns in the end: however threads are scheduled,
after at most as many steps as there are operations all of them have finished. -/
theorem C104_returns_partial (p : Program) (ht : TasksApart p) (hc : CompressionApart p) (ks : List Nat) (st : State)
    (h : run p.start ks = some st) :
    ks.length ≤ (p.threads.map List.length).sum ∧
      (ks.length = (p.threads.map List.length).sum ↔ Finished st) ∧
      ∃ js st', run st js = some st' ∧ Finished st' := by
  have hl : left p.start = (p.threads.map List.length).sum := by
    simp [left, Program.start, Function.comp_def]
  have := run_left h
  refine ⟨by omega, ⟨fun e => ?_, fun hf => ?_⟩,
    completes (apart ht) (left st) (Nat.le_refl _) (run_good h (start_good hc)) (run_within h (start_within p))⟩
  · rcases C104_progress_partial p ht hc ks st h with hf | ⟨k, hk⟩
    · exact hf
    · obtain ⟨s, hs⟩ := Option.isSome_iff_exists.1 hk
      have := step_left hs
      omega
  · have : left st = 0 := by
      unfold left
      rw [List.sum_eq_zero_iff_forall_eq_nat]
      intro n hn
      obtain ⟨t, ht, rfl⟩ := List.mem_map.1 hn
      simp [(hf t ht).1]
    omega

/-- All of the demonstration can be run. -/
example : ∃ ks st, run Locks.demo.start ks = some st ∧ Finished st ∧ ks.length = (Locks.demo.threads.map List.length).sum := by
  obtain ⟨js, st', hr, hf⟩ := (C104_returns_partial Locks.demo Locks.demo_tasks Locks.demo_compression [] _ rfl).2.2
  exact ⟨js, st', hr, hf, ((C104_returns_partial Locks.demo Locks.demo_tasks Locks.demo_compression js st' hr).2.1).2 hf⟩

/-- Without the restrictions, threads may block one another.  First: a callback of a session, in the network thread, which has the mutex of the
socket locked, sends a compressed message while another thread, which has the mutex of the deflator locked, sends one. -/
theorem C104_violated_compression : ∃ p : Program, TasksApart p ∧ ∃ ks st, run p.start ks = some st ∧ Deadlock st [0, 4] := by
  refine ⟨{ network := [.event true 1 [.sendCompressed 1 0 false] 0], others := [[.call (.sendCompressed 1 0 false)]] }, by simp [TasksApart],
    [0, 0, 0, 0, 0, 0, 0, 0, 0, 0, 0, 4], _, by rfl, by simp, ?_⟩
  intro k hk
  simp only [List.mem_cons, List.not_mem_nil, or_false] at hk
  rcases hk with rfl | rfl
  · exact ⟨_, _, _, rfl, rfl, 4, by simp, _, rfl, by simp, by simp⟩
  · exact ⟨_, _, _, rfl, rfl, 0, by simp, _, rfl, by simp, by simp⟩

/-- Second: a task that is executing launches another one, while another thread, which has the mutex of the queue locked, is about to execute
the same task. -/
theorem C104_violated_task : ∃ p : Program, CompressionApart p ∧ ∃ ks st, run p.start ks = some st ∧ Deadlock st [4, 5] := by
  refine ⟨{ tasks := [[(1, some [.call .launchTask])], [(1, some [])]] }, fun s => .inl (by simp), [4, 4, 4, 4, 4, 5], _, by rfl, by simp, ?_⟩
  intro k hk
  simp only [List.mem_cons, List.not_mem_nil, or_false] at hk
  rcases hk with rfl | rfl
  · exact ⟨_, _, _, rfl, rfl, 5, by simp, _, rfl, by simp, by simp⟩
  · exact ⟨_, _, _, rfl, rfl, 4, by simp, _, rfl, by simp, by simp⟩

end Verif.Props
