import Verif.Proofs.Shutdown
import Verif.Props.Logger
/-!
# C111: stopping
-/
namespace Verif.Props
open Verif.Shutdown

/-- Everything that can be reached by a process `c` after it has been started; `levels`, `atomic` and `t` are whatever they are. -/
def ShutdownReach (c : Cfg) (s : Shutdown.Sys) : Prop := ∃ levels atomic t acts, Shutdown.run c (start levels atomic t) acts = some s

/-- C111: once the handlers have been installed, no stop signal kills the process, nor does one for a broken pipe or a child. -/
theorem C111_not_killed (c : Cfg) (s : Shutdown.Sys) (hr : ShutdownReach c s) (hh : Ev.handlers ∈ s.trace) (n : Nat) (hp : s.pc = .over (.signaled n)) : n ≠ 13 ∧ n ≠ 17 ∧ ¬ StopSignal n := by
  obtain ⟨levels, atomic, t, acts, h⟩ := hr
  exact ((ctl_run (ctl_start levels atomic t) acts h).fatal n hp).2 hh

/-- C111: the exit status of the process is 0 if and only if it has been stopped, which happens only after startup has been completed, and by a stop signal that has been delivered; otherwise something
has failed. -/
theorem C111_status (c : Cfg) (s : Shutdown.Sys) (hr : ShutdownReach c s) (code : Nat) (hp : s.pc = .over (.exited code)) :
    (code = 0 → Ev.ready ∈ s.trace ∧ ∃ n tr b, StopSignal n ∧ Ev.signal n b ∈ s.trace ∧ Ev.stopping n tr ∈ s.trace) ∧ (code ≠ 0 → Ev.failed ∈ s.trace) := by
  obtain ⟨levels, atomic, t, acts, h⟩ := hr
  have hc := ctl_run (ctl_start levels atomic t) acts h
  refine ⟨?_, hc.code code (by rw [hp]; rfl)⟩
  rintro rfl
  obtain ⟨n, tr, hs⟩ := hc.stop (.inr (by rw [hp]; rfl))
  obtain ⟨h1, b, h2⟩ := hc.stopOf n tr hs
  exact ⟨hc.ready (.inr (by rw [hp]; rfl)), n, tr, b, h1, h2, hs⟩

/-- C111: when a stop signal has been delivered after the handlers have been installed, then no more fibers are run, whatever happens thereafter, but at most one, if the main thread has just decided to go on; or
it sleeps once more instead.  If it has been sleeping, and handles the signal itself, then it wakes up. -/
theorem C111_prompt (c : Cfg) (s s1 s2 : Shutdown.Sys) (hh : ∀ k, s.pc ≠ .installing k) (n : Nat) (hn : StopSignal n) (b : Bool) (h1 : Shutdown.step c s (.signal n b) = some s1)
    (acts : List Shutdown.Act) (h2 : Shutdown.run c s1 acts = some s2) :
    (∃ new, s2.trace = new ++ s1.trace ∧ (rounds new).length ≤ if s.pc = .loop then 1 else 0) ∧ (∀ u, s.pc = .asleep u → b = true → s1.pc = .check) := by
  have key : Told s1 ∧ (s1.pc = .loop → s.pc = .loop) ∧ (∀ u, s.pc = .asleep u → b = true → s1.pc = .check) := by
    have hpos : n ≠ 0 := by rcases hn with rfl | rfl | rfl | rfl <;> simp
    cases step_step h1 with
    | sigNothing _ _ _ h => exact absurd ⟨hn, hh⟩ h
    | sigFatal _ _ _ h =>
      rcases h with ⟨k, h⟩ | h
      · exact absurd h (hh k)
      · exact absurd hn h.2.2
    | sigStore _ _ _ _ h => exact ⟨⟨hpos, hh⟩, fun e => e, fun u hu hb => absurd hu (h hb u)⟩
    | sigWake _ _ _ _ => exact ⟨⟨hpos, nofun⟩, nofun, fun _ _ _ => rfl⟩
  obtain ⟨k1, k2, k3⟩ := key
  obtain ⟨⟨new, g1, g2⟩, -⟩ := told_run k1 acts h2
  refine ⟨⟨new, g1, ?_⟩, k3⟩
  by_cases hl : s1.pc = .loop
  · rw [if_pos (k2 hl)]; rw [hl] at g2; simp only [budget] at g2; omega
  · have : budget s1.pc = 0 := by cases hp : s1.pc <;> first | rfl | exact absurd hp hl
    omega

/-- C111: then the main thread does no more than six steps until the process has ended. -/
theorem C111_bounded (c : Cfg) (s s1 s2 : Shutdown.Sys) (hh : ∀ k, s.pc ≠ .installing k) (n : Nat) (hn : StopSignal n) (b : Bool) (h1 : Shutdown.step c s (.signal n b) = some s1)
    (acts : List Shutdown.Act) (h2 : Shutdown.run c s1 acts = some s2) : (acts.filter ofMain).length ≤ 6 := by
  have key : Told s1 := by
    have hpos : n ≠ 0 := by rcases hn with rfl | rfl | rfl | rfl <;> simp
    cases step_step h1 with
    | sigNothing _ _ _ h => exact absurd ⟨hn, hh⟩ h
    | sigFatal _ _ _ h =>
      rcases h with ⟨k, h⟩ | h
      · exact absurd h (hh k)
      · exact absurd hn h.2.2
    | sigStore _ _ _ _ h => exact ⟨hpos, hh⟩
    | sigWake _ _ _ _ => exact ⟨hpos, nofun⟩
  have g := (told_run key acts h2).2
  have : rank s1.pc ≤ 6 := by
    cases hp : s1.pc with
    | installing k => exact absurd hp (key.pc k)
    | _ => simp [rank]
  omega

/-- C111: and it is not stuck on the way: when the PID file has been written or is not used, then unless the process has ended, the main thread can go on, or is asleep for no longer than half a second, or
is using the logger, where some thread can go on. -/
theorem C111_goes_on (c : Cfg) (s : Shutdown.Sys) (hr : ShutdownReach c s) (hp : ∀ f, s.pc ≠ .over f) (hw : s.pc ≠ .pidFile) :
    (∃ s', Shutdown.step c s .main = some s') ∨
    (s.pc = .loop ∧ ∀ async fate, ∃ l0 l l' s', Shutdown.step c s (.loop async fate l0 l l') = some s') ∨
    (∃ u, s.pc = .asleep u ∧ u ≤ s.clock + 500000000 ∧ ∀ d : Nat, u ≤ s.clock + d → ∃ s', Shutdown.run c s [.tick d, .main] = some s') ∨
    (s.log.pc 0 ≠ .idle ∧ ∃ t s', Shutdown.step c s (.log (.go t)) = some s') := by
  obtain ⟨levels, atomic, t, acts, h⟩ := hr
  have hc := ctl_run (ctl_start levels atomic t) acts h
  have hl := lg_run (lg_start levels atomic t) acts h
  have log : s.log.pc 0 ≠ .idle → running s.pc = true → ∃ t s', Shutdown.step c s (.log (.go t)) = some s' := by
    intro hi hrun
    obtain ⟨u, hu⟩ := C51_no_deadlock s.log hl.reach 0 hi (fun e => absurd (by rw [e]; rfl) hl.mode)
    obtain ⟨l, hu⟩ := Option.isSome_iff_exists.1 hu
    exact ⟨u, { s with log := l }, by simp [Shutdown.step, hrun, mayLog, hu]⟩
  cases hpc : s.pc with
  | installing k =>
    refine .inl ?_
    simp only [Shutdown.step, Shutdown.main, hpc]
    split <;> exact ⟨_, rfl⟩
  | pidFile => exact absurd hpc hw
  | starting =>
    by_cases hi : s.log.pc 0 = .idle
    · exact .inl ⟨_, by simp only [Shutdown.step, Shutdown.main, hpc, hi, if_true]; rfl⟩
    · exact .inr (.inr (.inr ⟨hi, log hi (by rw [hpc]; rfl)⟩))
  | check =>
    refine .inl ?_
    simp only [Shutdown.step, Shutdown.main, hpc]
    split <;> exact ⟨_, rfl⟩
  | loop =>
    refine .inr (.inl ⟨rfl, fun async fate => ?_⟩)
    obtain ⟨l0, l, l', ⟨f, d⟩, hx⟩ := loop_exists hc.fib s.clock async fate
    refine ⟨l0, l, l', ?_⟩
    simp only [Shutdown.step, hpc, hx]
    cases d <;> exact ⟨_, rfl⟩
  | asleep u =>
    refine .inr (.inr (.inl ⟨u, rfl, hc.sleep u hpc, fun d hd => ?_⟩))
    exact ⟨_, by simp only [Shutdown.run, Shutdown.step, Shutdown.main, hpc, hd, if_true]; rfl⟩
  | fiber i =>
    by_cases hi : s.log.pc 0 = .idle
    · exact .inl ⟨_, by simp only [Shutdown.step, Shutdown.main, hpc, hi, if_true]; rfl⟩
    · exact .inr (.inr (.inr ⟨hi, log hi (by rw [hpc]; rfl)⟩))
  | stopping => exact .inl ⟨_, by simp only [Shutdown.step, Shutdown.main, hpc]; rfl⟩
  | exiting code =>
    have hi := hl.idle (by rw [hpc]; rfl)
    exact .inl ⟨_, by simp only [Shutdown.step, Shutdown.main, hpc, Logger.step, hi, if_true, Option.map_some]; rfl⟩
  | syncing code =>
    by_cases hi : s.log.pc 0 = .idle
    · exact .inl ⟨_, by simp only [Shutdown.step, Shutdown.main, hpc, hi, if_true]; rfl⟩
    · exact .inr (.inr (.inr ⟨hi, log hi (by rw [hpc]; rfl)⟩))
  | over f => exact absurd hpc (hp f)

/-- C111: when the process has exited, every message that any thread had logged before it was stopped has been written, if its level exists and is not expendable in any configuration that was loaded; and so has the
message about the stop, if it has been logged. -/
theorem C111_logs (c : Cfg) (s : Shutdown.Sys) (hr : ShutdownReach c s) (code : Nat) (hp : s.pc = .over (.exited code)) (id l : Nat) (hl : Logger.Ev.enqueued id l ∈ s.log.trace)
    (hq : (∃ n tr, Ev.stopping n tr ∈ s.trace ∧ id ∈ Logger.enqueued tr) ∨ Ev.said id ∈ s.trace) (hk : ∀ lv, Logger.Ev.loaded lv ∈ s.log.trace → lv[l]? = some false) :
    Logger.Ev.written id ∈ s.log.trace := by
  obtain ⟨levels, atomic, t, acts, h⟩ := hr
  have g := lg_run (lg_start levels atomic t) acts h
  have hsy : synced s.pc = true := by rw [hp]; rfl
  have hb : id ∈ Logger.before 0 s.log.trace := by
    rcases hq with ⟨n, tr, h1, h2⟩ | hs
    · exact g.keptB hsy n tr h1 id h2
    · exact g.saidB hsy id hs
  rcases mem_handled id s.log.trace (g.done hsy (g.quitIdle code hp) id hb) with hw | ⟨k, hd⟩
  · exact hw
  · obtain ⟨h1, lv, h2, h3⟩ := C51_dropped s.log g.reach id k hd
    cases enqueued_level s.log g.reach id l k hl h1
    have := hk lv h2
    rcases h3 with h3 | h3
    · rw [List.getElem?_eq_none_iff.2 h3] at this; exact nomatch this
    · rw [h3.1] at this; exact nomatch this

/-- C111: when the process has exited, for whatever reason, then the PID file is empty if it had been written, unless another process has written it since then; and if there is a PID file, then a process
that has been stopped had written it. -/
theorem C111_pid_file (c : Cfg) (s : Shutdown.Sys) (hr : ShutdownReach c s) (code : Nat) (hp : s.pc = .over (.exited code)) :
    (PidFile.Act.write c.me ∈ s.pid.trace → ∃ post pre, s.pid.trace = post ++ .exit c.me :: pre ∧ ((∀ q, PidFile.Act.write q ∉ post) → s.pid.file = none)) ∧
    (c.pidFile = true → code = 0 → PidFile.Act.write c.me ∈ s.pid.trace) := by
  obtain ⟨levels, atomic, t, acts, h⟩ := hr
  have g := pd_run (pd_start c levels atomic t) acts h
  exact ⟨g.ended code hp, fun h1 h2 => g.did h1 (h2 ▸ hp)⟩

/-- A process with a PID file; a fiber, thread 1 which is the logger thread, and a signal while the main thread sleeps -/
def shutdownDemo : List Shutdown.Act :=
  [.main, .main, .main, .main, .main, .main, .main, .pid (.creat 3), .pid (.lock 3), .pid (.write 3), .pid (.unlock 3), .main, .launch 7 5 [⟨7, 5⟩], .log (.enqueue 3), .main, .main,
   .loop (fun _ => 0) (fun _ => none) [] [⟨7, 5⟩] [], .log (.enqueue 1), .main, .signal 13 true, .main, .loop (fun _ => 0) (fun _ => none) [] [] [], .signal 15 true, .signal 2 false, .main, .say, .main,
   .log (.go 0), .log (.go 0), .log (.go 0), .log (.go 0), .log (.go 0), .log (.go 0), .log (.enqueue 4), .log (.go 0), .main, .pid (.creat 4)]

example : ∃ s, Shutdown.run ⟨3, 9, true⟩ (start [false, false, false, false, false] true 10) shutdownDemo = some s ∧ s.pc = .over (.exited 0) ∧ Logger.written s.log.trace = [0, 1, 2] ∧
    Logger.enqueued s.log.trace = [0, 1, 2, 3] ∧ s.pid.file = none ∧ rounds s.trace = [.slept 1000, .took 7] ∧ Ev.said 2 ∈ s.trace ∧ Ev.signal 13 true ∈ s.trace ∧ s.sig = 2 :=
  ⟨_, rfl, rfl, by decide, by decide, rfl, by decide, by decide, by decide, rfl⟩

/-- Before the handlers are installed, the process is killed. -/
example : ∃ s, Shutdown.run ⟨3, 9, true⟩ (start [] true 10) [.main, .main, .signal 15 true] = some s ∧ s.pc = .over (.signaled 15) := ⟨_, rfl, rfl⟩

/-- A signal that comes during startup is not lost. -/
example : ∃ s, Shutdown.run ⟨3, 9, false⟩ (start [] true 10) [.main, .main, .main, .main, .main, .main, .main, .main, .signal 1 false, .main, .main, .main, .main, .log (.go 0), .log (.go 0), .main] = some s ∧
    s.pc = .over (.exited 0) ∧ rounds s.trace = [] := ⟨_, rfl, rfl, rfl⟩

/-- The main thread has just decided to go on. -/
example : ∃ s s1 s2 acts, Shutdown.run ⟨3, 9, false⟩ (start [] true 10) [.main, .main, .main, .main, .main, .main, .main, .main, .main, .main] = some s ∧ s.pc = .loop ∧
    Shutdown.step ⟨3, 9, false⟩ s (.signal 1 false) = some s1 ∧ Shutdown.run ⟨3, 9, false⟩ s1 acts = some s2 ∧ s2.pc = .over (.exited 0) ∧ (acts.filter ofMain).length = 6 :=
  ⟨_, _, _, [.loop (fun _ => 0) (fun _ => none) [] [] [], .tick 1000, .main, .main, .main, .main, .log (.go 0), .log (.go 0), .main], rfl, rfl, rfl, rfl, rfl, rfl⟩

end Verif.Props
