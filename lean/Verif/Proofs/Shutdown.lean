import Verif.Spec.Shutdown
import Verif.Spec.Logger
import Verif.Proofs.Logger
import Verif.Proofs.PidFile
import Verif.Proofs.FiberHeap
namespace Verif.Shutdown

/-- All transitions, one by one. -/
inductive Step (c : Cfg) (s : Sys) : Act → Sys → Prop
  | install (k : Nat) : s.pc = .installing k → k < 6 → Step c s .main { s with pc := .installing (k + 1) }
  | installed (k : Nat) : s.pc = .installing k → 6 ≤ k → Step c s .main { s with pc := .pidFile, trace := .handlers :: s.trace }
  | pidDone : s.pc = .pidFile → s.pid.st c.me = (if c.pidFile then .running else .fresh) → Step c s .main { s with pc := .starting }
  | ready : s.pc = .starting → s.log.pc 0 = .idle → Step c s .main { s with pc := .check, trace := .ready :: s.trace }
  | goOn : s.pc = .check → s.sig = 0 → Step c s .main { s with pc := .loop }
  | leave : s.pc = .check → s.sig ≠ 0 → Step c s .main { s with pc := .stopping, trace := .stopping s.sig s.log.trace :: s.trace }
  | wake (u : Int) : s.pc = .asleep u → u ≤ s.clock → Step c s .main { s with pc := .check }
  | back (i : Nat) : s.pc = .fiber i → s.log.pc 0 = .idle → Step c s .main { s with pc := .check }
  | silent : s.pc = .stopping → Step c s .main { s with pc := .exiting 0 }
  | sync (code : Nat) (l : Logger.Sys) : s.pc = .exiting code → Logger.step s.log (.call 0 .sync) = some l → Step c s .main { s with pc := .syncing code, log := l }
  | quit (code : Nat) : s.pc = .syncing code → s.log.pc 0 = .idle → Step c s .main { s with pc := .over (.exited code), pid := endPid c s (.exit c.me) }
  | say (l : Logger.Sys) : s.pc = .stopping → Logger.step s.log (.enqueue 3) = some l → Step c s .say { s with pc := .exiting 0, log := l, trace := .said s.log.ids :: s.trace }
  | fail (code : Nat) : (∃ k, s.pc = .installing k) ∨ s.pc = .pidFile ∨ s.pc = .starting → code ≠ 0 → s.log.pc 0 = .idle → Step c s (.fail code) { s with pc := .exiting code, trace := .failed :: s.trace }
  | throw : s.pc = .loop ∨ (∃ i, s.pc = .fiber i) → s.log.pc 0 = .idle → Step c s .throw { s with pc := .exiting 1, trace := .failed :: s.trace }
  | sleep (async : Nat → Int) (fate : FiberHeap.Item → Option Int) (l0 l l' : List FiberHeap.Item) (f : FiberHeap.Sys) (d : Int) : s.pc = .loop →
      FiberHeap.loop s.fib s.clock async fate l0 l l' = .ok (f, .slept d) → Step c s (.loop async fate l0 l l') { s with pc := .asleep (s.clock + d), fib := f, trace := .slept d :: s.trace }
  | take (async : Nat → Int) (fate : FiberHeap.Item → Option Int) (l0 l l' : List FiberHeap.Item) (f : FiberHeap.Sys) (e : FiberHeap.Item) (q : List FiberHeap.Item) : s.pc = .loop →
      FiberHeap.loop s.fib s.clock async fate l0 l l' = .ok (f, .took e q) → Step c s (.loop async fate l0 l l') { s with pc := .fiber e.id, fib := f, trace := .took e.id :: s.trace }
  | sigNothing (n : Nat) (b : Bool) : running s.pc = true → ¬ (StopSignal n ∧ ∀ k, s.pc ≠ .installing k) → Step c s (.signal n b) { s with trace := .signal n b :: s.trace }
  | sigFatal (n : Nat) (b : Bool) : running s.pc = true → ((∃ k, s.pc = .installing k) ∨ (n ≠ 13 ∧ n ≠ 17 ∧ ¬ StopSignal n)) →
      Step c s (.signal n b) { s with pc := .over (.signaled n), pid := endPid c s (.kill c.me), trace := .signal n b :: s.trace }
  | sigStore (n : Nat) (b : Bool) : running s.pc = true → StopSignal n → (b = true → ∀ u, s.pc ≠ .asleep u) → Step c s (.signal n b) { s with sig := n, trace := .signal n b :: s.trace }
  | sigWake (n : Nat) (u : Int) : s.pc = .asleep u → StopSignal n → Step c s (.signal n true) { s with sig := n, pc := .check, trace := .signal n true :: s.trace }
  | tick (d : Nat) : Step c s (.tick d) { s with clock := s.clock + d }
  | launch (id : Nat) (v : Int) (l : List FiberHeap.Item) (f : FiberHeap.Sys) : running s.pc = true → FiberHeap.launch s.fib id v l = .ok f → Step c s (.launch id v l) { s with fib := f }
  | log (a : Logger.Act) (l : Logger.Sys) : running s.pc = true → mayLog s a = true → Logger.step s.log a = some l → Step c s (.log a) { s with log := l }
  | pid (a : PidFile.Act) (p : PidFile.Sys) : doer a ≠ c.me ∨ (s.pc = .pidFile ∧ c.pidFile = true ∧ isEnd a = false) → PidFile.step c.n s.pid a = some p → Step c s (.pid a) { s with pid := p }

theorem disposition_all {n : Nat} : (disposition 6 n = .store ↔ StopSignal n) ∧ (disposition 6 n = .ignore ↔ n = 13 ∨ n = 17) := by
  have e : disposition 6 n = if n = 13 then .ignore else if n = 17 then .ignore else if n = 2 then .store else if n = 15 then .store else if n = 1 then .store else if n = 14 then .store else .default := by
    by_cases h1 : n = 13
    · subst h1; rfl
    by_cases h2 : n = 17
    · subst h2; rfl
    by_cases h3 : n = 2
    · subst h3; rfl
    by_cases h4 : n = 15
    · subst h4; rfl
    by_cases h5 : n = 1
    · subst h5; rfl
    by_cases h6 : n = 14
    · subst h6; rfl
    simp only [disposition, installs, List.take, List.lookup, beq_false_of_ne h1, beq_false_of_ne h2, beq_false_of_ne h3, beq_false_of_ne h4, beq_false_of_ne h5, beq_false_of_ne h6, if_neg h1, if_neg h2, if_neg h3, if_neg h4, if_neg h5, if_neg h6]
    rfl
  rw [e]
  unfold StopSignal
  by_cases h1 : n = 13 <;> by_cases h2 : n = 17 <;> by_cases h3 : n = 2 <;> by_cases h4 : n = 15 <;> by_cases h5 : n = 1 <;> by_cases h6 : n = 14 <;> simp_all

/-- Before all calls have been made, some of the signals have their dispositions. -/
theorem disposition_some {k n : Nat} (h : disposition k n ≠ .default) : disposition k n = disposition 6 n := by
  by_cases hk : 6 ≤ k
  · have : installs.take k = installs.take 6 := by rw [List.take_of_length_le (by simp [installs]; omega), List.take_of_length_le (by simp [installs])]
    simp only [disposition, this]
  · have : k = 0 ∨ k = 1 ∨ k = 2 ∨ k = 3 ∨ k = 4 ∨ k = 5 := by omega
    revert h
    rcases this with rfl | rfl | rfl | rfl | rfl | rfl <;> simp only [disposition, installs, List.take, List.lookup] <;> repeat' split <;> simp_all

theorem step_step {c : Cfg} {s s' : Sys} {a : Act} (h : step c s a = some s') : Step c s a s' := by
  cases a with
  | main =>
    simp only [step, main] at h
    split at h
    · rename_i k hp
      by_cases hk : k < installs.length
      · rw [if_pos hk] at h; cases h; exact .install k hp hk
      · rw [if_neg hk] at h; cases h; exact .installed k hp (by simp [installs] at hk; exact hk)
    · rename_i hp
      by_cases h1 : s.pid.st c.me = (if c.pidFile then .running else .fresh)
      · rw [if_pos h1] at h; cases h; exact .pidDone hp h1
      · rw [if_neg h1] at h; cases h
    · rename_i hp; split at h
      · rename_i h1; cases h; exact .ready hp h1
      · cases h
    · rename_i hp; split at h
      · rename_i h1; cases h; exact .goOn hp h1
      · rename_i h1; cases h; exact .leave hp h1
    · cases h
    · rename_i u hp; split at h
      · rename_i h1; cases h; exact .wake u hp h1
      · cases h
    · rename_i i hp; split at h
      · rename_i h1; cases h; exact .back i hp h1
      · cases h
    · rename_i hp; cases h; exact .silent hp
    · rename_i code hp
      obtain ⟨l, hl, e⟩ := Option.map_eq_some_iff.1 h
      cases e; exact .sync code l hp hl
    · rename_i code hp; split at h
      · rename_i h1; cases h; exact .quit code hp h1
      · cases h
    · cases h
  | say =>
    simp only [step] at h
    split at h
    · rename_i hp
      obtain ⟨l, hl, e⟩ := Option.map_eq_some_iff.1 h
      cases e; exact .say l hp hl
    · cases h
  | fail code =>
    simp only [step] at h
    split at h
    · rename_i k hp; split at h
      · rename_i h1; cases h; exact .fail code (.inl ⟨k, hp⟩) h1.1 h1.2
      · cases h
    · rename_i hp; split at h
      · rename_i h1; cases h; exact .fail code (.inr (.inl hp)) h1.1 h1.2
      · cases h
    · rename_i hp; split at h
      · rename_i h1; cases h; exact .fail code (.inr (.inr hp)) h1.1 h1.2
      · cases h
    · cases h
  | throw =>
    simp only [step] at h
    split at h
    · rename_i hp; split at h
      · rename_i h1; cases h; exact .throw (.inl hp) h1
      · cases h
    · rename_i i hp; split at h
      · rename_i h1; cases h; exact .throw (.inr ⟨i, hp⟩) h1
      · cases h
    · cases h
  | loop async fate l0 l l' =>
    simp only [step] at h
    split at h
    · rename_i hp; split at h
      · rename_i f d h1; cases h; exact .sleep async fate l0 l l' f d hp h1
      · rename_i f e q h1; cases h; exact .take async fate l0 l l' f e q hp h1
      · cases h
    · cases h
  | signal n b =>
    simp only [step] at h
    split at h
    · rename_i hr
      cases h
      unfold signal
      have hk6 : (∀ j, s.pc ≠ .installing j) → calls s.pc = 6 := by
        intro hj
        cases hp : s.pc with
        | installing j => exact absurd hp (hj j)
        | _ => rfl
      cases hd : disposition (calls s.pc) n with
      | default =>
        simp only
        by_cases hh : n ∈ harmless
        · rw [if_pos hh]
          refine .sigNothing n b hr ?_
          rintro ⟨hs, hj⟩
          rw [hk6 hj, disposition_all.1.2 hs] at hd
          cases hd
        · rw [if_neg hh]
          refine .sigFatal n b hr ?_
          by_cases hj : ∃ j, s.pc = .installing j
          · exact .inl hj
          · have hj' : ∀ j, s.pc ≠ .installing j := fun j e => hj ⟨j, e⟩
            rw [hk6 hj'] at hd
            refine .inr ⟨?_, ?_, ?_⟩
            · intro e; rw [(disposition_all (n := n)).2.2 (.inl e)] at hd; cases hd
            · intro e; rw [(disposition_all (n := n)).2.2 (.inr e)] at hd; cases hd
            · intro e; rw [(disposition_all (n := n)).1.2 e] at hd; cases hd
      | ignore =>
        refine .sigNothing n b hr ?_
        rintro ⟨hs, hj⟩
        rw [hk6 hj, disposition_all.1.2 hs] at hd
        cases hd
      | store =>
        have hs : StopSignal n := disposition_all.1.1 (by rw [← disposition_some (by rw [hd]; nofun), hd])
        simp only
        split
        · rename_i u hp
          cases b with
          | true => exact .sigWake n u hp hs
          | false => exact .sigStore n false hr hs nofun
        · rename_i hp
          exact .sigStore n b hr hs fun _ u e => hp u e
    · cases h
  | tick d => cases h; exact .tick d
  | launch id v l =>
    simp only [step] at h
    split at h
    · rename_i hr; split at h
      · rename_i f hf; cases h; exact .launch id v l f hr hf
      · cases h
    · cases h
  | log a =>
    simp only [step] at h
    split at h
    · rename_i hr
      obtain ⟨l, hl, e⟩ := Option.map_eq_some_iff.1 h
      have := Bool.and_eq_true_iff.1 hr
      cases e; exact .log a l this.1 this.2 hl
    · cases h
  | pid a =>
    simp only [step] at h
    split at h
    · rename_i hr
      obtain ⟨l, hl, e⟩ := Option.map_eq_some_iff.1 h
      cases e; exact .pid a l hr hl
    · cases h

/-! ## Control -/

def serving : Pc → Bool
  | .check | .loop | .asleep _ | .fiber _ | .stopping => true
  | _ => false

/-- The process is to exit with this status, or has done so. -/
def exitCode : Pc → Option Nat
  | .exiting n | .syncing n | .over (.exited n) => some n
  | _ => none

structure Ctl (s : Sys) : Prop where
  early : ∀ k, s.pc = .installing k → Ev.handlers ∉ s.trace
  handlers : serving s.pc = true ∨ s.pc = .pidFile ∨ s.pc = .starting → Ev.handlers ∈ s.trace
  ready : serving s.pc = true ∨ exitCode s.pc = some 0 → Ev.ready ∈ s.trace
  sig : s.sig ≠ 0 → StopSignal s.sig ∧ ∃ b, Ev.signal s.sig b ∈ s.trace
  stopOf : ∀ n tr, Ev.stopping n tr ∈ s.trace → StopSignal n ∧ ∃ b, Ev.signal n b ∈ s.trace
  stop : s.pc = .stopping ∨ exitCode s.pc = some 0 → ∃ n tr, Ev.stopping n tr ∈ s.trace
  code : ∀ n, exitCode s.pc = some n → n ≠ 0 → Ev.failed ∈ s.trace
  fatal : ∀ n, s.pc = .over (.signaled n) → (∃ b, Ev.signal n b ∈ s.trace) ∧ (Ev.handlers ∈ s.trace → n ≠ 13 ∧ n ≠ 17 ∧ ¬ StopSignal n)
  sleep : ∀ u, s.pc = .asleep u → u ≤ s.clock + 500000000
  fib : FiberHeap.Inv s.fib

theorem ctl_start (levels : List Bool) (atomic : Bool) (t : Int) : Ctl (start levels atomic t) where
  early := by simp [start]
  handlers := by simp [start, serving]
  ready := by simp [start, serving, exitCode]
  sig := by simp [start]
  stopOf := by simp [start]
  stop := by simp [start, exitCode]
  code := by simp [start, exitCode]
  fatal := by simp [start]
  sleep := by simp [start]
  fib := ⟨rfl, by simp [start]⟩

theorem keep_sig {n : Nat} {tr : List Ev} (e : Ev) (h : n ≠ 0 → StopSignal n ∧ ∃ b, Ev.signal n b ∈ tr) (hn : n ≠ 0) : StopSignal n ∧ ∃ b, Ev.signal n b ∈ e :: tr := by
  obtain ⟨g1, b, g2⟩ := h hn
  exact ⟨g1, b, List.mem_cons_of_mem _ g2⟩

theorem keep_stop {tr : List Ev} (e : Ev) (h : ∀ n l, Ev.stopping n l ∈ tr → StopSignal n ∧ ∃ b, Ev.signal n b ∈ tr) (he : ∀ n l, e ≠ Ev.stopping n l) (n : Nat) (l : List Logger.Ev)
    (hm : Ev.stopping n l ∈ e :: tr) : StopSignal n ∧ ∃ b, Ev.signal n b ∈ e :: tr := by
  rcases List.mem_cons.1 hm with hm | hm
  · exact absurd hm.symm (he n l)
  · obtain ⟨g1, b, g2⟩ := h n l hm
    exact ⟨g1, b, List.mem_cons_of_mem _ g2⟩

theorem ctl_step {c : Cfg} {s s' : Sys} {a : Act} (h : Ctl s) (hs : step c s a = some s') : Ctl s' := by
  obtain ⟨e1, e2, e3, e4, e5, e6, e7, e8, e9, e10⟩ := h
  cases step_step hs with
  | install k hp hk => refine ⟨?_, ?_, ?_, e4, e5, ?_, ?_, ?_, ?_, e10⟩ <;> simp_all [serving, exitCode]
  | installed k hp hk => refine ⟨?_, ?_, ?_, keep_sig _ e4, keep_stop _ e5 nofun, ?_, ?_, ?_, ?_, e10⟩ <;> simp_all [serving, exitCode]
  | pidDone hp _ => refine ⟨?_, ?_, ?_, e4, e5, ?_, ?_, ?_, ?_, e10⟩ <;> simp_all [serving, exitCode]
  | ready hp _ => refine ⟨?_, ?_, ?_, keep_sig _ e4, keep_stop _ e5 nofun, ?_, ?_, ?_, ?_, e10⟩ <;> simp_all [serving, exitCode]
  | goOn hp _ => refine ⟨?_, ?_, ?_, e4, e5, ?_, ?_, ?_, ?_, e10⟩ <;> simp_all [serving, exitCode]
  | leave hp hsig =>
    refine ⟨?_, ?_, ?_, ?_, ?_, ?_, ?_, ?_, ?_, e10⟩
    case refine_5 =>
      intro n tr hm
      rcases List.mem_cons.1 hm with hm | hm
      · cases hm
        obtain ⟨g1, b, g2⟩ := e4 hsig
        exact ⟨g1, b, List.mem_cons_of_mem _ g2⟩
      · obtain ⟨g1, b, g2⟩ := e5 n tr hm
        exact ⟨g1, b, List.mem_cons_of_mem _ g2⟩
    case refine_6 => exact fun _ => ⟨_, _, List.mem_cons_self ..⟩
    all_goals simp_all [serving, exitCode]
  | wake u hp _ => refine ⟨?_, ?_, ?_, e4, e5, ?_, ?_, ?_, ?_, e10⟩ <;> simp_all [serving, exitCode]
  | back i hp _ => refine ⟨?_, ?_, ?_, e4, e5, ?_, ?_, ?_, ?_, e10⟩ <;> simp_all [serving, exitCode]
  | silent hp => refine ⟨?_, ?_, ?_, e4, e5, ?_, ?_, ?_, ?_, e10⟩ <;> simp_all [serving, exitCode]
  | sync code l hp _ => refine ⟨?_, ?_, ?_, e4, e5, ?_, ?_, ?_, ?_, e10⟩ <;> simp_all [serving, exitCode]
  | quit code hp _ => refine ⟨?_, ?_, ?_, e4, e5, ?_, ?_, ?_, ?_, e10⟩ <;> simp_all [serving, exitCode]
  | say l hp _ => refine ⟨?_, ?_, ?_, keep_sig _ e4, keep_stop _ e5 nofun, ?_, ?_, ?_, ?_, e10⟩ <;> simp_all [serving, exitCode]
  | fail code hp _ _ => refine ⟨?_, ?_, ?_, keep_sig _ e4, keep_stop _ e5 nofun, ?_, ?_, ?_, ?_, e10⟩ <;> simp_all [serving, exitCode]
  | throw hp _ => refine ⟨?_, ?_, ?_, keep_sig _ e4, keep_stop _ e5 nofun, ?_, ?_, ?_, ?_, e10⟩ <;> simp_all [serving, exitCode]
  | sleep async fate l0 l l' f d hp hl =>
    obtain ⟨g1, g2⟩ := (FiberHeap.loop_inv e10 s.clock async fate l0 l l').2 _ _ hl
    have hd : d ≤ 500000000 := by
      rcases g2 with ⟨w, hw, _, h2, _⟩ | ⟨_, _, _, hw, _⟩ <;> cases hw
      exact h2
    refine ⟨?_, ?_, ?_, keep_sig _ e4, keep_stop _ e5 nofun, ?_, ?_, ?_, ?_, g1⟩
    case refine_7 => rintro u ⟨⟩; simp only; omega
    all_goals simp_all [serving, exitCode]
  | take async fate l0 l l' f e q hp hl =>
    obtain ⟨g1, g2⟩ := (FiberHeap.loop_inv e10 s.clock async fate l0 l l').2 _ _ hl
    refine ⟨?_, ?_, ?_, keep_sig _ e4, keep_stop _ e5 nofun, ?_, ?_, ?_, ?_, g1⟩ <;> simp_all [serving, exitCode]
  | sigNothing n b hr _ =>
    refine ⟨?_, ?_, ?_, ?_, ?_, ?_, ?_, ?_, ?_, e10⟩
    case refine_4 => exact keep_sig _ e4
    case refine_5 => exact keep_stop _ e5 nofun
    case refine_8 => intro m hm; simp only at hm; rw [hm] at hr; cases hr
    all_goals simp_all
  | sigFatal n b hr hn =>
    refine ⟨?_, ?_, ?_, ?_, ?_, ?_, ?_, ?_, ?_, e10⟩
    case refine_4 => exact keep_sig _ e4
    case refine_5 => exact keep_stop _ e5 nofun
    case refine_8 =>
      rintro m ⟨⟩
      refine ⟨⟨b, List.mem_cons_self ..⟩, fun hh => ?_⟩
      rcases hn with ⟨k, hk⟩ | hn
      · rcases List.mem_cons.1 hh with hh | hh
        · cases hh
        · exact absurd hh (e1 k hk)
      · exact hn
    all_goals simp_all [serving, exitCode]
  | sigStore n b hr hn _ =>
    refine ⟨?_, ?_, ?_, ?_, ?_, ?_, ?_, ?_, ?_, e10⟩
    case refine_4 => exact fun _ => ⟨hn, b, List.mem_cons_self ..⟩
    case refine_5 => exact keep_stop _ e5 nofun
    case refine_8 => intro m hm; simp only at hm; rw [hm] at hr; cases hr
    all_goals simp_all
  | sigWake n u hp hn =>
    refine ⟨?_, ?_, ?_, ?_, ?_, ?_, ?_, ?_, ?_, e10⟩
    case refine_4 => exact fun _ => ⟨hn, true, List.mem_cons_self ..⟩
    case refine_5 => exact keep_stop _ e5 nofun
    all_goals simp_all [serving, exitCode]
  | tick d =>
    refine ⟨e1, e2, e3, e4, e5, e6, e7, e8, ?_, e10⟩
    intro u hu; have := e9 u hu; simp only; omega
  | launch id v l f _ hf => exact ⟨e1, e2, e3, e4, e5, e6, e7, e8, e9, ((FiberHeap.launch_inv e10 id v l).2 f hf).1⟩
  | log a l _ _ _ => exact ⟨e1, e2, e3, e4, e5, e6, e7, e8, e9, e10⟩
  | pid a p _ _ => exact ⟨e1, e2, e3, e4, e5, e6, e7, e8, e9, e10⟩

theorem ctl_run {c : Cfg} {s s' : Sys} (h : Ctl s) (acts : List Act) (hr : run c s acts = some s') : Ctl s' := by
  induction acts generalizing s with
  | nil => cases hr; exact h
  | cons a as ih =>
    simp only [run] at hr
    split at hr
    · cases hr
    · rename_i s1 hs; exact ih (ctl_step h hs) hr

/-! ## Rounds and steps after a stop signal -/

/-- A stop signal has been handled. -/
structure Told (s : Sys) : Prop where
  sig : s.sig ≠ 0
  pc : ∀ k, s.pc ≠ .installing k

def budget : Pc → Nat
  | .loop => 1
  | _ => 0

def rank : Pc → Nat
  | .over _ => 0
  | .syncing _ => 1
  | .exiting _ => 2
  | .stopping => 3
  | .check => 4
  | .asleep _ | .fiber _ | .starting => 5
  | .loop | .pidFile => 6
  | .installing k => 13 - k

theorem told_step {c : Cfg} {s s' : Sys} {a : Act} (h : Told s) (hs : step c s a = some s') :
    Told s' ∧ (∃ new, s'.trace = new ++ s.trace ∧ (rounds new).length + budget s'.pc ≤ budget s.pc) ∧ rank s'.pc + (if ofMain a then 1 else 0) ≤ rank s.pc := by
  obtain ⟨h1, h2⟩ := h
  cases step_step hs with
  | install k hp hk => exact absurd hp (h2 k)
  | installed k hp hk => exact absurd hp (h2 k)
  | pidDone hp _ => exact ⟨⟨h1, nofun⟩, ⟨[], rfl, Nat.zero_le _⟩, by rw [hp]; exact Nat.le_refl 6⟩
  | ready hp _ => exact ⟨⟨h1, nofun⟩, ⟨[_], rfl, Nat.zero_le _⟩, by rw [hp]; exact Nat.le_refl 5⟩
  | goOn hp h => exact absurd h h1
  | leave hp _ => exact ⟨⟨h1, nofun⟩, ⟨[_], rfl, Nat.zero_le _⟩, by rw [hp]; exact Nat.le_refl 4⟩
  | wake u hp _ => exact ⟨⟨h1, nofun⟩, ⟨[], rfl, Nat.zero_le _⟩, by rw [hp]; exact Nat.le_refl 5⟩
  | back i hp _ => exact ⟨⟨h1, nofun⟩, ⟨[], rfl, Nat.zero_le _⟩, by rw [hp]; exact Nat.le_refl 5⟩
  | silent hp => exact ⟨⟨h1, nofun⟩, ⟨[], rfl, Nat.zero_le _⟩, by rw [hp]; exact Nat.le_refl 3⟩
  | sync code l hp _ => exact ⟨⟨h1, nofun⟩, ⟨[], rfl, Nat.zero_le _⟩, by rw [hp]; exact Nat.le_refl 2⟩
  | quit code hp _ => exact ⟨⟨h1, nofun⟩, ⟨[], rfl, Nat.zero_le _⟩, by rw [hp]; exact Nat.le_refl 1⟩
  | say l hp _ => exact ⟨⟨h1, nofun⟩, ⟨[_], rfl, Nat.zero_le _⟩, by rw [hp]; exact Nat.le_refl 3⟩
  | fail code hp _ _ =>
    refine ⟨⟨h1, nofun⟩, ⟨[_], rfl, Nat.zero_le _⟩, ?_⟩
    rcases hp with ⟨k, hp⟩ | hp | hp
    · exact absurd hp (h2 k)
    · rw [hp]; simp [rank, ofMain]
    · rw [hp]; simp [rank, ofMain]
  | throw hp _ =>
    refine ⟨⟨h1, nofun⟩, ⟨[_], rfl, Nat.zero_le _⟩, ?_⟩
    rcases hp with hp | ⟨i, hp⟩ <;> rw [hp] <;> simp [rank, ofMain]
  | sleep async fate l0 l l' f d hp hl => exact ⟨⟨h1, nofun⟩, ⟨[_], rfl, by rw [hp]; exact Nat.le_refl 1⟩, by rw [hp]; exact Nat.le_refl 6⟩
  | take async fate l0 l l' f e q hp hl => exact ⟨⟨h1, nofun⟩, ⟨[_], rfl, by rw [hp]; exact Nat.le_refl 1⟩, by rw [hp]; exact Nat.le_refl 6⟩
  | sigNothing n b hr _ => exact ⟨⟨h1, h2⟩, ⟨[_], rfl, by simp [rounds]⟩, by simp [ofMain]⟩
  | sigFatal n b hr hn => exact ⟨⟨h1, nofun⟩, ⟨[_], rfl, by simp [rounds, budget]⟩, by simp [ofMain, rank]⟩
  | sigStore n b hr hn _ => exact ⟨⟨by rcases hn with rfl | rfl | rfl | rfl <;> simp, h2⟩, ⟨[_], rfl, by simp [rounds]⟩, by simp [ofMain]⟩
  | sigWake n u hp hn => exact ⟨⟨by rcases hn with rfl | rfl | rfl | rfl <;> simp, nofun⟩, ⟨[_], rfl, by simp [rounds, budget]⟩, by rw [hp]; simp [ofMain, rank]⟩
  | tick d => exact ⟨⟨h1, h2⟩, ⟨[], rfl, by simp [rounds]⟩, by simp [ofMain]⟩
  | launch id v l f _ hf => exact ⟨⟨h1, h2⟩, ⟨[], rfl, by simp [rounds]⟩, by simp [ofMain]⟩
  | log a l _ _ _ => exact ⟨⟨h1, h2⟩, ⟨[], rfl, by simp [rounds]⟩, by simp [ofMain]⟩
  | pid a p _ _ => exact ⟨⟨h1, h2⟩, ⟨[], rfl, by simp [rounds]⟩, by simp [ofMain]⟩

theorem rounds_append (a b : List Ev) : rounds (a ++ b) = rounds a ++ rounds b := by
  induction a with
  | nil => rfl
  | cons e a ih => cases e <;> simp [rounds, ih]

theorem told_run {c : Cfg} {s s' : Sys} (h : Told s) (acts : List Act) (hr : run c s acts = some s') :
    (∃ new, s'.trace = new ++ s.trace ∧ (rounds new).length + budget s'.pc ≤ budget s.pc) ∧ rank s'.pc + (acts.filter ofMain).length ≤ rank s.pc := by
  induction acts generalizing s with
  | nil => cases hr; exact ⟨⟨[], rfl, by simp [rounds]⟩, by simp⟩
  | cons a as ih =>
    simp only [run] at hr
    split at hr
    · cases hr
    · rename_i s1 hs
      obtain ⟨g1, ⟨new, g2, g3⟩, g4⟩ := told_step h hs
      obtain ⟨⟨new', k2, k3⟩, k4⟩ := ih g1 hr
      refine ⟨⟨new' ++ new, by rw [k2, g2, List.append_assoc], ?_⟩, ?_⟩
      · rw [rounds_append, List.length_append]; omega
      · rw [List.filter_cons]
        cases hb : ofMain a <;> rw [hb] at g4 <;> simp only [Bool.false_eq_true, if_true, if_false, List.length_cons] at g4 ⊢ <;> omega

/-! ## The logger -/

def modeOf : Logger.Pc → Option Logger.Mode
  | .idle => none
  | .entering m | .locking m | .reading m _ _ | .writing m _ _ _ => some m

open Logger in
theorem before_ret (s : Logger.Sys) (t : Nat) (m : Mode) : before 0 (ret s t m) = before 0 s.trace ∧ handled (ret s t m) = handled s.trace ∧ enqueued (ret s t m) = enqueued s.trace := by
  unfold ret
  split <;> exact ⟨rfl, rfl, rfl⟩

open Logger in
/-- What a step of the logger does to its history, and to the main thread. -/
theorem log_step {s s' : Logger.Sys} {a : Logger.Act} (hr : Reachable s) (hs : Logger.step s a = some s') :
    (∀ id ∈ enqueued s.trace, id ∈ enqueued s'.trace) ∧ (∀ id ∈ handled s.trace, id ∈ handled s'.trace) ∧ (a ≠ .call 0 .sync → before 0 s'.trace = before 0 s.trace) ∧
    ((∀ m, a ≠ .call 0 m) → (s.pc 0 = .idle → s'.pc 0 = .idle) ∧ (modeOf (s'.pc 0) = some .loop → modeOf (s.pc 0) = some .loop)) ∧
    (s.pc 0 ≠ .idle → s'.pc 0 = .idle → modeOf (s.pc 0) = some .sync → ∀ id ∈ before 0 s'.trace, id ∈ handled s'.trace) := by
  have ok' := (Logger.inv (.step a hr hs)).ok
  cases a with
  | enqueue level =>
    simp only [Logger.step] at hs
    split at hs
    · cases hs
      exact ⟨fun id h => List.mem_append_left _ h, fun _ h => h, fun _ => rfl, fun _ => ⟨fun h => h, fun h => h⟩, fun h1 h2 => absurd h2 h1⟩
    · cases hs
  | reload levels =>
    simp only [Logger.step] at hs
    split at hs
    · cases hs
      exact ⟨fun _ h => h, fun _ h => h, fun _ => rfl, fun _ => ⟨fun h => h, fun h => h⟩, fun h1 h2 => absurd h2 h1⟩
    · cases hs
  | call t m =>
    simp only [Logger.step] at hs
    split at hs
    · rename_i hi
      cases hs
      refine ⟨?_, ?_, ?_, ?_, ?_⟩
      · intro id h; cases m <;> exact h
      · intro id h; cases m <;> exact h
      · intro hne
        cases m with
        | loop => rfl
        | sync =>
          have : t ≠ 0 := fun e => hne (by rw [e])
          simp [before, this]
      · intro hne
        have : t ≠ 0 := fun e => hne m (by rw [e])
        simp only [upd_other _ _ (Ne.symm this)]
        exact ⟨fun h => h, fun h => h⟩
      · intro h1 h2
        by_cases ht : t = 0
        · subst ht; exact absurd hi h1
        · simp only [upd_other _ _ (Ne.symm ht)] at h2
          exact absurd h2 h1
    · cases hs
  | go t =>
    have hs' := hs
    simp only [Logger.step, Logger.go] at hs
    have other : ∀ {x : Logger.Pc}, s'.pc = upd s.pc t x → t ≠ 0 → s'.pc 0 = s.pc 0 := fun e ht => by rw [e, upd_other _ _ (Ne.symm ht)]
    have key : ∀ {x : Logger.Pc}, s'.pc = upd s.pc t x → s.pc t ≠ .idle → (modeOf x = some .loop → modeOf (s.pc t) = some .loop) →
        (s.pc 0 = .idle → s'.pc 0 = .idle) ∧ (modeOf (s'.pc 0) = some .loop → modeOf (s.pc 0) = some .loop) := by
      intro x e hn hm
      by_cases ht : t = 0
      · subst ht
        refine ⟨fun h => absurd h hn, ?_⟩
        rw [e]; simp only [upd, if_true]; exact hm
      · rw [other e ht]; exact ⟨fun h => h, fun h => h⟩
    have last : ∀ {x : Logger.Pc}, s'.pc = upd s.pc t x → x ≠ .idle → s.pc 0 ≠ .idle → s'.pc 0 = .idle → modeOf (s.pc 0) = some .sync → ∀ id ∈ before 0 s'.trace, id ∈ handled s'.trace := by
      intro x e hx h1 h2
      by_cases ht : t = 0
      · subst ht; rw [e] at h2; simp only [upd, if_true] at h2; exact absurd h2 hx
      · rw [other e ht] at h2; exact absurd h2 h1
    have final : ∀ {m : Mode}, s'.pc = upd s.pc t .idle → s'.trace = ret s t m → modeOf (s.pc t) = some m → s.pc 0 ≠ .idle → s'.pc 0 = .idle → modeOf (s.pc 0) = some .sync →
        ∀ id ∈ before 0 s'.trace, id ∈ handled s'.trace := by
      intro m e htr hm h1 h2 h3
      by_cases ht : t = 0
      · subst ht
        rw [hm] at h3; cases h3
        rw [htr] at ok' ⊢
        exact ok'.1
      · rw [other e ht] at h2; exact absurd h2 h1
    split at hs
    · rename_i m hp
      split at hs
      · cases hs
        exact ⟨fun _ h => h, fun _ h => h, fun _ => rfl, fun _ => key rfl (by rw [hp]; nofun) (by rw [hp]; exact fun h => h), last rfl nofun⟩
      · cases hs
    · rename_i m hp
      split at hs
      · split at hs
        · cases hs
          obtain ⟨b1, b2, b3⟩ := before_ret s t m
          refine ⟨fun _ h => by rw [b3]; exact h, fun _ h => by rw [b2]; exact h, fun _ => b1, fun _ => key rfl (by rw [hp]; nofun) nofun, final (m := m) rfl rfl (by rw [hp]; rfl)⟩
        · cases hs
          exact ⟨fun _ h => h, fun _ h => h, fun _ => rfl, fun _ => key rfl (by rw [hp]; nofun) (by rw [hp]; exact fun h => h), last rfl nofun⟩
      · cases hs
    · rename_i m n todo hp
      cases hs
      exact ⟨fun _ h => h, fun _ h => h, fun _ => rfl, fun _ => key rfl (by rw [hp]; nofun) (by rw [hp]; exact fun h => h), last rfl nofun⟩
    · rename_i m n levels msg todo hp
      cases hs
      obtain ⟨b1, b2, b3, -⟩ := handled_handle m n levels msg s.trace
      exact ⟨fun _ h => by rw [b2]; exact h, fun _ h => by rw [b1]; exact List.mem_append_left _ h, fun _ => b3 0,
        fun _ => key rfl (by rw [hp]; nofun) (by rw [hp]; exact fun h => h), last rfl nofun⟩
    · rename_i m n levels hp
      cases hs
      obtain ⟨b1, b2, b3⟩ := before_ret s t m
      exact ⟨fun _ h => by rw [b3]; exact h, fun _ h => by rw [b2]; exact h, fun _ => b1, fun _ => key rfl (by rw [hp]; nofun) nofun, final (m := m) rfl rfl (by rw [hp]; rfl)⟩
    · cases hs

def synced : Pc → Bool
  | .syncing _ | .over (.exited _) => true
  | _ => false

/-- Where the main thread may be using the logger -/
def busy : Pc → Bool
  | .starting | .fiber _ | .syncing _ | .over _ => true
  | _ => false

structure Lg (s : Sys) : Prop where
  reach : Logger.Reachable s.log
  idle : busy s.pc = false → s.log.pc 0 = .idle
  quitIdle : ∀ n, s.pc = .over (.exited n) → s.log.pc 0 = .idle
  mode : modeOf (s.log.pc 0) ≠ some .loop
  kept : ∀ n tr, Ev.stopping n tr ∈ s.trace → ∀ id ∈ Logger.enqueued tr, id ∈ Logger.enqueued s.log.trace
  said : ∀ id, Ev.said id ∈ s.trace → id ∈ Logger.enqueued s.log.trace ∧ Logger.Ev.enqueued id 3 ∈ s.log.trace
  keptB : synced s.pc = true → ∀ n tr, Ev.stopping n tr ∈ s.trace → ∀ id ∈ Logger.enqueued tr, id ∈ Logger.before 0 s.log.trace
  saidB : synced s.pc = true → ∀ id, Ev.said id ∈ s.trace → id ∈ Logger.before 0 s.log.trace
  done : synced s.pc = true → s.log.pc 0 = .idle → ∀ id ∈ Logger.before 0 s.log.trace, id ∈ Logger.handled s.log.trace

theorem lg_start (levels : List Bool) (atomic : Bool) (t : Int) : Lg (start levels atomic t) where
  reach := .init levels
  idle := fun _ => rfl
  quitIdle := nofun
  mode := nofun
  kept := nofun
  said := nofun
  keptB := nofun
  saidB := nofun
  done := nofun

theorem trace_step {s s' : Logger.Sys} {a : Logger.Act} (hs : Logger.step s a = some s') : ∀ e ∈ s.trace, e ∈ s'.trace := by
  intro e he
  cases a with
  | enqueue level => simp only [Logger.step] at hs; split at hs <;> cases hs; exact List.mem_cons_of_mem _ he
  | reload levels => simp only [Logger.step] at hs; split at hs <;> cases hs; exact List.mem_cons_of_mem _ he
  | call t m =>
    simp only [Logger.step] at hs
    split at hs <;> cases hs
    cases m
    · exact he
    · exact List.mem_cons_of_mem _ he
  | go t =>
    have hr : ∀ t m, e ∈ Logger.ret s t m := by
      intro t m; unfold Logger.ret; split
      · exact List.mem_cons_of_mem _ he
      · exact he
    simp only [Logger.step, Logger.go] at hs
    split at hs
    · split at hs <;> cases hs; exact he
    · split at hs
      · split at hs <;> cases hs
        · exact hr _ _
        · exact he
      · cases hs
    · cases hs; exact he
    · cases hs; exact List.mem_cons_of_mem _ he
    · cases hs; exact hr _ _
    · cases hs

/-- Nothing that concerns the logger is changed. -/
theorem Lg.keep {s s' : Sys} (h : Lg s) (hl : s'.log = s.log) (hi : busy s'.pc = false → busy s.pc = false ∨ s.log.pc 0 = .idle) (hq : ∀ n, s'.pc = .over (.exited n) → s.log.pc 0 = .idle)
    (hs : synced s'.pc = true → synced s.pc = true)
    (ht : ∀ n tr, Ev.stopping n tr ∈ s'.trace → Ev.stopping n tr ∈ s.trace) (hd : ∀ i, Ev.said i ∈ s'.trace → Ev.said i ∈ s.trace) : Lg s' where
  reach := hl ▸ h.reach
  idle := fun e => by rw [hl]; exact (hi e).elim h.idle id
  quitIdle := fun n e => by rw [hl]; exact hq n e
  mode := by rw [hl]; exact h.mode
  kept := fun n tr hm => by rw [hl]; exact h.kept n tr (ht n tr hm)
  said := fun id hm => by rw [hl]; exact h.said id (hd id hm)
  keptB := fun e n tr hm => by rw [hl]; exact h.keptB (hs e) n tr (ht n tr hm)
  saidB := fun e id hm => by rw [hl]; exact h.saidB (hs e) id (hd id hm)
  done := fun e => by rw [hl]; exact h.done (hs e)

theorem lg_step {c : Cfg} {s s' : Sys} {a : Act} (h : Lg s) (hs : step c s a = some s') : Lg s' := by
  cases step_step hs with
  | install k hp hk => exact h.keep rfl (fun _ => .inl (by rw [hp]; rfl)) nofun nofun (fun _ _ h => h) (fun _ h => h)
  | installed k hp hk => exact h.keep rfl (fun _ => .inl (by rw [hp]; rfl)) nofun nofun (by simp) (by simp)
  | pidDone hp _ => exact h.keep rfl (fun _ => .inl (by rw [hp]; rfl)) nofun nofun (fun _ _ h => h) (fun _ h => h)
  | ready hp hi => exact h.keep rfl (fun _ => .inr hi) nofun nofun (by simp) (by simp)
  | goOn hp _ => exact h.keep rfl (fun _ => .inl (by rw [hp]; rfl)) nofun nofun (fun _ _ h => h) (fun _ h => h)
  | leave hp _ =>
    refine ⟨h.reach, fun _ => h.idle (by rw [hp]; rfl), nofun, h.mode, ?_, ?_, nofun, nofun, nofun⟩
    · intro n tr hm
      rcases List.mem_cons.1 hm with hm | hm
      · cases hm; exact fun _ h => h
      · exact h.kept n tr hm
    · intro i hm
      rcases List.mem_cons.1 hm with hm | hm
      · cases hm
      · exact h.said i hm
  | wake u hp _ => exact h.keep rfl (fun _ => .inl (by rw [hp]; rfl)) nofun nofun (fun _ _ h => h) (fun _ h => h)
  | back i hp hi => exact h.keep rfl (fun _ => .inr hi) nofun nofun (fun _ _ h => h) (fun _ h => h)
  | silent hp => exact h.keep rfl (fun _ => .inl (by rw [hp]; rfl)) nofun nofun (fun _ _ h => h) (fun _ h => h)
  | sync code l hp hl =>
    obtain ⟨g1, g2, -, -, -⟩ := log_step h.reach hl
    have hidle := h.idle (by rw [hp]; rfl)
    have hl' := hl
    simp only [Logger.step, hidle, if_true, Option.some.injEq] at hl'
    have hb : Logger.before 0 l.trace = Logger.enqueued s.log.trace := by rw [← hl']; simp [Logger.before]
    have hpc : l.pc 0 = .entering .sync := by rw [← hl']; simp [Logger.upd]
    refine ⟨.step _ h.reach hl, nofun, nofun, ?_, ?_, ?_, ?_, ?_, ?_⟩
    · show modeOf (l.pc 0) ≠ _
      rw [hpc]; nofun
    · exact fun n tr hm id hid => g1 id (h.kept n tr hm id hid)
    · exact fun id hm => ⟨g1 id (h.said id hm).1, trace_step hl _ (h.said id hm).2⟩
    · intro _ n tr hm id hid
      show id ∈ Logger.before 0 l.trace
      rw [hb]; exact h.kept n tr hm id hid
    · intro _ id hm
      show id ∈ Logger.before 0 l.trace
      rw [hb]; exact (h.said id hm).1
    · intro _ hi
      have hi' : l.pc 0 = .idle := hi
      rw [hpc] at hi'; cases hi'
  | quit code hp hi =>
    exact h.keep rfl nofun (fun _ _ => hi) (fun _ => by rw [hp]; rfl) (fun _ _ h => h) (fun _ h => h)
  | say l hp hl =>
    obtain ⟨g1, g2, g3, g4, -⟩ := log_step h.reach hl
    have hidle := h.idle (by rw [hp]; rfl)
    refine ⟨.step _ h.reach hl, fun _ => (g4 nofun).1 hidle, nofun, ?_, ?_, ?_, nofun, nofun, nofun⟩
    · intro hm; exact h.mode ((g4 nofun).2 hm)
    · intro n tr hm id hid
      rcases List.mem_cons.1 hm with hm | hm
      · cases hm
      · exact g1 id (h.kept n tr hm id hid)
    · intro id hm
      rcases List.mem_cons.1 hm with hm | hm
      · cases hm
        simp only [Logger.step] at hl
        split at hl <;> cases hl
        exact ⟨by simp [Logger.enqueued], List.mem_cons_self ..⟩
      · exact ⟨g1 id (h.said id hm).1, trace_step hl _ (h.said id hm).2⟩
  | fail code hp _ hi => exact h.keep rfl (fun _ => .inr hi) nofun nofun (by simp) (by simp)
  | throw hp hi => exact h.keep rfl (fun _ => .inr hi) nofun nofun (by simp) (by simp)
  | sleep async fate l0 l l' f d hp hl => exact h.keep rfl (fun _ => .inl (by rw [hp]; rfl)) nofun nofun (by simp) (by simp)
  | take async fate l0 l l' f e q hp hl => exact h.keep rfl nofun nofun nofun (by simp) (by simp)
  | sigNothing n b hr _ => exact h.keep rfl (fun e => .inl e) (fun n e => h.quitIdle n e) (fun e => e) (by simp) (by simp)
  | sigFatal n b hr hn => exact h.keep rfl nofun nofun nofun (by simp) (by simp)
  | sigStore n b hr hn _ => exact h.keep rfl (fun e => .inl e) (fun n e => h.quitIdle n e) (fun e => e) (by simp) (by simp)
  | sigWake n u hp hn => exact h.keep rfl (fun _ => .inl (by rw [hp]; rfl)) nofun nofun (by simp) (by simp)
  | tick d => exact h.keep rfl (fun e => .inl e) (fun n e => h.quitIdle n e) (fun e => e) (fun _ _ h => h) (fun _ h => h)
  | launch id v l f _ hf => exact h.keep rfl (fun e => .inl e) (fun n e => h.quitIdle n e) (fun e => e) (fun _ _ h => h) (fun _ h => h)
  | pid a p _ _ => exact h.keep rfl (fun e => .inl e) (fun n e => h.quitIdle n e) (fun e => e) (fun _ _ h => h) (fun _ h => h)
  | log a l hrun hmay hl =>
    obtain ⟨g1, g2, g3, g4, g5⟩ := log_step h.reach hl
    by_cases hc : ∃ m, a = .call 0 m
    · obtain ⟨m, rfl⟩ := hc
      simp only [mayLog, bne_self_eq_false, Bool.false_or, Bool.and_eq_true, decide_eq_true_eq] at hmay
      obtain ⟨rfl, hu⟩ := hmay
      have hns : synced s.pc = false := by cases hp : s.pc <;> rw [hp] at hu <;> first | rfl | cases hu
      have hb : busy s.pc = true := by cases hp : s.pc <;> rw [hp] at hu <;> first | rfl | cases hu
      have hno : ∀ n, s.pc ≠ .over (.exited n) := by intro n hp; rw [hp] at hu; cases hu
      have hpc : l.pc 0 = .entering .sync := by
        simp only [Logger.step] at hl
        split at hl <;> cases hl
        simp [Logger.upd]
      refine ⟨.step _ h.reach hl, ?_, ?_, ?_, ?_, ?_, ?_, ?_, ?_⟩
      · intro e; simp only at e; rw [hb] at e; cases e
      · intro n e; exact absurd e (hno n)
      · show modeOf (l.pc 0) ≠ _
        rw [hpc]; nofun
      · exact fun n tr hm id hid => g1 id (h.kept n tr hm id hid)
      · exact fun id hm => ⟨g1 id (h.said id hm).1, trace_step hl _ (h.said id hm).2⟩
      · intro e; simp only at e; rw [hns] at e; cases e
      · intro e; simp only at e; rw [hns] at e; cases e
      · intro e; simp only at e; rw [hns] at e; cases e
    · have hc' : ∀ m, a ≠ .call 0 m := fun m e => hc ⟨m, e⟩
      have hb := g3 (hc' .sync)
      refine ⟨.step _ h.reach hl, ?_, ?_, ?_, ?_, ?_, ?_, ?_, ?_⟩
      · exact fun e => (g4 hc').1 (h.idle e)
      · exact fun n e => (g4 hc').1 (h.quitIdle n e)
      · exact fun hm => h.mode ((g4 hc').2 hm)
      · exact fun n tr hm id hid => g1 id (h.kept n tr hm id hid)
      · exact fun id hm => ⟨g1 id (h.said id hm).1, trace_step hl _ (h.said id hm).2⟩
      · intro e n tr hm id hid
        show id ∈ Logger.before 0 l.trace
        rw [hb]; exact h.keptB e n tr hm id hid
      · intro e id hm
        show id ∈ Logger.before 0 l.trace
        rw [hb]; exact h.saidB e id hm
      · intro e hi id hid
        have hid' : id ∈ Logger.before 0 l.trace := hid
        by_cases hn : s.log.pc 0 = .idle
        · rw [hb] at hid'; exact g2 id (h.done e hn id hid')
        · refine g5 hn hi ?_ id hid
          cases hm : modeOf (s.log.pc 0) with
          | none => cases hpc : s.log.pc 0 <;> rw [hpc] at hm hn <;> first | exact absurd rfl hn | cases hm
          | some m =>
            cases m with
            | sync => rfl
            | loop => exact absurd hm h.mode

theorem lg_run {c : Cfg} {s s' : Sys} (h : Lg s) (acts : List Act) (hr : run c s acts = some s') : Lg s' := by
  induction acts generalizing s with
  | nil => cases hr; exact h
  | cons a as ih =>
    simp only [run] at hr
    split at hr
    · cases hr
    · rename_i s1 hs; exact ih (lg_step h hs) hr

/-! ## The PID file -/

open PidFile in
theorem pid_written {n : Nat} {p : PidFile.Sys} {a : PidFile.Act} {p' : PidFile.Sys} (hs : PidFile.step n p a = some p') (q : Nat) (h : p.st q = .written ∨ p.st q = .changing ∨ p.st q = .running → PidFile.Act.write q ∈ p.trace) :
    p'.st q = .written ∨ p'.st q = .changing ∨ p'.st q = .running → PidFile.Act.write q ∈ p'.trace := by
  obtain ⟨i, x, f, -, -, hst, -, -, htr, hc⟩ := step_cases hs
  rw [hst, htr]
  by_cases hq : q = i
  · subst hq
    simp only [if_true]
    rcases hc with ⟨rfl, h1, rfl, -⟩ | ⟨rfl, h1, -, ⟨rfl, -⟩ | ⟨rfl, -⟩⟩ | ⟨rfl, h1, rfl, -⟩ | ⟨rfl, h1, hx, -⟩ | ⟨rfl, h1, rfl, -⟩ | ⟨rfl, rfl, -⟩ | ⟨rfl, rfl, -⟩
    · simp
    · simp
    · simp
    · exact fun _ => List.mem_cons_self ..
    · exact fun _ => List.mem_cons_of_mem _ (h (.inl h1))
    · exact fun _ => List.mem_cons_of_mem _ (h (.inr (.inl h1)))
    · simp
    · simp
  · simp only [if_neg hq]
    exact fun e => List.mem_cons_of_mem _ (h e)

structure Pd (c : Cfg) (s : Sys) : Prop where
  big : ∀ q, c.n ≤ q → s.pid.st q = .fresh
  wrote : s.pid.st c.me = .written ∨ s.pid.st c.me = .changing ∨ s.pid.st c.me = .running → PidFile.Act.write c.me ∈ s.pid.trace
  wrote' : running s.pc = true → PidFile.Act.write c.me ∈ s.pid.trace → s.pid.st c.me = .written ∨ s.pid.st c.me = .changing ∨ s.pid.st c.me = .running
  held : c.pidFile = true → (serving s.pc = true ∨ s.pc = .starting ∨ s.pc = .exiting 0 ∨ s.pc = .syncing 0) → s.pid.st c.me = .running
  did : c.pidFile = true → s.pc = .over (.exited 0) → PidFile.Act.write c.me ∈ s.pid.trace
  ended : ∀ n, s.pc = .over (.exited n) → PidFile.Act.write c.me ∈ s.pid.trace →
    ∃ post pre, s.pid.trace = post ++ .exit c.me :: pre ∧ ((∀ q, PidFile.Act.write q ∉ post) → s.pid.file = none)

theorem pd_start (c : Cfg) (levels : List Bool) (atomic : Bool) (t : Int) : Pd c (start levels atomic t) where
  big := fun _ _ => rfl
  wrote := by simp [start]
  wrote' := nofun
  held := by simp [start, serving]
  did := by simp [start]
  ended := nofun

theorem Pd.keep {c : Cfg} {s s' : Sys} (h : Pd c s) (hp : s'.pid = s.pid) (hr : running s'.pc = true → running s.pc = true)
    (hh : serving s'.pc = true ∨ s'.pc = .starting ∨ s'.pc = .exiting 0 ∨ s'.pc = .syncing 0 → s.pid.st c.me = .running ∨ serving s.pc = true ∨ s.pc = .starting ∨ s.pc = .exiting 0 ∨ s.pc = .syncing 0)
    (ho : ∀ n, s'.pc = .over (.exited n) → s.pc = .over (.exited n)) : Pd c s' where
  big := hp ▸ h.big
  wrote := hp ▸ h.wrote
  wrote' := fun e => by rw [hp]; exact h.wrote' (hr e)
  held := fun e1 e2 => by rw [hp]; exact (hh e2).elim (fun e => e) (h.held e1)
  did := fun e1 e2 => by rw [hp]; exact h.did e1 (ho 0 e2)
  ended := fun n e => by rw [hp]; exact h.ended n (ho n e)

theorem pd_step {c : Cfg} {s s' : Sys} {a : Act} (h : Pd c s) (hs : step c s a = some s') : Pd c s' := by
  cases step_step hs with
  | install k hp hk => exact h.keep rfl (by simp [hp, running]) (by simp [serving]) nofun
  | installed k hp hk => exact h.keep rfl (by simp [hp, running]) (by simp [serving]) nofun
  | pidDone hp hpid =>
    refine ⟨h.big, h.wrote, fun _ => h.wrote' (by rw [hp]; rfl), ?_, nofun, nofun⟩
    intro hc _
    rw [hc] at hpid; exact hpid
  | ready hp hi => exact h.keep rfl (by simp [hp, running]) (by simp [hp]) nofun
  | goOn hp _ => exact h.keep rfl (by simp [hp, running]) (by simp [hp, serving]) nofun
  | leave hp _ => exact h.keep rfl (by simp [hp, running]) (by simp [hp, serving]) nofun
  | wake u hp _ => exact h.keep rfl (by simp [hp, running]) (by simp [hp, serving]) nofun
  | back i hp hi => exact h.keep rfl (by simp [hp, running]) (by simp [hp, serving]) nofun
  | silent hp => exact h.keep rfl (by simp [hp, running]) (by simp [hp, serving]) nofun
  | sync code l hp hl => exact h.keep rfl (by simp [hp, running]) (by simp only [hp, serving]; rintro (e | e | e | e) <;> cases e; simp) nofun
  | quit code hp hi =>
    have hrun : running s.pc = true := by rw [hp]; rfl
    have key : ∀ p', PidFile.step c.n s.pid (.exit c.me) = some p' → p'.trace = .exit c.me :: s.pid.trace ∧ p'.st c.me = .over ∧
        ((s.pid.st c.me = .written ∨ s.pid.st c.me = .changing ∨ s.pid.st c.me = .running) → p'.file = none) := by
      intro p' hs
      simp only [PidFile.step] at hs
      split at hs
      · cases hs
        refine ⟨rfl, by simp [PidFile.Sys.set], fun e => by simp [e]⟩
      · cases hs
    cases he : PidFile.step c.n s.pid (.exit c.me) with
    | none =>
      have hw : s.pid.st c.me = .written ∨ s.pid.st c.me = .changing ∨ s.pid.st c.me = .running → False := by
        intro hw
        have hme : c.me < c.n := by
          refine Nat.lt_of_not_le fun hle => ?_
          rw [h.big _ hle] at hw
          rcases hw with e | e | e <;> cases e
        have hno : s.pid.st c.me ≠ .over := by intro e; rw [e] at hw; rcases hw with e | e | e <;> cases e
        simp [PidFile.step, hme, hno] at he
      have hpid : endPid c s (.exit c.me) = s.pid := by simp [endPid, he]
      rw [hpid]
      refine ⟨h.big, h.wrote, nofun, by simp [serving], ?_, ?_⟩
      · rintro hc ⟨⟩
        exact (hw (.inr (.inr (h.held hc (.inr (.inr (.inr hp))))))).elim
      · rintro n ⟨⟩ hm
        exact (hw (h.wrote' hrun hm)).elim
    | some p' =>
      obtain ⟨k1, k2, k3⟩ := key p' he
      have hpid : endPid c s (.exit c.me) = p' := by simp [endPid, he]
      rw [hpid]
      obtain ⟨i, x, f, hin, -, hst, -⟩ := PidFile.step_cases he
      refine ⟨?_, ?_, nofun, by simp [serving], ?_, ?_⟩
      · intro q hq
        show p'.st q = _
        rw [hst]
        have : q ≠ i := by omega
        simp only [if_neg this]; exact h.big q hq
      · show p'.st c.me = _ ∨ _ → _
        rw [k2]; simp
      · rintro hc ⟨⟩
        show _ ∈ p'.trace
        rw [k1]
        exact List.mem_cons_of_mem _ (h.wrote (.inr (.inr (h.held hc (.inr (.inr (.inr hp)))))))
      · rintro n ⟨⟩ hm
        refine ⟨[], s.pid.trace, k1, fun _ => k3 (h.wrote' hrun ?_)⟩
        have hm' : PidFile.Act.write c.me ∈ p'.trace := hm
        rw [k1] at hm'
        rcases List.mem_cons.1 hm' with e | e
        · cases e
        · exact e
  | say l hp hl => exact h.keep rfl (by simp [hp, running]) (by simp [hp, serving]) nofun
  | fail code hp hne hi =>
    refine h.keep rfl ?_ (by simp [serving, hne]) nofun
    rcases hp with ⟨k, hp⟩ | hp | hp <;> simp [hp, running]
  | throw hp hi =>
    refine h.keep rfl ?_ (by simp [serving]) nofun
    rcases hp with hp | ⟨k, hp⟩ <;> simp [hp, running]
  | sleep async fate l0 l l' f d hp hl => exact h.keep rfl (by simp [hp, running]) (by simp [hp, serving]) nofun
  | take async fate l0 l l' f e q hp hl => exact h.keep rfl (by simp [hp, running]) (by simp [hp, serving]) nofun
  | sigNothing n b hr _ => exact h.keep rfl (fun e => e) .inr (fun _ e => e)
  | sigFatal n b hr hn =>
    have hm : ∀ p', PidFile.step c.n s.pid (.kill c.me) = some p' → ∀ e ∈ s.pid.trace, e ∈ p'.trace := by
      intro p' hs e he
      obtain ⟨_, _, _, _, _, _, _, _, ht, _⟩ := PidFile.step_cases hs
      rw [ht]; exact List.mem_cons_of_mem _ he
    refine ⟨?_, ?_, nofun, by simp [serving], nofun, nofun⟩
    · intro q hq
      show (endPid c s (.kill c.me)).st q = _
      unfold endPid
      cases he : PidFile.step c.n s.pid (.kill c.me) with
      | none => exact h.big q hq
      | some p' =>
        obtain ⟨i, x, f, hin, -, hst, -⟩ := PidFile.step_cases he
        show p'.st q = _
        rw [hst]
        have : q ≠ i := by omega
        simp only [if_neg this]; exact h.big q hq
    · show (endPid c s (.kill c.me)).st c.me = _ ∨ (endPid c s (.kill c.me)).st c.me = _ ∨ (endPid c s (.kill c.me)).st c.me = _ → _ ∈ (endPid c s (.kill c.me)).trace
      unfold endPid
      cases he : PidFile.step c.n s.pid (.kill c.me) with
      | none => exact h.wrote
      | some p' => exact pid_written he c.me h.wrote
  | sigStore n b hr hn _ => exact h.keep rfl (fun e => e) .inr (fun _ e => e)
  | sigWake n u hp hn => exact h.keep rfl (by simp [hp, running]) (by simp [hp, serving]) nofun
  | tick d => exact h.keep rfl (fun e => e) .inr (fun _ e => e)
  | launch id v l f _ hf => exact h.keep rfl (fun e => e) .inr (fun _ e => e)
  | log a l hrun hmay hl => exact h.keep rfl (fun e => e) .inr (fun _ e => e)
  | pid a p hwho hp =>
    obtain ⟨i, x, f, hin, -, hst, hf, -, htr, hc⟩ := PidFile.step_cases hp
    have hi : i = doer a := by
      rcases hc with ⟨rfl, _⟩ | ⟨rfl, _⟩ | ⟨rfl, _⟩ | ⟨rfl, _⟩ | ⟨rfl, _⟩ | ⟨rfl, _⟩ | ⟨rfl, _⟩ <;> rfl
    have hbig : ∀ q, c.n ≤ q → p.st q = .fresh := by
      intro q hq
      rw [hst]
      have : q ≠ i := by omega
      simp only [if_neg this]; exact h.big q hq
    rcases hwho with hwho | ⟨hpc, hcfg, hend⟩
    · have hme : p.st c.me = s.pid.st c.me := by
        rw [hst]
        have : c.me ≠ i := by rw [hi]; exact Ne.symm hwho
        simp only [if_neg this]
      have hwr : PidFile.Act.write c.me ∈ p.trace → PidFile.Act.write c.me ∈ s.pid.trace := by
        rw [htr]
        intro hm
        rcases List.mem_cons.1 hm with e | e
        · rw [← e] at hwho; exact absurd rfl hwho
        · exact e
      refine ⟨hbig, ?_, ?_, ?_, ?_, ?_⟩
      · show p.st c.me = _ ∨ p.st c.me = _ ∨ p.st c.me = _ → _
        rw [hme]; intro e
        show _ ∈ p.trace
        rw [htr]; exact List.mem_cons_of_mem _ (h.wrote e)
      · intro e hm
        show p.st c.me = _ ∨ p.st c.me = _ ∨ p.st c.me = _
        rw [hme]; exact h.wrote' e (hwr hm)
      · intro e1 e2
        show p.st c.me = _
        rw [hme]; exact h.held e1 e2
      · intro e1 e2
        show _ ∈ p.trace
        rw [htr]; exact List.mem_cons_of_mem _ (h.did e1 e2)
      · intro n e hm
        obtain ⟨post, pre, k1, k2⟩ := h.ended n e (hwr hm)
        refine ⟨a :: post, pre, by show p.trace = _; rw [htr, k1]; rfl, ?_⟩
        intro hn
        have k3 := k2 fun q hq => hn q (List.mem_cons_of_mem _ hq)
        show p.file = none
        rw [hf]
        rcases hc with ⟨rfl, _, _, rfl⟩ | ⟨rfl, _, rfl, _⟩ | ⟨rfl, _⟩ | ⟨rfl, _, _, rfl⟩ | ⟨rfl, _, _, rfl, _⟩ | ⟨rfl, _, rfl⟩ | ⟨rfl, _, rfl⟩
        · rfl
        · exact k3
        · exact absurd (List.mem_cons_self ..) (hn i)
        · exact k3
        · exact k3
        · split
          · rfl
          · exact k3
        · exact k3
    · refine ⟨hbig, pid_written hp c.me h.wrote, ?_, ?_, ?_, ?_⟩
      · intro _ hm
        have hw := h.wrote' (by rw [hpc]; rfl)
        have hm' : PidFile.Act.write c.me ∈ p.trace := hm
        rw [htr] at hm'
        show p.st c.me = _ ∨ p.st c.me = _ ∨ p.st c.me = _
        rw [hst]
        by_cases hq : c.me = i
        · simp only [if_pos hq]
          subst hq
          rcases hc with ⟨rfl, h1, rfl, -⟩ | ⟨rfl, h1, -, hx⟩ | ⟨rfl, h1, rfl, -⟩ | ⟨rfl, h1, rfl, -⟩ | ⟨rfl, h1, rfl, -⟩ | ⟨rfl, rfl, -⟩ | ⟨rfl, rfl, -⟩
          · rcases List.mem_cons.1 hm' with e | e
            · cases e
            · rw [h1] at hw; rcases hw e with e | e | e <;> cases e
          · rcases List.mem_cons.1 hm' with e | e
            · cases e
            · rw [h1] at hw; rcases hw e with e | e | e <;> cases e
          · exact .inl rfl
          · cases s.pid.atomic
            · exact .inr (.inl rfl)
            · exact .inr (.inr rfl)
          · exact .inr (.inr rfl)
          · cases hend
          · cases hend
        · simp only [if_neg hq]
          refine hw ?_
          rcases List.mem_cons.1 hm' with e | e
          · rw [← e] at hi; exact absurd hi.symm hq
          · exact e
      · intro _ e; simp [hpc, serving] at e
      · intro _ e; simp only at e; rw [hpc] at e; cases e
      · intro n e; simp only at e; rw [hpc] at e; cases e

theorem pd_run {c : Cfg} {s s' : Sys} (h : Pd c s) (acts : List Act) (hr : run c s acts = some s') : Pd c s' := by
  induction acts generalizing s with
  | nil => cases hr; exact h
  | cons a as ih =>
    simp only [run] at hr
    split at hr
    · cases hr
    · rename_i s1 hs; exact ih (pd_step h hs) hr

/-! ## Progress -/

open FiberHeap Heap in
theorem take_exists {s : FiberHeap.Sys} (h : FiberHeap.Inv s) (hne : s.pq ≠ []) (fate : Item → Option Int) : ∃ l l' x, FiberHeap.take s fate l l' = .ok x := by
  obtain ⟨l, hl⟩ := exists_popped Item.check hne
  unfold FiberHeap.take
  have hlast : ∃ e, l.getLast? = some e := by
    rw [popped_iff] at hl
    rw [hl.2.1]
    cases hp : s.pq with
    | nil => exact absurd hp hne
    | cons a t => exact ⟨a, rfl⟩
  obtain ⟨e, he⟩ := hlast
  obtain ⟨-, -, -, -, p5⟩ := popped_last h.heap hl he
  cases hf : fate e with
  | none =>
    refine ⟨l, [], ({ s with pq := l.dropLast }, .took e s.pq), ?_⟩
    rw [if_neg (by simp [mayPop, h.heap, hne]), if_neg (by simp [hl])]
    simp only [he, hf]
  | some n =>
    obtain ⟨l', hl'⟩ := exists_arranged Item.check (l.dropLast ++ [{ e with check := n }])
    refine ⟨l, l', ({ s with pq := l' }, .took e s.pq), ?_⟩
    rw [if_neg (by simp [mayPop, h.heap, hne]), if_neg (by simp [hl])]
    simp only [he, hf]
    rw [if_neg (by simp [mayPush, p5]), if_pos hl']

open FiberHeap Heap in
theorem loop_exists {s : FiberHeap.Sys} (h : FiberHeap.Inv s) (now : Int) (async : Nat → Int) (fate : Item → Option Int) : ∃ l0 l l' x, FiberHeap.loop s now async fate l0 l l' = .ok x := by
  by_cases h1 : timeToWait s.pq now > 0
  · obtain ⟨l0, s1, hs⟩ : ∃ l0 s1, scan s async l0 = some s1 := by
      obtain ⟨l0, hl0⟩ := exists_arranged Item.check (s.pq.map fun x => { x with check := async x.id })
      refine ⟨l0, ?_⟩
      unfold scan
      simp only [hl0, if_true]
      split <;> exact ⟨_, rfl⟩
    obtain ⟨g1, g2, g3⟩ := scan_inv h async l0 hs
    generalize ht : min (timeToWait s1.pq now) (s.wait * 2 + 1000) = t
    generalize hw : (if t < 0 then 0 else if t > 500000000 then 500000000 else t) = w
    by_cases hpos : w > 0
    · refine ⟨l0, [], [], ({ s1 with wait := w }, .slept w), ?_⟩
      unfold FiberHeap.loop
      rw [if_pos h1, hs]
      simp only [ht, hw]
      rw [if_pos hpos]
    · have hne : s1.pq ≠ [] := by
        intro e
        have hwt := h.wait
        rw [e] at ht
        simp only [timeToWait] at ht
        apply hpos
        rw [← hw, ← ht]
        split
        · omega
        · split <;> omega
      have hw0 : 0 ≤ w := by
        rw [← hw]
        split
        · exact Int.le_refl 0
        · split <;> omega
      obtain ⟨l, l', x, hx⟩ := take_exists (s := { s1 with wait := w }) ⟨g1, hw0⟩ hne fate
      refine ⟨l0, l, l', x, ?_⟩
      unfold FiberHeap.loop
      rw [if_pos h1, hs]
      simp only [ht, hw]
      rw [if_neg hpos, hx]
  · have hne : s.pq ≠ [] := by intro e; rw [e] at h1; simp [timeToWait] at h1
    obtain ⟨l, l', x, hx⟩ := take_exists h hne fate
    refine ⟨[], l, l', x, ?_⟩
    unfold FiberHeap.loop
    rw [if_neg h1, hx]

end Verif.Shutdown
