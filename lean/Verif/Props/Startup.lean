import Verif.Proofs.Startup
import Verif.Proofs.PidFile
/-! # C97, C98: starting the program -/
namespace Verif.Props
open Verif.Spec.Startup

/-! ## C97: the PID file -/

section
open Verif.PidFile

/-- C97.  At any time at most one process writes to the PID file: while one has locked it for writing, no other one has a lock. -/
theorem C97_writers {n : Nat} {b : Bool} {s : Sys} (h : Reachable n b s) (i j : Nat) (hi : s.st i = .locked ∨ s.st i = .written) (hj : s.st j = .locked ∨ s.st j = .written ∨ s.st j = .running) : i = j :=
  writers h i j (by rcases hi with h | h <;> rw [h] <;> rfl) (by rcases hj with h | h | h <;> rw [h] <;> rfl)

/-- C97.  At most one process is running.  PARTIAL: only if a lock is changed to another kind at once, which `flock()` does not promise; otherwise see `C97_two`. -/
theorem C97_alone_partial {n : Nat} {s : Sys} (h : Reachable n true s) (i j : Nat) (hi : s.st i = .running) (hj : s.st j = .running) : i = j :=
  alone h i j (by rw [hi]; rfl) (by rw [hj]; rfl)

/-- C97.  While a process is running, the PID file has its process ID, or nothing.  PARTIAL: it may have nothing, see `C97_emptied`; and only if a lock is changed at once. -/
theorem C97_content_partial {n : Nat} {s : Sys} (h : Reachable n true s) (i : Nat) (hi : s.st i = .running) : s.file = none ∨ s.file = some i := content h i (.inr hi)

/-- C97.  While a process is running, the PID file has its process ID.  PARTIAL: only if no other process has been started since, which need not have been successful; and only if a lock is changed at
once. -/
theorem C97_kept_partial {n : Nat} {s : Sys} (h : Reachable n true s) (i : Nat) (hi : s.st i = .running) (post pre : List Act) (ht : s.trace = post ++ .write i :: pre) (hn : ∀ j, .creat j ∉ post) :
    s.file = some i := content_kept h i (.inr hi) post pre ht hn

/-- C97.  A process that finds the file locked ends; one that does not, proceeds: an abandoned file does not keep a process from starting. -/
theorem C97_refused {n : Nat} {b : Bool} {s : Sys} (_h : Reachable n b s) (i : Nat) (hin : i < n) (hi : s.st i = .opened) :
    ∃ s', step n s (.lock i) = some s' ∧ s'.file = s.file ∧ (s'.st i = .over ↔ ∃ j < n, j ≠ i ∧ (s.st j = .locked ∨ s.st j = .written ∨ s.st j = .running)) ∧ (s'.st i = .over ∨ s'.st i = .locked) := by
  have hh : ∀ y, holds y = true ↔ y = .locked ∨ y = .written ∨ y = .running := by intro y; cases y <;> simp [holds]
  by_cases hf : free holds s i n = true
  · refine ⟨({ s with trace := .lock i :: s.trace } : Sys).set i .locked, by simp [step, hin, hi, hf], rfl, ?_, by simp [Sys.set]⟩
    rw [free_iff] at hf
    simp only [Sys.set, if_true, reduceCtorEq, false_iff]
    rintro ⟨j, hj, hji, h⟩
    have := hf j hj hji
    rw [(hh _).mpr h] at this; cases this
  · refine ⟨({ s with trace := .lock i :: s.trace } : Sys).set i .over, by simp [step, hin, hi, hf], rfl, ?_, by simp [Sys.set]⟩
    simp only [Sys.set, if_true, true_iff]
    refine Classical.byContradiction fun hn => hf (free_iff.mpr fun j hj hji => ?_)
    cases hb : holds (s.st j)
    · rfl
    · exact absurd ⟨j, hj, hji, (hh _).mp hb⟩ hn

theorem PidFile.reach_of_run {n : Nat} {b : Bool} {s : Sys} (h : Reachable n b s) (as : List Act) : ∀ s', run n s as = some s' → Reachable n b s' := by
  induction as generalizing s with
  | nil => intro s' h'; cases h'; exact h
  | cons a t ih =>
    intro s' h'
    simp only [run] at h'
    split at h'
    · cases h'
    · rename_i s1 h1; exact ih (.step h h1) s' h'

theorem PidFile.demo {n : Nat} {b : Bool} (as : List Act) (p : Sys → Bool) (h : (run n { atomic := b } as).map p = some true) : ∃ s, Reachable n b s ∧ p s = true := by
  rw [Option.map_eq_some_iff] at h
  obtain ⟨s, h1, h2⟩ := h
  exact ⟨s, reach_of_run .init as s h1, h2⟩

/-- C97, the full property fails: between the two halves of the change of a lock, a second process may lock the file; both are running then. -/
theorem C97_two : ∃ s, Reachable 2 false s ∧ s.st 0 = .running ∧ s.st 1 = .running := by
  obtain ⟨s, h, hp⟩ := PidFile.demo (n := 2) (b := false) [.creat 0, .lock 0, .creat 1, .write 0, .unlock 0, .lock 1, .write 1, .unlock 1, .share 0, .share 1]
    (fun s => s.st 0 == .running && s.st 1 == .running) (by decide +kernel)
  simp only [Bool.and_eq_true, beq_iff_eq] at hp
  exact ⟨s, h, hp⟩

/-- C97, the full property fails: a second process that is started by mistake ends, but has made the PID file of the one that is running empty. -/
theorem C97_emptied : ∃ s, Reachable 2 true s ∧ s.st 0 = .running ∧ s.st 1 = .over ∧ s.file = none := by
  obtain ⟨s, h, hp⟩ := PidFile.demo (n := 2) (b := true) [.creat 0, .lock 0, .write 0, .unlock 0, .creat 1, .lock 1]
    (fun s => s.st 0 == .running && s.st 1 == .over && s.file == none) (by decide +kernel)
  simp only [Bool.and_eq_true, beq_iff_eq] at hp
  exact ⟨s, h, hp.1.1, hp.1.2, hp.2⟩

/-- One process is killed, and its file stays behind; the next one is started, and its process ID is in the file. -/
example : ∃ s, Reachable 3 true s ∧ s.st 1 = .running ∧ s.file = some 1 ∧ s.trace = [Act.unlock 1] ++ .write 1 :: [.lock 1, .creat 1, .kill 0, .unlock 0, .write 0, .lock 0, .creat 0] := by
  obtain ⟨s, h, hp⟩ := PidFile.demo (n := 3) (b := true) [.creat 0, .lock 0, .write 0, .unlock 0, .kill 0, .creat 1, .lock 1, .write 1, .unlock 1]
    (fun s => s.st 1 == .running && s.file == some 1 && s.trace == [Act.unlock 1] ++ .write 1 :: [.lock 1, .creat 1, .kill 0, .unlock 0, .write 0, .lock 0, .creat 0]) (by decide +kernel)
  simp only [Bool.and_eq_true, beq_iff_eq] at hp
  exact ⟨s, h, hp.1.1, hp.1.2, hp.2⟩

/-- Two processes compete; the second has opened the file while the first writes. -/
example : ∃ s, Reachable 3 false s ∧ s.st 0 = .written ∧ s.st 1 = .opened ∧ s.file = some 0 := by
  obtain ⟨s, h, hp⟩ := PidFile.demo (n := 3) (b := false) [.creat 0, .creat 1, .lock 0, .write 0]
    (fun s => s.st 0 == .written && s.st 1 == .opened && s.file == some 0) (by decide +kernel)
  simp only [Bool.and_eq_true, beq_iff_eq] at hp
  exact ⟨s, h, hp.1.1, hp.1.2, hp.2⟩

end

/-! ## C98: startup -/

section
open Verif.Startup

/-- C98.  Letters other than `d`, `h`, `V` and `v` are rejected with status 2, and nothing happens; otherwise `-h` and `-V` make the program print what they are for, wherever they are in front of `--`. -/
theorem C98_usage (env : Env) (args : List Bytes) (h1 : args.head? ≠ some (chrs ['-', '-', 'h', 'e', 'l', 'p'])) (h2 : args.head? ≠ some (chrs ['-', '-', 'v', 'e', 'r', 's', 'i', 'o', 'n'])) :
    ((∃ c ∈ optionLetters args, c ∉ chrs ['d', 'h', 'V', 'v']) → main env args = { events := [], started := .exited 2, serving := .exited 2 }) ∧
    ((∀ c ∈ optionLetters args, c ∈ chrs ['d', 'h', 'V', 'v']) → chr 'h' ∈ optionLetters args → main env args = { events := [.help], started := .exited 0, serving := .exited 0 }) ∧
    ((∀ c ∈ optionLetters args, c ∈ chrs ['d', 'h', 'V', 'v']) → chr 'h' ∉ optionLetters args → chr 'V' ∈ optionLetters args → main env args = { events := [.version], started := .exited 0, serving := .exited 0 }) := by
  obtain ⟨hg1, hg2⟩ := getopt_spec args {}
  have hmem : ∀ c, c ∉ chrs ['d', 'h', 'V', 'v'] ↔ c ≠ chr 'd' ∧ c ≠ chr 'h' ∧ c ≠ chr 'V' ∧ c ≠ chr 'v' := by intro c; simp [chrs]
  have hsome : (∀ c ∈ optionLetters args, c ∈ chrs ['d', 'h', 'V', 'v']) → ∃ r, getopt {} args = some r := by
    intro h
    cases hg : getopt {} args with
    | none =>
      obtain ⟨c, hc, hn⟩ := hg1.mp hg
      exact absurd (h c hc) ((hmem c).mpr hn)
    | some r => exact ⟨r, rfl⟩
  refine ⟨?_, ?_, ?_⟩
  · rintro ⟨c, hc, hn⟩
    have : getopt {} args = none := hg1.mpr ⟨c, hc, (hmem c).mp hn⟩
    simp only [main, if_neg h1, if_neg h2, this]
  · intro h hh
    obtain ⟨⟨o, rest⟩, hr⟩ := hsome h
    obtain ⟨-, ho⟩ := hg2 o rest hr
    simp only [main, if_neg h1, if_neg h2, hr]
    rw [if_pos (by rw [ho]; simp [hh])]
  · intro h hh hV
    obtain ⟨⟨o, rest⟩, hr⟩ := hsome h
    obtain ⟨-, ho⟩ := hg2 o rest hr
    simp only [main, if_neg h1, if_neg h2, hr]
    rw [if_neg (by rw [ho]; simp [hh]), if_pos (by rw [ho]; simp [hV])]

/-- a command line that starts the service, in terms of the model -/
theorem Startup.main_starts (env : Env) {args abs : List Bytes} (hs : Starts args) (ha : Absolute env args abs) :
    ∃ o : Options, o.daemonize = decide (chr 'd' ∈ optionLetters args) ∧ main env args = start env o abs.head? (abs.drop 1) := by
  obtain ⟨h1, h2, h3⟩ := hs
  obtain ⟨hg1, hg2⟩ := getopt_spec args {}
  have hd : chr 'h' ≠ chr 'd' ∧ chr 'V' ≠ chr 'd' ∧ chr 'h' ≠ chr 'v' ∧ chr 'V' ≠ chr 'v' := by decide
  cases hg : getopt {} args with
  | none =>
    obtain ⟨c, hc, hn⟩ := hg1.mp hg
    rcases h3 c hc with rfl | rfl
    · exact absurd rfl hn.1
    · exact absurd rfl hn.2.2.2
  | some r =>
    obtain ⟨o, rest⟩ := r
    obtain ⟨hrest, ho⟩ := hg2 o rest hg
    have hh : chr 'h' ∉ optionLetters args := fun h => (h3 _ h).elim hd.1 hd.2.2.1
    have hV : chr 'V' ∉ optionLetters args := fun h => (h3 _ h).elim hd.2.1 hd.2.2.2
    refine ⟨o, by rw [ho]; simp, ?_⟩
    simp only [main, if_neg h1, if_neg h2, hg]
    rw [if_neg (by rw [ho]; simp [hh]), if_neg (by rw [ho]; simp [hV])]
    rw [hrest, (paths_spec env (operands args) abs).mpr ha]

/-- what `configured` does, in terms of `parts` -/
theorem Startup.configured_spec (env : Env) (o : Options) (dir : Option Bytes) (mods : List Bytes) {c : List Event} (_hc : c = (([.config, .done .logger] : List Event) ++ (later.map .done ++
    ((if mods = [] then (match env.config dir with | some (some ms) => ms | _ => []) else mods).flatMap (moduleEvents env) ++ [.ready])))) :
    (start.configured env o mods dir).events <+: c ∧ ((start.configured env o mods dir).serving = .serving ↔ (start.configured env o mods dir).events = c) := by
  subst _hc
  cases hcf : env.config dir with
  | none => simp [start.configured, hcf]
  | some conf =>
    cases hl : env.part .logger with
    | ok =>
      have hps := parts_spec env (if mods = [] then conf else some mods) later
      have hget : (if mods = [] then conf else some mods).getD [] = (if mods = [] then (match (some conf : Option (Option (List Bytes))) with | some (some ms) => ms | _ => []) else mods) := by
        by_cases hm : mods = []
        · simp only [if_pos hm]; cases conf <;> rfl
        · simp only [if_neg hm]; rfl
      rw [hget] at hps
      simp only [start.configured, hcf, hl, List.cons_append, List.nil_append, List.prefix_cons_inj, List.cons.injEq, true_and]
      by_cases hd : o.daemonize = true
      · rw [if_pos hd]
        unfold daemonize
        split
        · simp [later]
        · split
          · simp [later]
          · exact ⟨hps.1, hps.2.1⟩
      · rw [if_neg hd]
        exact ⟨hps.1, hps.2.1⟩
    | throws => simp [start.configured, hcf, hl, stop]
    | exits n => simp [start.configured, hcf, hl, stop]
    | killed n => simp [start.configured, hcf, hl, stop]

/-- C98.  If the service is to be started, and the paths on the command line exist, then everything happens in the order of the manual, each thing once and nothing else, up to the first failure:
the directory is entered, `main.conf` is read there, parts of the program are set up, and modules are loaded and called one after another, each before the next is loaded; those on the command line are
used instead of those in `main.conf`, and stand for files in the directory where the program has been started.  Only if all that has been done, the service runs, and success is reported. -/
theorem C98_order (env : Env) (args abs : List Bytes) (hs : Starts args) (ha : Absolute env args abs) :
    (main env args).events <+: plan env abs ∧ ((main env args).serving = .serving ↔ (main env args).events = plan env abs) := by
  obtain ⟨o, -, hm⟩ := Startup.main_starts env hs ha
  rw [hm]
  have hw : wanted env abs = if abs.drop 1 = [] then (match env.config abs.head? with | some (some ms) => ms | _ => []) else abs.drop 1 := by
    unfold wanted
    by_cases h : 2 ≤ abs.length
    · rw [if_pos h, if_neg (by intro h2; have := congrArg List.length h2; simp at this; omega)]
    · rw [if_neg h, if_pos (List.drop_eq_nil_iff.mpr (by omega))]
      cases env.config abs.head? with
      | none => rfl
      | some c => cases c <;> rfl
  obtain ⟨h1, h2⟩ := Startup.configured_spec env o abs.head? (abs.drop 1) rfl
  rw [← hw] at h1 h2
  cases abs with
  | nil =>
    simp only [plan, List.head?_nil, List.nil_append, start]
    exact ⟨h1, h2⟩
  | cons d ms =>
    simp only [plan, List.head?_cons, start]
    by_cases hc : env.chdir d = true
    · rw [if_pos hc]
      simp only [List.cons_append, List.nil_append, List.prefix_cons_inj, List.cons.injEq, true_and]
      exact ⟨h1, h2⟩
    · rw [if_neg hc]; simp

/-- C98.  If a path on the command line does not exist, the program ends with status 1, and nothing happens. -/
theorem C98_path (env : Env) (args : List Bytes) (hs : Starts args) (hn : ∃ a ∈ operands args, env.realpath a = none) : main env args = { events := [], started := .exited 1, serving := .exited 1 } := by
  obtain ⟨h1, h2, h3⟩ := hs
  obtain ⟨hg1, hg2⟩ := getopt_spec args {}
  have hd : chr 'h' ≠ chr 'd' ∧ chr 'V' ≠ chr 'd' ∧ chr 'h' ≠ chr 'v' ∧ chr 'V' ≠ chr 'v' := by decide
  cases hg : getopt {} args with
  | none =>
    obtain ⟨c, hc, hn⟩ := hg1.mp hg
    rcases h3 c hc with rfl | rfl
    · exact absurd rfl hn.1
    · exact absurd rfl hn.2.2.2
  | some r =>
    obtain ⟨o, rest⟩ := r
    obtain ⟨hrest, ho⟩ := hg2 o rest hg
    have hh : chr 'h' ∉ optionLetters args := fun h => (h3 _ h).elim hd.1 hd.2.2.1
    have hV : chr 'V' ∉ optionLetters args := fun h => (h3 _ h).elim hd.2.1 hd.2.2.2
    simp only [main, if_neg h1, if_neg h2, hg]
    rw [if_neg (by rw [ho]; simp [hh]), if_neg (by rw [ho]; simp [hV]), hrest]
    have : paths env (operands args) = none := by
      cases hp : paths env (operands args) with
      | none => rfl
      | some ps =>
        obtain ⟨a, ha, hr⟩ := hn
        have h := (paths_spec env _ ps).mp hp
        have hmem : env.realpath a ∈ ps.map some := by rw [← h]; exact List.mem_map_of_mem ha
        rw [hr] at hmem; simp at hmem
    rw [this]

/-- C98.  The exit status of the program that has been started tells what has become of the service: without `-d` it is the same process; with `-d`, when processes can be created and waited for, it is 0
once the service runs, otherwise that of the process that was to serve, or 128 and the number of the signal that has terminated it. -/
theorem C98_status (env : Env) (args abs : List Bytes) (hs : Starts args) (ha : Absolute env args abs) :
    (chr 'd' ∉ optionLetters args → (main env args).started = (main env args).serving) ∧
    (chr 'd' ∈ optionLetters args → env.fork1 = true → env.pipe = true → env.fork2 = true → env.wait1 = true → env.wait2 = true →
      .config ∈ (main env args).events → .done .logger ∈ (main env args).events →
      (main env args).started = match (main env args).serving with
        | .serving => .exited 0
        | .exited n => .exited n
        | .signaled n => .exited (128 + n)) := by
  obtain ⟨o, hd, hm⟩ := Startup.main_starts env hs ha
  rw [hm]
  have hcfg : ∀ dir mods, (o.daemonize = false → (start.configured env o mods dir).started = (start.configured env o mods dir).serving) ∧
      (o.daemonize = true → env.fork1 = true → env.pipe = true → env.fork2 = true → env.wait1 = true → env.wait2 = true → .done .logger ∈ (start.configured env o mods dir).events →
        (start.configured env o mods dir).started = match (start.configured env o mods dir).serving with
          | .serving => .exited 0
          | .exited n => .exited n
          | .signaled n => .exited (128 + n)) := by
    intro dir mods
    cases hcf : env.config dir with
    | none => simp [start.configured, hcf]
    | some conf =>
      cases hl : env.part .logger with
      | ok =>
        simp only [start.configured, hcf, hl]
        refine ⟨fun h => by rw [if_neg (by simp [h])], fun h hf hp hf2 hw hw2 _ => ?_⟩
        rw [if_pos h]
        have hr := (parts_spec env (if mods = [] then conf else some mods) later).2.2
        simp only [daemonize, hf, hp, hf2, Bool.not_true, Bool.false_eq_true, if_false, Bool.or_false, hw, hw2]
        cases hfin : (parts env (if mods = [] then conf else some mods) later).2 with
        | serving => rw [hfin] at hr; rw [if_pos (hr.mpr rfl)]; rfl
        | exited n => rw [hfin] at hr; rw [if_neg (by rw [hr]; simp)]; rfl
        | signaled n => rw [hfin] at hr; rw [if_neg (by rw [hr]; simp)]; rfl
      | throws => simp [start.configured, hcf, hl]
      | exits n => simp [start.configured, hcf, hl]
      | killed n => simp [start.configured, hcf, hl]
  cases abs with
  | nil =>
    simp only [start, List.head?_nil]
    exact ⟨fun h => (hcfg _ _).1 (by rw [hd]; simp [h]), fun h hf hp hf2 hw hw2 _ hl => (hcfg _ _).2 (by rw [hd]; simp [h]) hf hp hf2 hw hw2 hl⟩
  | cons d ms =>
    simp only [start, List.head?_cons]
    by_cases hc : env.chdir d = true
    · rw [if_pos hc]
      refine ⟨fun h => (hcfg _ _).1 (by rw [hd]; simp [h]), fun h hf hp hf2 hw hw2 _ hl => (hcfg _ _).2 (by rw [hd]; simp [h]) hf hp hf2 hw hw2 ?_⟩
      simpa using hl
    · rw [if_neg hc]; simp

/-- C98.  A program that has been started with `-d` and ends with status 0 leaves a service behind that has been started completely, unless something that it has called has ended it with status 0,
whatever goes wrong. -/
theorem C98_success (env : Env) (args abs : List Bytes) (hs : Starts args) (ha : Absolute env args abs) (h0 : (main env args).started = .exited 0) :
    ((main env args).serving = .serving ∧ (main env args).events = plan env abs) ∨ (∃ p, env.part p = .exits 0) ∨ ∃ m, env.module m = .main (.exits 0) := by
  obtain ⟨o, hd, hm⟩ := Startup.main_starts env hs ha
  have hord := (C98_order env args abs hs ha).2
  suffices h : (main env args).serving = .serving ∨ (∃ p, env.part p = .exits 0) ∨ ∃ m, env.module m = .main (.exits 0) by
    rcases h with h | h
    · exact .inl ⟨h, hord.mp h⟩
    · exact .inr h
  rw [hm] at h0 ⊢
  have hmods : ∀ ms, (loadModules env ms).2 = .exited 0 → ∃ m, env.module m = .main (.exits 0) := by
    intro ms
    induction ms with
    | nil => simp [loadModules]
    | cons m t ih =>
      intro h
      cases hmm : env.module m with
      | missing => simp [loadModules, hmm] at h
      | plain => simp only [loadModules, hmm] at h; exact ih h
      | main r =>
        cases r with
        | ok => simp only [loadModules, hmm] at h; exact ih h
        | throws => simp [loadModules, hmm, stop] at h
        | exits n => simp only [loadModules, hmm, stop, Final.exited.injEq] at h; subst h; exact ⟨m, hmm⟩
        | killed n => simp [loadModules, hmm, stop] at h
  have hparts : ∀ mods ps, (parts env mods ps).2 = .exited 0 → (∃ p, env.part p = .exits 0) ∨ ∃ m, env.module m = .main (.exits 0) := by
    intro mods ps
    induction ps with
    | nil =>
      intro h
      cases mods with
      | none => simp [parts] at h
      | some ms => exact .inr (hmods ms (by simpa [parts] using h))
    | cons p t ih =>
      intro h
      cases hp : env.part p with
      | ok => simp only [parts, hp] at h; exact ih h
      | throws => simp [parts, hp, stop] at h
      | exits n => simp only [parts, hp, stop, Final.exited.injEq] at h; subst h; exact .inl ⟨p, hp⟩
      | killed n => simp [parts, hp, stop] at h
  have hcfg : ∀ dir mods, (start.configured env o mods dir).started = .exited 0 →
      (start.configured env o mods dir).serving = .serving ∨ (∃ p, env.part p = .exits 0) ∨ ∃ m, env.module m = .main (.exits 0) := by
    intro dir mods h
    cases hcf : env.config dir with
    | none => simp [start.configured, hcf] at h
    | some conf =>
      cases hl : env.part .logger with
      | ok =>
        simp only [start.configured, hcf, hl] at h ⊢
        by_cases hdd : o.daemonize = true
        · rw [if_pos hdd] at h ⊢
          have hr := (parts_spec env (if mods = [] then conf else some mods) later).2.2
          unfold daemonize at h ⊢
          split at h
          · simp at h
          · split at h
            · rename_i hw _
              cases hw1 : env.wait1 <;> simp [waitAndExit, hw1] at h
            · rename_i hf1 hf2
              rw [if_neg hf1, if_neg hf2]
              simp only at h ⊢
              by_cases hrd : .ready ∈ (parts env (if mods = [] then conf else some mods) later).1
              · exact .inl (hr.mp hrd)
              · rw [if_neg hrd] at h
                refine .inr ?_
                rcases waitAndExit_exited h with h | h | ⟨k, _, h⟩
                · cases h
                · rcases waitAndExit_exited h with h | h | ⟨k, _, h⟩
                  · cases h
                  · exact hparts _ _ h
                  · omega
                · omega
        · rw [if_neg hdd] at h ⊢
          exact .inr (hparts _ _ h)
      | throws => simp [start.configured, hcf, hl, stop] at h
      | exits n => simp only [start.configured, hcf, hl, stop, Final.exited.injEq] at h; subst h; exact .inr (.inl ⟨_, hl⟩)
      | killed n => simp [start.configured, hcf, hl, stop] at h
  cases abs with
  | nil => simp only [start, List.head?_nil] at h0 ⊢; exact hcfg _ _ h0
  | cons d ms =>
    simp only [start, List.head?_cons] at h0 ⊢
    by_cases hc : env.chdir d = true
    · rw [if_pos hc] at h0 ⊢; exact hcfg _ _ h0
    · rw [if_neg hc] at h0; simp at h0

/-- an environment with a configuration in `/etc` which lists two modules, `a` and `b`; `c` cannot be loaded, and `d` throws an exception -/
def Startup.demoEnv : Env where
  realpath p := if p = chrs ['n'] then none else some (chr '/' :: p)
  chdir _ := true
  config d := if d = some (chrs ['/', 'e']) then some (some [chrs ['a'], chrs ['b']]) else none
  part _ := .ok
  module m := if m = chrs ['a'] then .main .ok else if m = chrs ['/', 'c'] then .missing else if m = chrs ['/', 'd'] then .main .throws else .plain

/-- `poseidon -vd e`: the service runs, and the program that has been started ends with status 0. -/
example : Starts [chrs ['-', 'v', 'd'], chrs ['e']] ∧ Absolute Startup.demoEnv [chrs ['-', 'v', 'd'], chrs ['e']] [chrs ['/', 'e']] ∧
    (main Startup.demoEnv [chrs ['-', 'v', 'd'], chrs ['e']]).serving = .serving ∧ (main Startup.demoEnv [chrs ['-', 'v', 'd'], chrs ['e']]).started = .exited 0 ∧
    (main Startup.demoEnv [chrs ['-', 'v', 'd'], chrs ['e']]).events.drop 10 = [.loaded (chrs ['a']), .called (chrs ['a']), .returned (chrs ['a']), .loaded (chrs ['b']), .ready] := by
  refine ⟨by decide +kernel, ?_, ?_⟩
  · show List.map _ _ = _; decide +kernel
  · decide +kernel

/-- `poseidon e -d b d c`: the second of three modules throws an exception; the third is not loaded, and the status is 1. -/
example : Starts [chrs ['e'], chrs ['-', 'd'], chrs ['b'], chrs ['d'], chrs ['c']] ∧ operands [chrs ['e'], chrs ['-', 'd'], chrs ['b'], chrs ['d'], chrs ['c']] = [chrs ['e'], chrs ['b'], chrs ['d'], chrs ['c']] ∧
    (main Startup.demoEnv [chrs ['e'], chrs ['-', 'd'], chrs ['b'], chrs ['d'], chrs ['c']]).started = .exited 1 ∧
    (main Startup.demoEnv [chrs ['e'], chrs ['-', 'd'], chrs ['b'], chrs ['d'], chrs ['c']]).events.drop 10 = [.loaded (chrs ['/', 'b']), .loaded (chrs ['/', 'd']), .called (chrs ['/', 'd'])] := by
  decide +kernel

/-- `poseidon -v n` and `poseidon -dx` -/
example : main Startup.demoEnv [chrs ['-', 'v'], chrs ['n']] = { events := [], started := .exited 1, serving := .exited 1 } ∧
    main Startup.demoEnv [chrs ['-', 'd', 'x']] = { events := [], started := .exited 2, serving := .exited 2 } ∧
    main Startup.demoEnv [chrs ['e'], chrs ['-', 'V', 'h']] = { events := [.help], started := .exited 0, serving := .exited 0 } := by
  decide +kernel

end

end Verif.Props
