import Verif.Proofs.Live
import Verif.Spec.TaskLive
import Verif.Props.Task
/-!
# C127: tasks that are launched are executed
-/
namespace Verif.Props
open Verif.Task Verif.Live

theorem tl_reach {e : Exec Task.step} (hl : Task.Live e) (n : Nat) : Task.Reachable (e.st n) :=
  e.always (P := Task.Reachable) 0 hl.start (fun _ a _ h hs => .step a h hs) n (Nat.zero_le _)

theorem tl_threads {e : Exec Task.step} (n : Nat) : (e.st n).threads = (e.st 0).threads :=
  e.always (P := fun s => s.threads = (e.st 0).threads) 0 rfl (fun _ _ _ h hs => (advance_threads hs).trans h) n (Nat.zero_le _)

/-- How a thread can go on. -/
theorem tl_pc {s a s'} (h : Task.step s a = some s') (t : Nat) : s'.pc t = s.pc t ∨ (a = .pop t ∧ s.pc t = .idle ∧ ∃ e, s'.pc t = .waiting e) ∨
    (a = .enter t ∧ ∃ e, s.pc t = .waiting e ∧ s'.pc t = .running e) ∨ (∃ k e, a = .call t k ∧ s.pc t = .running e ∧ s'.pc t = .launching e k) ∨
    (a = .push t ∧ ∃ e k, s.pc t = .launching e k ∧ s'.pc t = .running e) ∨ (a = .leave t ∧ ∃ e, s.pc t = .running e ∧ s'.pc t = .idle) := by
  cases a with
  | launch k =>
    simp only [Task.step] at h
    split at h
    · cases h; exact .inl rfl
    · exact nomatch h
  | abandon k => cases h; exact .inl rfl
  | pop u =>
    simp only [Task.step] at h
    split at h
    · rename_i hc
      obtain ⟨l, e, -, ⟨-, rfl⟩ | ⟨-, rfl⟩⟩ := take_cases h
      · left; show (swap s).pc t = _; rw [(swap_same s).2.1]
      · by_cases ht : t = u
        · subst ht; exact .inr (.inl ⟨rfl, hc.2.1, e, by simp [Sys.go]⟩)
        · left; simp only [Sys.go, if_neg ht]; rw [(swap_same s).2.1]
    · exact nomatch h
  | enter u =>
    simp only [Task.step] at h
    split at h
    · split at h
      · rename_i e he
        split at h
        · cases h
          by_cases ht : t = u
          · subst ht; exact .inr (.inr (.inl ⟨rfl, e, he, by simp [Sys.go]⟩))
          · left; simp [Sys.go, ht]
        · exact nomatch h
      · exact nomatch h
    · exact nomatch h
  | call u k =>
    simp only [Task.step] at h
    split at h
    · split at h
      · rename_i e he
        cases h
        by_cases ht : t = u
        · subst ht; exact .inr (.inr (.inr (.inl ⟨k, e, rfl, he, by simp [Sys.go]⟩)))
        · left; simp [Sys.go, ht]
      · exact nomatch h
    · exact nomatch h
  | push u =>
    simp only [Task.step] at h
    split at h
    · split at h
      · rename_i e k he
        split at h
        · cases h
          by_cases ht : t = u
          · subst ht; exact .inr (.inr (.inr (.inr (.inl ⟨rfl, e, k, he, by simp [Sys.go]⟩))))
          · left; simp [Sys.go, ht, Task.push]
        · exact nomatch h
      · exact nomatch h
    · exact nomatch h
  | leave u =>
    simp only [Task.step] at h
    split at h
    · split at h
      · rename_i e he
        cases h
        by_cases ht : t = u
        · subst ht; exact .inr (.inr (.inr (.inr (.inr ⟨rfl, e, he, by simp [Sys.go]⟩))))
        · left; simp [Sys.go, ht]
      · exact nomatch h
    · exact nomatch h

/-- The same in an execution. -/
theorem tl_next {e : Exec Task.step} (n t : Nat) : (e.st (n + 1)).pc t = (e.st n).pc t ∨ (e.act n = some (.pop t) ∧ (e.st n).pc t = .idle ∧ ∃ x, (e.st (n + 1)).pc t = .waiting x) ∨
    (e.act n = some (.enter t) ∧ ∃ x, (e.st n).pc t = .waiting x ∧ (e.st (n + 1)).pc t = .running x) ∨ (∃ k x, (e.st n).pc t = .running x ∧ (e.st (n + 1)).pc t = .launching x k) ∨
    (e.act n = some (.push t) ∧ ∃ x k, (e.st n).pc t = .launching x k ∧ (e.st (n + 1)).pc t = .running x) ∨
    (e.act n = some (.leave t) ∧ ∃ x, (e.st n).pc t = .running x ∧ (e.st (n + 1)).pc t = .idle) := by
  rcases e.next n with ⟨-, h⟩ | ⟨a, ha, h⟩
  · exact .inl (by rw [h])
  · rw [ha]
    rcases tl_pc h t with h' | ⟨rfl, h'⟩ | ⟨rfl, h'⟩ | ⟨k, x, rfl, h'⟩ | ⟨rfl, h'⟩ | ⟨rfl, h'⟩
    · exact .inl h'
    · exact .inr (.inl ⟨rfl, h'⟩)
    · exact .inr (.inr (.inl ⟨rfl, h'⟩))
    · exact .inr (.inr (.inr (.inl ⟨k, x, h'⟩)))
    · exact .inr (.inr (.inr (.inr (.inl ⟨rfl, h'⟩))))
    · exact .inr (.inr (.inr (.inr (.inr ⟨rfl, h'⟩))))

theorem tl_queueFree {s : Task.Sys} (h : ∀ t, (s.pc t).holdsQueue = false) : queueFree s = true := List.all_eq_true.2 fun t _ => by rw [h t]; rfl

theorem tl_lt {s : Task.Sys} (h : Task.Reachable s) {t : Nat} (hp : s.pc t ≠ .idle) : t < s.threads := Nat.lt_of_not_le fun hge => hp ((excl h).bound t hge)

/-- Who executes a task that a thread waits for, leaves it. -/
theorem tl_left {e : Exec Task.step} (hl : Task.Live e) (t u : Nat) (x y : Entry) (hxy : x.task = y.task) : ∀ n, (e.st n).pc t = .waiting x ∧ (e.st n).pc u = .running y →
    ∃ m, n ≤ m ∧ (e.st m).pc t = .waiting x ∧ (e.st m).pc u = .idle := by
  have hut : ∀ n, (e.st n).pc t = .waiting x ∧ (e.st n).pc u = .running y → u ≠ t := by
    rintro n ⟨h1, h2⟩ rfl
    rw [h1] at h2; exact nomatch h2
  have hk : ∀ n, (e.st n).pc t = .waiting x ∧ (e.st n).pc u = .running y → (e.st (n + 1)).pc t = .waiting x := by
    rintro n ⟨h1, h2⟩
    rcases tl_next (e := e) n t with h | ⟨-, h, -⟩ | ⟨ha, -⟩ | ⟨_, _, h, -⟩ | ⟨-, _, _, h, -⟩ | ⟨-, _, h, -⟩
    · rw [h, h1]
    · rw [h1] at h; exact nomatch h
    · exfalso
      rcases e.next n with ⟨h, -⟩ | ⟨a, h, hs⟩
      · rw [ha] at h; exact nomatch h
      · rw [ha] at h; cases h
        simp only [Task.step, h1] at hs
        split at hs
        · split at hs
          · rename_i hf
            have := List.all_eq_true.1 hf u (List.mem_range.2 (tl_lt (tl_reach hl n) (by rw [h2]; exact nofun)))
            rw [h2] at this
            simp [Pc.task, hxy, hut n ⟨h1, h2⟩] at this
          · exact nomatch hs
        · exact nomatch hs
    · rw [h1] at h; exact nomatch h
    · rw [h1] at h; exact nomatch h
    · rw [h1] at h; exact nomatch h
  refine e.leads_once (T := (· = .leave u)) (hl.leave u) (fun n h => ?_) (fun n h => ⟨n, Nat.le_refl _, _, rfl, ?_⟩) (fun n h ⟨a, ha, hta⟩ => ?_)
  · have h3 := hk n h
    obtain ⟨h1, h2⟩ := h
    rcases tl_next (e := e) n u with h | ⟨-, h, -⟩ | ⟨-, _, h, -⟩ | ⟨k, y', h, h4⟩ | ⟨-, _, _, h, -⟩ | ⟨-, _, -, h⟩
    · exact .inl ⟨h3, by rw [h, h2]⟩
    · rw [h2] at h; exact nomatch h
    · rw [h2] at h; exact nomatch h
    · rw [h2] at h; cases h
      exact absurd hxy (hl.apart (n + 1) t u x y k h3 h4)
    · rw [h2] at h; exact nomatch h
    · exact .inr ⟨h3, h⟩
  · have := (h n (Nat.le_refl _)).2
    simp only [Task.step, if_pos (tl_lt (tl_reach hl n) (t := u) (by rw [this]; exact nofun)), this]
    rfl
  · subst hta
    refine ⟨hk n h, ?_⟩
    rcases e.next n with ⟨h', -⟩ | ⟨a, h', hs⟩
    · rw [ha] at h'; exact nomatch h'
    · rw [ha] at h'; cases h'
      simp only [Task.step, h.2] at hs
      split at hs
      · rw [← Option.some.inj hs]; simp [Sys.go]
      · exact nomatch hs

/-- A thread that waits for the mutex of a task gets it. -/
theorem tl_enter {e : Exec Task.step} (hl : Task.Live e) (t : Nat) (x : Entry) : ∀ n, (e.st n).pc t = .waiting x → ∃ m, n ≤ m ∧ (e.st m).pc t = .running x := by
  refine e.leads_once (T := (· = .enter t)) (hl.enter t) (fun n h1 => ?_) (fun n h => ?_) (fun n h1 ⟨a, ha, hta⟩ => ?_)
  · rcases tl_next (e := e) n t with h | ⟨-, h, -⟩ | ⟨-, y, h, h2⟩ | ⟨_, _, h, -⟩ | ⟨-, _, _, h, -⟩ | ⟨-, _, h, -⟩
    · exact .inl (by rw [h, h1])
    · rw [h1] at h; exact nomatch h
    · rw [h1] at h; cases h; exact .inr h2
    all_goals (rw [h1] at h; exact nomatch h)
  · have h0 := h n (Nat.le_refl _)
    have key : ∀ m, (e.st m).pc t = .waiting x → (∀ u, u ≠ t → ((e.st m).pc u).task ≠ some x.task) → Enabled Task.step (· = .enter t) (e.st m) := by
      intro m h1 h2
      refine ⟨_, rfl, ?_⟩
      have hf : taskFree (e.st m) t x.task = true := List.all_eq_true.2 fun u _ => by
        by_cases hu : u = t
        · simp [hu]
        · simp [h2 u hu]
      simp only [Task.step, if_pos (tl_lt (tl_reach hl m) (t := t) (by rw [h1]; exact nofun)), h1, hf, if_true]
      rfl
    by_cases hf : ∀ u, u ≠ t → ((e.st n).pc u).task ≠ some x.task
    · exact ⟨n, Nat.le_refl _, key n h0 hf⟩
    · simp only [Classical.not_forall, Classical.not_not, not_imp] at hf
      obtain ⟨u, hut, hu⟩ := hf
      cases hp : (e.st n).pc u with
      | idle => rw [hp] at hu; exact nomatch hu
      | waiting y => rw [hp] at hu; exact nomatch hu
      | launching y k =>
        rw [hp] at hu
        exact absurd (Option.some.inj hu).symm (hl.apart n t u x y k h0 hp)
      | running y =>
        rw [hp] at hu
        -- the thread leaves; nobody else can get the mutex meanwhile
        have hno : ∀ m, n ≤ m → ∀ v, v ≠ t → v ≠ u → ((e.st m).pc v).task ≠ some x.task := by
          intro m hm
          induction m with
          | zero =>
            have : n = 0 := by omega
            subst this
            intro v _ hvu hv
            exact hvu ((excl (tl_reach hl 0)).task v u x.task hv (by rw [hp]; exact hu))
          | succ m ih =>
            intro v hvt hvu hv
            by_cases hmn : n = m + 1
            · subst hmn
              exact hvu ((excl (tl_reach hl _)).task v u x.task hv (by rw [hp]; exact hu))
            · have ih := ih (by omega) v hvt hvu
              rcases tl_next (e := e) m v with h | ⟨-, -, _, h⟩ | ⟨-, y', h3, -⟩ | ⟨_, _, h3, h⟩ | ⟨-, _, _, h3, h⟩ | ⟨-, _, -, h⟩
              · rw [h] at hv; exact ih hv
              · rw [h] at hv; exact nomatch hv
              · exact hvt ((excl (tl_reach hl m)).one v t (by rw [h3]; rfl) (by rw [h m (by omega)]; rfl))
              · rw [h] at hv; rw [h3] at ih; exact ih hv
              · rw [h] at hv; rw [h3] at ih; exact ih hv
              · rw [h] at hv; exact nomatch hv
        obtain ⟨m, hm, h1, h2⟩ := tl_left hl t u x y (Option.some.inj hu).symm n ⟨h0, hp⟩
        refine ⟨m, hm, key m h1 fun v hvt hv => ?_⟩
        by_cases hvu : v = u
        · subst hvu; rw [h2] at hv; exact nomatch hv
        · exact hno m hm v hvt hvu hv
  · subst hta
    rcases e.next n with ⟨h', -⟩ | ⟨a, h', hs⟩
    · rw [ha] at h'; exact nomatch h'
    · rw [ha] at h'; cases h'
      simp only [Task.step, h1] at hs
      split at hs
      · split at hs
        · rw [← Option.some.inj hs]; simp [Sys.go]
        · exact nomatch hs
      · exact nomatch hs

/-- When a thread has just got the mutex of a task, the mutex of the queue is free. -/
theorem tl_free {e : Exec Task.step} (hl : Task.Live e) : ∀ n, ∃ m, n ≤ m ∧ queueFree (e.st m) = true := by
  intro n
  by_cases h : ∀ t, ((e.st n).pc t).holdsQueue = false
  · exact ⟨n, Nat.le_refl _, tl_queueFree h⟩
  · simp only [Bool.not_eq_false, Classical.not_forall] at h
    obtain ⟨t, ht⟩ := h
    cases hp : (e.st n).pc t with
    | waiting x =>
      obtain ⟨m, hm, h2⟩ := tl_enter hl t x n hp
      -- the first time at which the thread does not wait
      have : ∀ k, n ≤ k → (e.st k).pc t = .waiting x ∨ ∃ j, n ≤ j ∧ queueFree (e.st j) = true := by
        intro k hk
        induction k with
        | zero =>
          have : n = 0 := by omega
          subst this; exact .inl hp
        | succ k ih =>
          by_cases hkn : n = k + 1
          · subst hkn; exact .inl hp
          · rcases ih (by omega) with h1 | h1
            · rcases tl_next (e := e) k t with h | ⟨-, h, -⟩ | ⟨ha, y, -, h3⟩ | ⟨_, _, h, -⟩ | ⟨-, _, _, h, -⟩ | ⟨-, _, h, -⟩
              · exact .inl (by rw [h, h1])
              · rw [h1] at h; exact nomatch h
              · right
                refine ⟨k + 1, by omega, tl_queueFree fun u => ?_⟩
                by_cases hu : u = t
                · subst hu; rw [h3]; rfl
                · rcases e.next k with ⟨h, -⟩ | ⟨a, h, hs⟩
                  · rw [ha] at h; exact nomatch h
                  · rw [ha] at h; cases h
                    rcases tl_pc hs u with h | ⟨h, -⟩ | ⟨h, -⟩ | ⟨_, _, h, -⟩ | ⟨h, -⟩ | ⟨h, -⟩ <;> try cases h
                    · rw [h]
                      cases hh : ((e.st k).pc u).holdsQueue with
                      | false => rfl
                      | true => exact absurd ((excl (tl_reach hl k)).one u t hh (by rw [h1]; rfl)) hu
                    · exact absurd rfl hu
              all_goals (rw [h1] at h; exact nomatch h)
            · exact .inr h1
      rcases this m hm with h | h
      · rw [h2] at h; exact nomatch h
      · exact h
    | _ => rw [hp] at ht; exact nomatch ht

/-- C127: when a task launches another one, this call returns. -/
theorem C127_launch (e : Exec Task.step) (hl : Task.Live e) (t : Nat) (x : Entry) (task : Nat) : ∀ n, (e.st n).pc t = .launching x task → ∃ m, n ≤ m ∧ (e.st m).pc t = .running x := by
  refine e.leads_once (T := (· = .push t)) (hl.push t) (fun n h1 => ?_) (fun n h => ?_) (fun n h1 ⟨a, ha, hta⟩ => ?_)
  · rcases tl_next (e := e) n t with h | ⟨-, h, -⟩ | ⟨-, _, h, -⟩ | ⟨_, _, h, -⟩ | ⟨-, _, _, h, h2⟩ | ⟨-, _, h, -⟩
    · exact .inl (by rw [h, h1])
    · rw [h1] at h; exact nomatch h
    · rw [h1] at h; exact nomatch h
    · rw [h1] at h; exact nomatch h
    · rw [h1] at h; cases h; exact .inr h2
    · rw [h1] at h; exact nomatch h
  · obtain ⟨m, hm, hf⟩ := tl_free hl n
    have h1 := h m hm
    refine ⟨m, hm, _, rfl, ?_⟩
    simp only [Task.step, if_pos (tl_lt (tl_reach hl m) (t := t) (by rw [h1]; exact nofun)), h1, hf, if_true]
    rfl
  · subst hta
    rcases e.next n with ⟨h', -⟩ | ⟨a, h', hs⟩
    · rw [ha] at h'; exact nomatch h'
    · rw [ha] at h'; cases h'
      simp only [Task.step, h1] at hs
      split at hs
      · split at hs
        · rw [← Option.some.inj hs]; simp [Sys.go]
        · exact nomatch hs
      · exact nomatch hs

/-- Every thread goes back to the queue. -/
theorem tl_idle {e : Exec Task.step} (hl : Task.Live e) (t n : Nat) : ∃ m, n ≤ m ∧ (e.st m).pc t = .idle := by
  apply Classical.byContradiction
  intro hno
  have run : ∀ m, n ≤ m → ∃ k, m ≤ k ∧ ∃ x, (e.st k).pc t = .running x := by
    intro m hm
    cases hp : (e.st m).pc t with
    | idle => exact absurd ⟨m, hm, hp⟩ hno
    | running x => exact ⟨m, Nat.le_refl _, x, hp⟩
    | waiting x => obtain ⟨k, hk, h⟩ := tl_enter hl t x m hp; exact ⟨k, hk, x, h⟩
    | launching x j => obtain ⟨k, hk, h⟩ := C127_launch e hl t x j m hp; exact ⟨k, hk, x, h⟩
  obtain ⟨m, hm, a, ha, hta⟩ := hl.leave t n fun m hm => by
    obtain ⟨k, hk, x, h⟩ := run m hm
    refine ⟨k, hk, _, rfl, ?_⟩
    simp only [Task.step, if_pos (tl_lt (tl_reach hl k) (t := t) (by rw [h]; exact nofun)), h]
    rfl
  subst hta
  rcases e.next m with ⟨h', -⟩ | ⟨a, h', hs⟩
  · rw [ha] at h'; exact nomatch h'
  · rw [ha] at h'; cases h'
    simp only [Task.step] at hs
    split at hs
    · split at hs
      · refine hno ⟨m + 1, by omega, ?_⟩
        rw [← Option.some.inj hs]; simp [Sys.go]
      · exact nomatch hs
    · exact nomatch hs

/-- An element is taken out of a queue. -/
def tlPop (a : Task.Act) : Prop := ∃ t, a = .pop t

theorem tl_take {s : Task.Sys} (h : ¬ (s.front = [] ∧ s.back = [])) (t : Nat) : (take (swap s) t).isSome = true := by
  have hne : (swap s).front ≠ [] := by
    unfold swap
    split
    · rename_i hf; exact fun hb => h ⟨hf, hb⟩
    · assumption
  simp only [take]
  split
  · rename_i hn; exact absurd (List.getLast?_eq_none_iff.1 hn) hne
  · split <;> rfl

/-- As long as there are elements, they are taken out. -/
theorem tl_pops {e : Exec Task.step} (hl : Task.Live e) (n : Nat) (hq : ∀ m, n ≤ m → ¬ ((e.st m).front = [] ∧ (e.st m).back = [])) : ∃ m, n ≤ m ∧ e.Taken tlPop m := by
  apply Classical.byContradiction
  intro hno
  obtain ⟨m0, hm0, h0⟩ := tl_idle hl 0 n
  have hidle : ∀ m, m0 ≤ m → (e.st m).pc 0 = .idle := by
    intro m hm
    induction m with
    | zero =>
      have : m0 = 0 := by omega
      subst this; exact h0
    | succ m ih =>
      by_cases h : m0 = m + 1
      · subst h; exact h0
      · have ih := ih (by omega)
        rcases tl_next (e := e) m 0 with h | ⟨ha, -⟩ | ⟨-, _, h, -⟩ | ⟨_, _, h, -⟩ | ⟨-, _, _, h, -⟩ | ⟨-, _, h, -⟩
        · rw [h, ih]
        · exact absurd ⟨m, by omega, _, ha, 0, rfl⟩ hno
        all_goals (rw [ih] at h; exact nomatch h)
  obtain ⟨m, hm, a, ha, hta⟩ := hl.pop 0 m0 fun m hm => by
    obtain ⟨k, hk, hf⟩ := tl_free hl m
    refine ⟨k, hk, _, rfl, ?_⟩
    have ht : 0 < (e.st k).threads := by rw [tl_threads]; exact hl.threads
    simp only [Task.step]
    rw [if_pos ⟨ht, hidle k (by omega), hf, hq k (by omega)⟩]
    exact tl_take (hq k (by omega)) 0
  exact hno ⟨m, by omega, a, ha, 0, hta⟩

theorem tl_other {s a s'} (h : Task.step s a = some s') (hn : ¬ tlPop a) : s'.front = s.front ∧ ∃ l, s'.back = s.back ++ l := by
  cases a with
  | pop t => exact absurd ⟨t, rfl⟩ hn
  | launch k =>
    simp only [Task.step] at h
    split at h
    · cases h; exact ⟨rfl, _, rfl⟩
    · exact nomatch h
  | abandon k => cases h; exact ⟨rfl, [], by simp⟩
  | enter t =>
    simp only [Task.step] at h
    split at h
    · split at h
      · split at h
        · cases h; exact ⟨rfl, [], by simp [Sys.go]⟩
        · exact nomatch h
      · exact nomatch h
    · exact nomatch h
  | call t k =>
    simp only [Task.step] at h
    split at h
    · split at h
      · cases h; exact ⟨rfl, [], by simp [Sys.go]⟩
      · exact nomatch h
    · exact nomatch h
  | push t =>
    simp only [Task.step] at h
    split at h
    · split at h
      · split at h
        · cases h; exact ⟨rfl, _, rfl⟩
        · exact nomatch h
      · exact nomatch h
    · exact nomatch h
  | leave t =>
    simp only [Task.step] at h
    split at h
    · split at h
      · cases h; exact ⟨rfl, [], by simp [Sys.go]⟩
      · exact nomatch h
    · exact nomatch h

theorem tl_popped {s t s'} (h : Task.step s (.pop t) = some s') : ∃ l x, (swap s).front = l ++ [x] ∧ s'.front = l ∧ s'.back = (swap s).back ∧ x.id ∈ poppedIds s'.trace := by
  simp only [Task.step] at h
  split at h
  · obtain ⟨l, x, hl, ⟨-, rfl⟩ | ⟨-, rfl⟩⟩ := take_cases h
    · exact ⟨l, x, hl, rfl, rfl, List.mem_cons_self ..⟩
    · exact ⟨l, x, hl, rfl, rfl, List.mem_cons_self ..⟩
  · exact nomatch h

theorem tl_front {e : Exec Task.step} (hl : Task.Live e) (id : Nat) : ∀ n, (∃ x ∈ (e.st n).front, x.id = id) → ∃ m, n ≤ m ∧ id ∈ poppedIds (e.st m).trace := by
  have hpop : ∀ n, (∃ x ∈ (e.st n).front, x.id = id) → e.Taken tlPop n →
      ((∃ x ∈ (e.st (n + 1)).front, x.id = id) ∧ (e.st (n + 1)).front.length < (e.st n).front.length) ∨ id ∈ poppedIds (e.st (n + 1)).trace := by
    rintro n ⟨x, hx, rfl⟩ ⟨a, ha, t, rfl⟩
    rcases e.next n with ⟨h, -⟩ | ⟨a, h, hs⟩
    · rw [ha] at h; exact nomatch h
    · rw [ha] at h; cases h
      obtain ⟨l, y, h1, h2, -, h4⟩ := tl_popped hs
      have hsw : swap (e.st n) = e.st n := by unfold swap; rw [if_neg]; intro h; rw [h] at hx; exact nomatch hx
      rw [hsw] at h1
      rw [h1] at hx
      rcases List.mem_append.1 hx with hx | hx
      · exact .inl ⟨⟨x, by rw [h2]; exact hx, rfl⟩, by rw [h1, h2]; simp⟩
      · rw [List.mem_singleton.1 hx]; exact .inr h4
  refine e.leads_often (T := tlPop) (fun n => (e.st n).front.length) (fun n h => ?_) (fun n h => tl_pops hl n fun m hm => ?_) hpop
  · rcases e.next n with ⟨-, hs⟩ | ⟨a, ha, hs⟩
    · rw [hs]; exact .inl ⟨h, Nat.le_refl _⟩
    · by_cases hp : tlPop a
      · rcases hpop n h ⟨a, ha, hp⟩ with h | h
        · exact .inl ⟨h.1, Nat.le_of_lt h.2⟩
        · exact .inr h
      · rw [(tl_other hs hp).1]; exact .inl ⟨h, Nat.le_refl _⟩
  · obtain ⟨⟨x, hx, -⟩, -⟩ := h m hm
    rintro ⟨h1, -⟩
    rw [h1] at hx; exact nomatch hx

theorem tl_back {e : Exec Task.step} (hl : Task.Live e) (id : Nat) : ∀ n, (∃ x ∈ (e.st n).back, x.id = id) → ∃ m, n ≤ m ∧ ((∃ x ∈ (e.st m).front, x.id = id) ∨ id ∈ poppedIds (e.st m).trace) := by
  have hpop : ∀ n, (∃ x ∈ (e.st n).back, x.id = id) → e.Taken tlPop n →
      ((∃ x ∈ (e.st (n + 1)).back, x.id = id) ∧ (e.st (n + 1)).front.length < (e.st n).front.length) ∨ ((∃ x ∈ (e.st (n + 1)).front, x.id = id) ∨ id ∈ poppedIds (e.st (n + 1)).trace) := by
    rintro n ⟨x, hx, rfl⟩ ⟨a, ha, t, rfl⟩
    rcases e.next n with ⟨h, -⟩ | ⟨a, h, hs⟩
    · rw [ha] at h; exact nomatch h
    · rw [ha] at h; cases h
      obtain ⟨l, y, h1, h2, h3, h4⟩ := tl_popped hs
      by_cases hf : (e.st n).front = []
      · right
        have hsw : (swap (e.st n)).front = (e.st n).back := by unfold swap; rw [if_pos hf]
        rw [← hsw, h1] at hx
        rcases List.mem_append.1 hx with hx | hx
        · exact .inl ⟨x, by rw [h2]; exact hx, rfl⟩
        · rw [List.mem_singleton.1 hx]; exact .inr h4
      · have hsw : swap (e.st n) = e.st n := by unfold swap; rw [if_neg hf]
        rw [hsw] at h1 h3
        exact .inl ⟨⟨x, by rw [h3]; exact hx, rfl⟩, by rw [h1, h2]; simp⟩
  refine e.leads_often (T := tlPop) (fun n => (e.st n).front.length) (fun n h => ?_) (fun n h => tl_pops hl n fun m hm => ?_) hpop
  · rcases e.next n with ⟨-, hs⟩ | ⟨a, ha, hs⟩
    · rw [hs]; exact .inl ⟨h, Nat.le_refl _⟩
    · by_cases hp : tlPop a
      · rcases hpop n h ⟨a, ha, hp⟩ with h | h
        · exact .inl ⟨h.1, Nat.le_of_lt h.2⟩
        · exact .inr h
      · obtain ⟨h1, l, h2⟩ := tl_other hs hp
        rw [h1, h2]
        obtain ⟨x, hx, h⟩ := h
        exact .inl ⟨⟨x, List.mem_append_left _ hx, h⟩, Nat.le_refl _⟩
  · obtain ⟨⟨x, hx, -⟩, -⟩ := h m hm
    rintro ⟨-, h1⟩
    rw [h1] at hx; exact nomatch hx

/-- Histories only grow. -/
theorem tl_grow {s a s'} (h : Task.step s a = some s') : ∃ l, s'.trace = l ++ s.trace := by
  rcases step_cases h with ⟨k, -, rfl⟩ | ⟨k, rfl⟩ | ⟨t, -, -, -, ht⟩ | ⟨t, e, -, -, -, rfl⟩ | ⟨t, e, k, -, -, rfl⟩ | ⟨t, e, k, -, -, -, rfl⟩ | ⟨t, e, -, -, rfl⟩
  · exact ⟨[_], rfl⟩
  · exact ⟨[_], rfl⟩
  · obtain ⟨l, e, -, ⟨-, rfl⟩ | ⟨-, rfl⟩⟩ := take_cases ht
    · exact ⟨[.skipped e.id e.task, .popped e.id e.task e.batch], by simp [(swap_same s).1]⟩
    · exact ⟨[.popped e.id e.task e.batch], by simp [Sys.go, (swap_same s).1]⟩
  · exact ⟨[_], rfl⟩
  · exact ⟨[], rfl⟩
  · exact ⟨[_], rfl⟩
  · exact ⟨[_], rfl⟩

theorem tl_keep {e : Exec Task.step} (x : Ev) (n m : Nat) (hm : n ≤ m) (h : x ∈ (e.st n).trace) : x ∈ (e.st m).trace :=
  e.always (P := fun s => x ∈ s.trace) n h (fun _ _ _ h hs => by obtain ⟨l, hl⟩ := tl_grow hs; rw [hl]; exact List.mem_append_right _ h) m hm

theorem tl_unique {s} (h : Task.Reachable s) (id k k' b b' : Nat) (h1 : .launched id k b ∈ s.trace) (h2 : .launched id k' b' ∈ s.trace) : k = k' := by
  induction h with
  | init => exact nomatch h1
  | @step s s' a hr hs ih =>
    have push : ∀ j, .launched id k b ∈ .launched s.ids j s.batch :: s.trace → .launched id k' b' ∈ .launched s.ids j s.batch :: s.trace → k = k' := by
      intro j h1 h2
      rcases List.mem_cons.1 h1 with h1 | h1 <;> rcases List.mem_cons.1 h2 with h2 | h2
      · cases h1; cases h2; rfl
      · have := (origin hr).launched _ _ _ h2; injection h1; omega
      · have := (origin hr).launched _ _ _ h1; injection h2; omega
      · exact ih h1 h2
    have other : ∀ x : Ev, (∀ i j c, x ≠ .launched i j c) → .launched id k b ∈ x :: s.trace → .launched id k' b' ∈ x :: s.trace → k = k' := by
      intro x hx h1 h2
      rcases List.mem_cons.1 h1 with h1 | h1
      · exact absurd h1.symm (hx _ _ _)
      rcases List.mem_cons.1 h2 with h2 | h2
      · exact absurd h2.symm (hx _ _ _)
      exact ih h1 h2
    rcases step_cases hs with ⟨j, -, rfl⟩ | ⟨j, rfl⟩ | ⟨t, -, -, -, ht⟩ | ⟨t, e, -, -, -, rfl⟩ | ⟨t, e, j, -, -, rfl⟩ | ⟨t, e, j, -, -, -, rfl⟩ | ⟨t, e, -, -, rfl⟩
    · exact push j h1 h2
    · exact other _ (by simp) h1 h2
    · obtain ⟨l, e, -, ⟨-, rfl⟩ | ⟨-, rfl⟩⟩ := take_cases ht
      · simp only [(swap_same s).1, List.mem_cons, reduceCtorEq, false_or] at h1 h2
        exact ih h1 h2
      · simp only [Sys.go, (swap_same s).1, List.mem_cons, reduceCtorEq, false_or] at h1 h2
        exact ih h1 h2
    · exact other _ (by simp) h1 h2
    · exact ih h1 h2
    · exact push j h1 h2
    · exact other _ (by simp) h1 h2

/-- C127: every task that is launched is eventually executed, unless it is abandoned. -/
theorem C127_task (e : Exec Task.step) (hl : Task.Live e) (n id task b : Nat) (h : .launched id task b ∈ (e.st n).trace) :
    ∃ m, n ≤ m ∧ (.began id task ∈ (e.st m).trace ∨ .abandoned task ∈ (e.st m).trace) := by
  have hpop : ∃ m, n ≤ m ∧ (id ∈ poppedIds (e.st m).trace) := by
    have hm := (perm (tl_reach hl n)).mem_iff.2 (List.mem_range.2 ((origin (tl_reach hl n)).launched id task b h))
    rcases List.mem_append.1 hm with hm | hm
    · obtain ⟨x, hx, hi⟩ := List.mem_map.1 hm
      rcases List.mem_append.1 hx with hx | hx
      · exact tl_front hl id n ⟨x, hx, hi⟩
      · obtain ⟨m, hm, h | h⟩ := tl_back hl id n ⟨x, hx, hi⟩
        · obtain ⟨m', hm', h⟩ := tl_front hl id m h
          exact ⟨m', by omega, h⟩
        · exact ⟨m, hm, h⟩
    · exact ⟨n, Nat.le_refl _, hm⟩
  obtain ⟨m, hm, hp⟩ := hpop
  obtain ⟨m', hm', hf⟩ := tl_free hl m
  have hr := tl_reach hl m'
  have hp' : id ∈ poppedIds (e.st m').trace :=
    e.always (P := fun s => id ∈ poppedIds s.trace) m hp (fun s a s' h hs => by obtain ⟨l, hl⟩ := tl_grow hs; rw [hl, poppedIds, List.filterMap_append]; exact List.mem_append_right _ h) m' hm'
  rw [(excl hr).none (free_all (excl hr).bound hf)] at hp'
  have hl' := tl_keep (e := e) _ n m' (by omega) h
  refine ⟨m', by omega, ?_⟩
  rcases mem_outcomes.1 hp' with h1 | h1
  · obtain ⟨k, hk⟩ := mem_beganIds.1 h1
    obtain ⟨b', hb⟩ := (origin hr).began _ _ hk
    rw [← tl_unique hr id k task b' b ((origin hr).popped _ _ _ hb) hl']
    exact .inl hk
  · obtain ⟨k, hk⟩ := mem_skippedIds.1 h1
    obtain ⟨b', hb⟩ := (origin hr).skipped _ _ hk
    rw [← tl_unique hr id k task b' b ((origin hr).popped _ _ _ hb) hl']
    obtain ⟨x, y, hxy⟩ := List.append_of_mem hk
    refine .inr ?_
    rw [hxy]
    exact List.mem_append_right _ (List.mem_cons_of_mem _ ((origin hr).only _ _ _ _ hxy))

def taskLiveDemo : List Task.Act := [.launch 7, .launch 7, .pop 0, .enter 0, .pop 1, .leave 0, .enter 1, .call 1 8, .push 1, .leave 1, .pop 0, .enter 0, .leave 0]

theorem taskLive_some : (runs Task.step { threads := 2 } taskLiveDemo).isSome = true := rfl

/-- Non-vacuity: an execution that is fair for ever, in which a task is launched twice and launches another one. -/
example : ∃ e : Exec Task.step, Task.Live e ∧ .launched 2 8 1 ∈ (e.st 9).trace ∧ (e.st 8).pc 1 = .launching ⟨0, 7, 0⟩ 8 := by
  have stop : ∀ (T : Task.Act → Prop), (∀ a, T a → ∃ t, a = .pop t ∨ a = .enter t ∨ a = .push t ∨ a = .leave t) → (Exec.ofRun _ taskLiveDemo taskLive_some).Fair T := by
    intro T hT n hen
    exfalso
    obtain ⟨k, hk, a, ha, hs⟩ := hen (n + 13) (by omega)
    have e := Exec.ofRun_end (step := Task.step) _ taskLiveDemo taskLive_some k (by simp [taskLiveDemo]; omega)
    have e2 : runs Task.step { threads := 2 } taskLiveDemo = some _ := rfl
    rw [e2] at e
    rw [Option.some.inj e] at hs
    obtain ⟨t, ht⟩ := hT a ha
    have split : t = 0 ∨ t = 1 ∨ ¬ t < 2 := by omega
    rcases ht with rfl | rfl | rfl | rfl <;> rcases split with rfl | rfl | h
    all_goals first | exact absurd hs (by decide) | skip
    all_goals (simp [Task.step, Sys.go, Task.push, Task.swap, h] at hs)
  refine ⟨Exec.ofRun _ taskLiveDemo taskLive_some, ⟨.init 2, by decide, fun t => stop _ ?_, fun t => stop _ ?_, fun t => stop _ ?_, fun t => stop _ ?_, ?_⟩, by decide, by decide⟩
  · rintro a rfl; exact ⟨t, .inl rfl⟩
  · rintro a rfl; exact ⟨t, .inr (.inl rfl)⟩
  · rintro a rfl; exact ⟨t, .inr (.inr (.inl rfl))⟩
  · rintro a rfl; exact ⟨t, .inr (.inr (.inr rfl))⟩
  · intro n t u x y k h1 h2
    exfalso
    have hr : Task.Reachable ((Exec.ofRun _ taskLiveDemo taskLive_some).st n) :=
      Exec.always _ (P := Task.Reachable) 0 (.init 2) (fun _ a _ h hs => .step a h hs) n (Nat.zero_le _)
    have ht := tl_lt hr (t := t) (by rw [h1]; exact nofun)
    have hu := tl_lt hr (t := u) (by rw [h2]; exact nofun)
    rw [tl_threads] at ht hu
    have : ∀ n < 14, ∀ t < 2, ∀ u < 2, (((Exec.ofRun _ taskLiveDemo taskLive_some).st n).pc t).holdsQueue = true →
        (match ((Exec.ofRun _ taskLiveDemo taskLive_some).st n).pc u with | .launching _ _ => true | _ => false) = false := by decide
    by_cases hn : n < 14
    · have := this n hn t ht u hu (by rw [h1]; rfl)
      rw [h2] at this; exact nomatch this
    · have e := Exec.ofRun_end (step := Task.step) _ taskLiveDemo taskLive_some n (by simp [taskLiveDemo]; omega)
      rw [← Exec.ofRun_end (step := Task.step) _ taskLiveDemo taskLive_some 13 (by decide)] at e
      rw [Option.some.inj e] at h1 h2
      have := this 13 (by decide) t ht u hu (by rw [h1]; rfl)
      rw [h2] at this; exact nomatch this

end Verif.Props
