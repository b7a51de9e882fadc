import Verif.Proofs.Task
/-!
# C33: tasks
-/
namespace Verif.Props
open Verif.Task

theorem outcomes_nodup {s : Sys} (h : Reachable s) : (outcomes s.trace).Nodup := by
  have hn := popped_nodup h
  by_cases hw : ∀ t, (s.pc t).holdsQueue = false
  · rw [← (excl h).none hw]; exact hn
  · simp only [Bool.not_eq_false, Classical.not_forall] at hw
    obtain ⟨t, ht⟩ := hw
    cases hp : s.pc t with
    | waiting e => rw [(excl h).wait t e hp] at hn; exact (List.nodup_cons.1 hn).2
    | _ => rw [hp] at ht; exact nomatch ht

theorem began_sublist (tr : List Ev) : (beganIds tr).Sublist (outcomes tr) := by
  induction tr with
  | nil => exact .refl _
  | cons e tr ih => cases e <;> first | exact ih.cons_cons _ | exact ih.cons _ | exact ih

theorem mem_beganIds {tr : List Ev} {id : Nat} : id ∈ beganIds tr ↔ ∃ k, Ev.began id k ∈ tr := by
  simp only [beganIds, List.mem_filterMap]
  constructor
  · rintro ⟨e, he, h⟩; cases e <;> simp at h; exact ⟨_, h ▸ he⟩
  · rintro ⟨k, h⟩; exact ⟨_, h, rfl⟩

theorem mem_skippedIds {tr : List Ev} {id : Nat} : id ∈ skippedIds tr ↔ ∃ k, Ev.skipped id k ∈ tr := by
  simp only [skippedIds, List.mem_filterMap]
  constructor
  · rintro ⟨e, he, h⟩; cases e <;> simp at h; exact ⟨_, h ▸ he⟩
  · rintro ⟨k, h⟩; exact ⟨_, h, rfl⟩

theorem mem_outcomes {tr : List Ev} {id : Nat} : id ∈ outcomes tr ↔ id ∈ beganIds tr ∨ id ∈ skippedIds tr := by
  rw [mem_beganIds, mem_skippedIds]
  simp only [outcomes, List.mem_filterMap]
  constructor
  · rintro ⟨e, he, h⟩
    cases e <;> simp at h
    · exact .inr ⟨_, h ▸ he⟩
    · exact .inl ⟨_, h ▸ he⟩
  · rintro (⟨k, h⟩ | ⟨k, h⟩) <;> exact ⟨_, h, rfl⟩

/-- C33: for each call of `launch()`, the task begins to execute at most once, and not at all if it was found abandoned. -/
theorem C33_at_most_once (s : Sys) (h : Reachable s) : (beganIds s.trace).Nodup ∧ ∀ id ∈ beganIds s.trace, id ∉ skippedIds s.trace := by
  have hn := outcomes_nodup h
  refine ⟨hn.sublist (began_sublist _), ?_⟩
  suffices ∀ tr, (outcomes tr).Nodup → ∀ id ∈ beganIds tr, id ∉ skippedIds tr from this _ hn
  intro tr
  induction tr with
  | nil => exact fun _ _ h => nomatch h
  | cons e tr ih =>
    intro hn id hb hs
    cases e with
    | began i k =>
      have hn : (i :: outcomes tr).Nodup := hn
      rw [List.nodup_cons] at hn
      rcases List.mem_cons.1 (show id ∈ i :: beganIds tr from hb) with rfl | hb
      · exact hn.1 (mem_outcomes.2 (.inr hs))
      · exact ih hn.2 id hb hs
    | skipped i k =>
      have hn : (i :: outcomes tr).Nodup := hn
      rw [List.nodup_cons] at hn
      rcases List.mem_cons.1 (show id ∈ i :: skippedIds tr from hs) with rfl | hs
      · exact hn.1 (mem_outcomes.2 (.inl hb))
      · exact ih hn.2 id hb hs
    | _ => exact ih hn id hb hs

/-- C33: no call of `launch()` is lost: its element is still in a queue, or a thread has just taken it out, or the task has begun to execute, or it was
found abandoned. -/
theorem C33_not_lost (s : Sys) (h : Reachable s) (id task b : Nat) (hl : Ev.launched id task b ∈ s.trace) :
    (∃ e ∈ s.front ++ s.back, e.id = id) ∨ (∃ t e, s.pc t = .waiting e ∧ e.id = id) ∨ id ∈ beganIds s.trace ∨ id ∈ skippedIds s.trace := by
  have hm := (perm h).mem_iff.2 (List.mem_range.2 ((origin h).launched id task b hl))
  rcases List.mem_append.1 hm with hm | hm
  · obtain ⟨e, he, rfl⟩ := List.mem_map.1 hm
    exact .inl ⟨e, he, rfl⟩
  · right
    by_cases hw : ∀ t, (s.pc t).holdsQueue = false
    · rw [(excl h).none hw] at hm; exact .inr (mem_outcomes.1 hm)
    · simp only [Bool.not_eq_false, Classical.not_forall] at hw
      obtain ⟨t, ht⟩ := hw
      cases hp : s.pc t with
      | waiting e =>
        rw [(excl h).wait t e hp] at hm
        rcases List.mem_cons.1 hm with rfl | hm
        · exact .inl ⟨t, e, hp, rfl⟩
        · exact .inr (mem_outcomes.1 hm)
      | _ => rw [hp] at ht; exact nomatch ht

/-- C33: when the queues are empty and no thread is about to execute a task, every task launched has been executed or was found abandoned. -/
theorem C33_exactly_once (s : Sys) (h : Reachable s) (hf : s.front = []) (hb : s.back = []) (hw : ∀ t e, s.pc t ≠ .waiting e)
    (id task b : Nat) (hl : Ev.launched id task b ∈ s.trace) : id ∈ beganIds s.trace ∨ id ∈ skippedIds s.trace := by
  rcases C33_not_lost s h id task b hl with ⟨e, he, -⟩ | ⟨t, e, he, -⟩ | h
  · rw [hf, hb] at he; exact nomatch he
  · exact absurd he (hw t e)
  · exact h

/-- C33: what is executed has been launched. -/
theorem C33_launched (s : Sys) (h : Reachable s) (id task : Nat) (hb : Ev.began id task ∈ s.trace) : ∃ n, Ev.launched id task n ∈ s.trace := by
  obtain ⟨n, hp⟩ := (origin h).began id task hb
  exact ⟨n, (origin h).popped id task n hp⟩

/-- C33: a task that is abandoned before it is taken out of the queue is not executed. -/
theorem C33_abandoned (s : Sys) (h : Reachable s) (a b : List Ev) (id task n k : Nat) (he : s.trace = a ++ .popped id task n :: b)
    (hd : Ev.abandoned task ∈ b) : Ev.began id k ∉ s.trace := by
  intro hb
  have hs := (origin h).after a b id task n he hd
  exact (C33_at_most_once s h).2 id (mem_beganIds.2 ⟨k, hb⟩) (mem_skippedIds.2 ⟨task, by rw [he]; simp [hs]⟩)

/-- C33: a task is left out only if it has been abandoned. -/
theorem C33_skipped (s : Sys) (h : Reachable s) (a b : List Ev) (id task : Nat) (he : s.trace = a ++ .skipped id task :: b) : Ev.abandoned task ∈ b :=
  (origin h).only a b id task he

/-- C33: tasks of an earlier batch are taken before tasks of a later batch.  (A batch is what is launched between two exchanges of the queues.) -/
theorem C33_batches (s : Sys) (h : Reachable s) (a m c : List Ev) (id1 t1 b1 id2 t2 b2 : Nat)
    (he : s.trace = a ++ .popped id2 t2 b2 :: m ++ .popped id1 t1 b1 :: c) : b1 ≤ b2 ∧ Ev.launched id1 t1 b1 ∈ s.trace ∧ Ev.launched id2 t2 b2 ∈ s.trace := by
  refine ⟨?_, (origin h).popped _ _ _ (by rw [he]; simp), (origin h).popped _ _ _ (by rw [he]; simp)⟩
  have hs := (batches h).sorted
  rw [he] at hs
  simp only [poppedBatches, List.filterMap_append, List.filterMap_cons] at hs
  rw [List.pairwise_append] at hs
  exact hs.2.2 b2 (by simp) b1 (by simp)

/-- C33: no task is executed by two threads at the same time. -/
theorem C33_not_concurrent (s : Sys) (h : Reachable s) (t u : Nat) (e f : Entry) (ht : s.pc t = .running e) (hu : s.pc u = .running f)
    (hk : e.task = f.task) : t = u := (excl h).task t u e.task (by rw [ht]; rfl) (by rw [hu, hk]; rfl)

/-- C33: while something is queued, an idle thread can take it as soon as the mutex is free. -/
theorem C33_progress (s : Sys) (t : Nat) (ht : t < s.threads) (hi : s.pc t = .idle) (hq : queueFree s = true) (hn : s.front ≠ [] ∨ s.back ≠ []) :
    ∃ s', step s (.pop t) = some s' ∧ s'.front.length + s'.back.length + 1 = s.front.length + s.back.length := by
  have hc : t < s.threads ∧ s.pc t = .idle ∧ queueFree s = true ∧ ¬ (s.front = [] ∧ s.back = []) := ⟨ht, hi, hq, fun h => by rcases hn with h' | h' <;> simp_all⟩
  have hne : (swap s).front ≠ [] := by
    unfold swap
    split
    · rename_i hf; rcases hn with h' | h'
      · exact absurd hf h'
      · exact h'
    · assumption
  have hlen : (swap s).front.length + (swap s).back.length = s.front.length + s.back.length := by
    have := congrArg List.length (swap_same s).2.2.2.2.2
    simpa using this
  have hgl := List.getLast?_eq_some_getLast hne
  have hl : ∃ s', take (swap s) t = some s' ∧ s'.front = (swap s).front.dropLast ∧ s'.back = (swap s).back := by
    simp only [take, hgl]
    split
    · exact ⟨_, rfl, rfl, rfl⟩
    · exact ⟨_, rfl, rfl, rfl⟩
  obtain ⟨s', h1, h2, h3⟩ := hl
  refine ⟨s', by simp only [step]; rw [if_pos hc]; exact h1, ?_⟩
  rw [h2, h3, List.length_dropLast]
  have : (swap s).front.length ≠ 0 := by simpa using hne
  omega

theorem task_run_reachable (acts : List Act) : ∀ {s s' : Sys}, Reachable s → run s acts = some s' → Reachable s' := by
  induction acts with
  | nil => intro s s' h hr; cases hr; exact h
  | cons a as ih =>
    intro s s' h hr
    simp only [run, Option.bind_eq_some_iff] at hr
    obtain ⟨m, hm, hr⟩ := hr
    exact ih (h.step a hm) hr

/-- Three tasks in two batches, of which one is abandoned, and one is launched by another. -/
example : ∃ s, run { threads := 2 } [.launch 5, .launch 6, .launch 7, .abandon 6, .pop 0, .enter 0, .pop 1, .call 0 8, .push 0, .pop 1, .enter 1, .leave 0, .pop 0, .enter 0, .leave 0, .leave 1] = some s ∧
    beganIds s.trace = [3, 0, 2] ∧ skippedIds s.trace = [1] ∧ poppedBatches s.trace = [1, 0, 0, 0] ∧ s.front = [] ∧ s.back = [] ∧ ∀ t e, s.pc t ≠ .waiting e := by
  refine ⟨_, rfl, rfl, rfl, rfl, rfl, rfl, ?_⟩
  intro t e
  by_cases h0 : t = 0
  · subst h0; exact nofun
  · by_cases h1 : t = 1
    · subst h1; exact nofun
    · simp [Sys.go, push, swap, h0, h1]

/-- Within a batch, the order is last in, first out. -/
theorem C33_last_in_first_out : ∃ s, run { threads := 1 } [.launch 5, .launch 6, .pop 0, .enter 0, .leave 0, .pop 0, .enter 0, .leave 0] = some s ∧
    s.trace = [.ended 0 5, .began 0 5, .popped 0 5 0, .ended 1 6, .began 1 6, .popped 1 6 0, .launched 1 6 0, .launched 0 5 0] := ⟨_, rfl, rfl⟩

/-- If a task is launched a second time while it is being executed, another thread takes it out of the queue and waits for the task's mutex while it
holds the mutex of the queue.  If the task then launches another one, neither thread can ever go on, nor can any thread launch a task. -/
theorem C33_deadlock : ∃ s, run { threads := 2 } [.launch 5, .launch 5, .pop 0, .enter 0, .pop 1, .call 0 6] = some s ∧
    ∀ a s', step s a = some s' → ∃ k, a = .abandon k := by
  refine ⟨_, rfl, ?_⟩
  intro a s' h
  have split2 : ∀ t, t < 2 → t = 0 ∨ t = 1 := fun t ht => by omega
  cases a with
  | abandon k => exact ⟨k, rfl⟩
  | launch k => exact nomatch h
  | call t k =>
    rcases Nat.lt_or_ge t 2 with ht | ht
    · rcases split2 t ht with rfl | rfl <;> exact nomatch h
    · have : ¬ t < 2 := by omega
      simp [step, push, swap, Sys.go, this] at h
  | pop t | enter t | push t | leave t =>
    rcases Nat.lt_or_ge t 2 with ht | ht
    · rcases split2 t ht with rfl | rfl <;> exact nomatch h
    · have : ¬ t < 2 := by omega
      simp [step, push, swap, Sys.go, this] at h

end Verif.Props
