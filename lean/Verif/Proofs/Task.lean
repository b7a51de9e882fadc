import Verif.Spec.Task
namespace Verif.Task

@[simp] theorem go_front (s : Sys) (t p) : (s.go t p).front = s.front := rfl
@[simp] theorem go_back (s : Sys) (t p) : (s.go t p).back = s.back := rfl
@[simp] theorem go_trace (s : Sys) (t p) : (s.go t p).trace = s.trace := rfl
@[simp] theorem go_ids (s : Sys) (t p) : (s.go t p).ids = s.ids := rfl
@[simp] theorem go_batch (s : Sys) (t p) : (s.go t p).batch = s.batch := rfl
@[simp] theorem go_dead (s : Sys) (t p) : (s.go t p).dead = s.dead := rfl
@[simp] theorem go_threads (s : Sys) (t p) : (s.go t p).threads = s.threads := rfl
@[simp] theorem go_pc (s : Sys) (t p u) : (s.go t p).pc u = if u = t then p else s.pc u := rfl

/-- The possible outcomes of a step. -/
theorem step_cases {s a s'} (h : step s a = some s') :
    (∃ k, queueFree s = true ∧ s' = push s k) ∨
    (∃ k, s' = { s with dead := k :: s.dead, trace := .abandoned k :: s.trace }) ∨
    (∃ t, t < s.threads ∧ s.pc t = .idle ∧ queueFree s = true ∧ take (swap s) t = some s') ∨
    (∃ t e, t < s.threads ∧ s.pc t = .waiting e ∧ taskFree s t e.task = true ∧ s' = { s.go t (.running e) with trace := .began e.id e.task :: s.trace }) ∨
    (∃ t e k, t < s.threads ∧ s.pc t = .running e ∧ s' = s.go t (.launching e k)) ∨
    (∃ t e k, t < s.threads ∧ s.pc t = .launching e k ∧ queueFree s = true ∧ s' = (push s k).go t (.running e)) ∨
    (∃ t e, t < s.threads ∧ s.pc t = .running e ∧ s' = { s.go t .idle with trace := .ended e.id e.task :: s.trace }) := by
  cases a with
  | launch k =>
    simp only [step] at h
    split at h
    · exact .inl ⟨k, by assumption, (Option.some.inj h).symm⟩
    · exact nomatch h
  | abandon k => exact .inr (.inl ⟨k, (Option.some.inj h).symm⟩)
  | pop t =>
    simp only [step] at h
    split at h
    · rename_i hc
      exact .inr (.inr (.inl ⟨t, hc.1, hc.2.1, hc.2.2.1, h⟩))
    · exact nomatch h
  | enter t =>
    simp only [step] at h
    split at h
    · split at h
      · split at h
        · exact .inr (.inr (.inr (.inl ⟨t, _, by assumption, by assumption, by assumption, (Option.some.inj h).symm⟩)))
        · exact nomatch h
      · exact nomatch h
    · exact nomatch h
  | call t k =>
    simp only [step] at h
    split at h
    · split at h
      · exact .inr (.inr (.inr (.inr (.inl ⟨t, _, k, by assumption, by assumption, (Option.some.inj h).symm⟩))))
      · exact nomatch h
    · exact nomatch h
  | push t =>
    simp only [step] at h
    split at h
    · split at h
      · split at h
        · exact .inr (.inr (.inr (.inr (.inr (.inl ⟨t, _, _, by assumption, by assumption, by assumption, (Option.some.inj h).symm⟩)))))
        · exact nomatch h
      · exact nomatch h
    · exact nomatch h
  | leave t =>
    simp only [step] at h
    split at h
    · split at h
      · exact .inr (.inr (.inr (.inr (.inr (.inr ⟨t, _, by assumption, by assumption, (Option.some.inj h).symm⟩)))))
      · exact nomatch h
    · exact nomatch h

theorem take_cases {s t s'} (h : take s t = some s') : ∃ l e, s.front = l ++ [e] ∧
    ((e.task ∈ s.dead ∧ s' = { s with front := l, trace := .skipped e.id e.task :: .popped e.id e.task e.batch :: s.trace }) ∨
     (e.task ∉ s.dead ∧ s' = { s with front := l, trace := .popped e.id e.task e.batch :: s.trace }.go t (.waiting e))) := by
  simp only [take] at h
  split at h
  · exact nomatch h
  · rename_i e he
    have hf : s.front = s.front.dropLast ++ [e] := by
      obtain ⟨l, hl⟩ := List.getLast?_eq_some_iff.1 he
      rw [hl]; simp
    refine ⟨_, e, hf, ?_⟩
    split at h
    · rename_i hd
      exact .inl ⟨hd, (Option.some.inj h).symm⟩
    · rename_i hd
      exact .inr ⟨hd, (Option.some.inj h).symm⟩

theorem swap_same (s : Sys) : (swap s).trace = s.trace ∧ (swap s).pc = s.pc ∧ (swap s).dead = s.dead ∧ (swap s).ids = s.ids ∧ (swap s).threads = s.threads ∧
    (swap s).front ++ (swap s).back = s.front ++ s.back := by
  unfold swap
  split
  · rename_i h; simp [h]
  · simp

theorem advance_threads {s a s'} (h : step s a = some s') : s'.threads = s.threads := by
  rcases step_cases h with ⟨k, -, rfl⟩ | ⟨k, rfl⟩ | ⟨t, -, -, -, ht⟩ | ⟨t, e, -, -, -, rfl⟩ | ⟨t, e, k, -, -, rfl⟩ | ⟨t, e, k, -, -, -, rfl⟩ | ⟨t, e, -, -, rfl⟩ <;> try rfl
  obtain ⟨l, e, -, ⟨-, rfl⟩ | ⟨-, rfl⟩⟩ := take_cases ht <;> exact (swap_same s).2.2.2.2.1

def entryIds (s : Sys) : List Nat := (s.front ++ s.back).map Entry.id

theorem perm {s} (h : Reachable s) : List.Perm (entryIds s ++ poppedIds s.trace) (List.range s.ids) := by
  induction h with
  | init => exact .refl _
  | @step s s' a hr hs ih =>
    have hpush : ∀ k, List.Perm (entryIds (push s k) ++ poppedIds (push s k).trace) (List.range (push s k).ids) := by
      intro k
      show List.Perm ((s.front ++ (s.back ++ [_])).map Entry.id ++ poppedIds s.trace) (List.range (s.ids + 1))
      rw [List.range_succ, ← List.append_assoc, List.map_append]
      show List.Perm (entryIds s ++ [s.ids] ++ poppedIds s.trace) _
      refine List.Perm.trans ?_ (ih.append_right _)
      rw [List.append_assoc, List.append_assoc]
      exact (List.perm_append_comm).append_left _
    rcases step_cases hs with ⟨k, -, rfl⟩ | ⟨k, rfl⟩ | ⟨t, -, -, -, ht⟩ | ⟨t, e, -, -, -, rfl⟩ | ⟨t, e, k, -, -, rfl⟩ | ⟨t, e, k, -, -, -, rfl⟩ | ⟨t, e, -, -, rfl⟩
    · exact hpush k
    · exact ih
    · obtain ⟨h1, -, -, h4, -, h6⟩ := swap_same s
      have key : ∀ l e, (swap s).front = l ++ [e] → List.Perm ((l ++ (swap s).back).map Entry.id ++ e.id :: poppedIds s.trace) (List.range s.ids) := by
        intro l e hl
        refine List.Perm.trans ?_ ih
        unfold entryIds
        rw [← h6, hl]
        simp only [List.map_append, List.map_cons, List.map_nil, List.append_assoc]
        refine List.Perm.append_left _ ?_
        rw [← List.append_assoc [e.id], ← List.singleton_append, ← List.append_assoc]
        exact (List.perm_append_comm).append_right _
      obtain ⟨l, e, hl, ⟨-, rfl⟩ | ⟨-, rfl⟩⟩ := take_cases ht
      · show List.Perm ((l ++ (swap s).back).map Entry.id ++ e.id :: poppedIds (swap s).trace) (List.range (swap s).ids)
        rw [h1, h4]; exact key l e hl
      · show List.Perm ((l ++ (swap s).back).map Entry.id ++ e.id :: poppedIds (swap s).trace) (List.range (swap s).ids)
        rw [h1, h4]; exact key l e hl
    · exact ih
    · exact ih
    · exact hpush k
    · exact ih

theorem popped_nodup {s} (h : Reachable s) : (poppedIds s.trace).Nodup := by
  have := (perm h).nodup_iff.2 List.nodup_range
  exact (List.nodup_append.1 this).2.1

/-- The ids of elements that have been skipped or begun, in order. -/
def outcomes (tr : List Ev) : List Nat := tr.filterMap fun | .began id _ => some id | .skipped id _ => some id | _ => none

structure Excl (s : Sys) : Prop where
  bound : ∀ t, t ≥ s.threads → s.pc t = .idle
  one : ∀ t u, (s.pc t).holdsQueue = true → (s.pc u).holdsQueue = true → t = u
  wait : ∀ t e, s.pc t = .waiting e → poppedIds s.trace = e.id :: outcomes s.trace
  none : (∀ t, (s.pc t).holdsQueue = false) → poppedIds s.trace = outcomes s.trace
  task : ∀ t u k, (s.pc t).task = some k → (s.pc u).task = some k → t = u

theorem free_all {s} (hb : ∀ t, t ≥ s.threads → s.pc t = .idle) (h : queueFree s = true) : ∀ t, (s.pc t).holdsQueue = false := by
  intro t
  rcases Nat.lt_or_ge t s.threads with ht | ht
  · have := List.all_eq_true.1 h t (List.mem_range.2 ht)
    simpa using this
  · rw [hb t ht]; rfl

theorem Excl.localize {s s' : Sys} {t : Nat} {p : Pc} (h : Excl s) (hlt : t < s.threads) (hpc : ∀ {u}, s'.pc u = if u = t then p else s.pc u)
    (h1 : (s.pc t).holdsQueue = false) (h2 : p.holdsQueue = false) (h3 : p.task = Option.none ∨ p.task = (s.pc t).task)
    (e1 : poppedIds s'.trace = poppedIds s.trace) (e2 : outcomes s'.trace = outcomes s.trace) (e3 : s'.threads = s.threads) : Excl s' := by
  have hq : ∀ u, (s'.pc u).holdsQueue = (s.pc u).holdsQueue := by
    intro u
    rw [hpc]
    split
    · rename_i h; rw [h, h1, h2]
    · rfl
  have ht : ∀ u k, (s'.pc u).task = some k → (s.pc u).task = some k := by
    intro u k
    rw [hpc]
    split
    · rename_i h
      rcases h3 with h3 | h3
      · rw [h3]; exact nofun
      · rw [h3, h]; exact id
    · exact id
  refine ⟨fun u hu => ?_, fun u v hu hv => ?_, fun u e hu => ?_, fun hn => ?_, fun u v k hu hv => h.task u v k (ht u k hu) (ht v k hv)⟩
  · rw [e3] at hu; rw [hpc, if_neg (by omega)]; exact h.bound u hu
  · rw [hq] at hu hv; exact h.one u v hu hv
  · rw [e1, e2]
    rw [hpc] at hu
    split at hu
    · rw [hu] at h2; exact nomatch h2
    · exact h.wait u e hu
  · rw [e1, e2]; exact h.none fun u => by rw [← hq]; exact hn u

theorem excl {s} (h : Reachable s) : Excl s := by
  induction h with
  | init n => exact ⟨fun _ _ => rfl, nofun, nofun, fun _ => rfl, nofun⟩
  | @step s s' a hr hs ih =>
    have lt_of : ∀ t, s.pc t ≠ .idle → t < s.threads := fun t ht => Nat.lt_of_not_le fun hge => ht (ih.bound t hge)
    rcases step_cases hs with ⟨k, hq, rfl⟩ | ⟨k, rfl⟩ | ⟨t, hlt, hidle, hq, ht⟩ | ⟨t, e, hlt, hpc, htf, rfl⟩ | ⟨t, e, k, hlt, hpc, rfl⟩ | ⟨t, e, k, hlt, hpc, hq, rfl⟩ | ⟨t, e, hlt, hpc, rfl⟩
    · exact ⟨ih.bound, ih.one, ih.wait, ih.none, ih.task⟩
    · exact ⟨ih.bound, ih.one, ih.wait, ih.none, ih.task⟩
    · have hfree := free_all ih.bound hq
      obtain ⟨h1, h2, -, -, h5, -⟩ := swap_same s
      obtain ⟨l, e, -, ⟨-, rfl⟩ | ⟨-, rfl⟩⟩ := take_cases ht
      · refine ⟨?_, ?_, ?_, ?_, ?_⟩
        · show ∀ t, t ≥ (swap s).threads → (swap s).pc t = _; rw [h2, h5]; exact ih.bound
        · show ∀ t u, ((swap s).pc t).holdsQueue = _ → ((swap s).pc u).holdsQueue = _ → _; rw [h2]; exact ih.one
        · intro u e' hu
          have hu : (swap s).pc u = .waiting e' := hu
          rw [h2] at hu
          have := hfree u; rw [hu] at this; exact nomatch this
        · intro _
          show e.id :: poppedIds (swap s).trace = e.id :: outcomes (swap s).trace
          rw [h1, ih.none hfree]
        · show ∀ t u k, ((swap s).pc t).task = _ → ((swap s).pc u).task = _ → _; rw [h2]; exact ih.task
      · refine ⟨?_, ?_, ?_, ?_, ?_⟩
        · intro u hu
          have hu : u ≥ s.threads := by rw [← h5]; exact hu
          show (if u = t then _ else (swap s).pc u) = _
          rw [if_neg (by omega), h2]; exact ih.bound u hu
        · have key : ∀ u, (if u = t then Pc.waiting e else (swap s).pc u).holdsQueue = true → u = t := by
            intro u hu
            split at hu
            · assumption
            · rw [h2, hfree u] at hu; exact nomatch hu
          intro u v hu hv
          rw [key u hu, key v hv]
        · intro u e' hu
          have hu : (if u = t then Pc.waiting e else (swap s).pc u) = .waiting e' := hu
          split at hu
          · cases hu
            show e.id :: poppedIds (swap s).trace = e.id :: outcomes (swap s).trace
            rw [h1, ih.none hfree]
          · rw [h2] at hu
            have := hfree u; rw [hu] at this; exact nomatch this
        · intro hn
          have := hn t
          simp [Pc.holdsQueue] at this
        · have key : ∀ u k, (if u = t then Pc.waiting e else (swap s).pc u).task = some k → (s.pc u).task = some k := by
            intro u k hu
            split at hu
            · exact nomatch hu
            · rw [h2] at hu; exact hu
          intro u v k hu hv
          exact ih.task u v k (key u k hu) (key v k hv)
    · have hu := ih.wait t e hpc
      have only : ∀ u, u ≠ t → (s.pc u).holdsQueue = false := by
        intro u hut
        cases hh : (s.pc u).holdsQueue with
        | false => rfl
        | true => exact absurd (ih.one u t hh (by rw [hpc]; rfl)) hut
      refine ⟨?_, ?_, ?_, ?_, ?_⟩
      · intro u hge
        show (if u = t then _ else s.pc u) = _
        have hge : u ≥ s.threads := hge
        rw [if_neg (by omega)]; exact ih.bound u hge
      · have key : ∀ u, (if u = t then Pc.running e else s.pc u).holdsQueue = false := by
          intro u
          split
          · rfl
          · exact only u (by assumption)
        intro u v h1
        have h1 : (if u = t then Pc.running e else s.pc u).holdsQueue = true := h1
        rw [key u] at h1
        exact nomatch h1
      · intro u e' h1
        have h1 : (if u = t then Pc.running e else s.pc u) = .waiting e' := h1
        split at h1
        · exact nomatch h1
        · have := only u (by assumption); rw [h1] at this; exact nomatch this
      · intro _; exact hu
      · have key : ∀ u, (if u = t then Pc.running e else s.pc u).task = some e.task → u = t := by
          intro u hu
          split at hu
          · assumption
          · rename_i hne
            rcases Nat.lt_or_ge u s.threads with hl | hl
            · have := List.all_eq_true.1 htf u (List.mem_range.2 hl)
              simp [hne, hu] at this
            · rw [ih.bound u hl] at hu; exact nomatch hu
        intro u v k h1 h2
        have h1 : (if u = t then Pc.running e else s.pc u).task = some k := h1
        have h2 : (if v = t then Pc.running e else s.pc v).task = some k := h2
        by_cases hut : u = t
        · have hk : e.task = k := by rw [if_pos hut] at h1; exact Option.some.inj h1
          rw [hut, key v (by rw [hk]; exact h2)]
        · by_cases hvt : v = t
          · have hk : e.task = k := by rw [if_pos hvt] at h2; exact Option.some.inj h2
            rw [hvt, key u (by rw [hk]; exact h1)]
          · rw [if_neg hut] at h1; rw [if_neg hvt] at h2; exact ih.task u v k h1 h2
    · exact ih.localize hlt rfl (by rw [hpc]; rfl) rfl (.inr (by rw [hpc]; rfl)) rfl rfl rfl
    · exact ih.localize hlt rfl (by rw [hpc]; rfl) rfl (.inr (by rw [hpc]; rfl)) rfl rfl rfl
    · exact ih.localize hlt rfl (by rw [hpc]; rfl) rfl (.inl rfl) rfl rfl rfl

/-! ### Batches -/

structure Batches (s : Sys) : Prop where
  front : ∀ e ∈ s.front, e.batch + 1 = s.batch
  back : ∀ e ∈ s.back, e.batch = s.batch
  popped : ∀ b ∈ poppedBatches s.trace, b + 1 ≤ s.batch
  sorted : (poppedBatches s.trace).Pairwise fun a b => b ≤ a

theorem Batches.swap {s} (h : Batches s) : Batches (swap s) := by
  unfold Task.swap
  split
  · refine ⟨fun e he => ?_, nofun, fun b hb => Nat.le_succ_of_le (h.popped b hb), h.sorted⟩
    rw [h.back e he]
  · exact h

theorem batches {s} (h : Reachable s) : Batches s := by
  induction h with
  | init => exact ⟨nofun, nofun, nofun, .nil⟩
  | @step s s' a hr hs ih =>
    have hpush : ∀ k, Batches (push s k) := by
      intro k
      refine ⟨ih.front, fun e he => ?_, ih.popped, ih.sorted⟩
      rcases List.mem_append.1 he with he | he
      · exact ih.back e he
      · simp only [List.mem_singleton] at he; subst he; rfl
    rcases step_cases hs with ⟨k, -, rfl⟩ | ⟨k, rfl⟩ | ⟨t, -, -, -, ht⟩ | ⟨t, e, -, -, -, rfl⟩ | ⟨t, e, k, -, -, rfl⟩ | ⟨t, e, k, -, -, -, rfl⟩ | ⟨t, e, -, -, rfl⟩
    · exact hpush k
    · exact ⟨ih.front, ih.back, ih.popped, ih.sorted⟩
    · have hw := ih.swap
      have key : ∀ l e, (swap s).front = l ++ [e] → (∀ x ∈ l, x.batch + 1 = (swap s).batch) ∧ (∀ b ∈ e.batch :: poppedBatches (swap s).trace, b + 1 ≤ (swap s).batch) ∧
          (e.batch :: poppedBatches (swap s).trace).Pairwise fun a b => b ≤ a := by
        intro l e hl
        have he := hw.front e (by rw [hl]; simp)
        refine ⟨fun x hx => hw.front x (by rw [hl]; simp [hx]), fun b hb => ?_, List.pairwise_cons.2 ⟨fun b hb => ?_, hw.sorted⟩⟩
        · rcases List.mem_cons.1 hb with rfl | hb
          · omega
          · exact hw.popped b hb
        · have := hw.popped b hb; omega
      obtain ⟨l, e, hl, ⟨-, rfl⟩ | ⟨-, rfl⟩⟩ := take_cases ht
      · obtain ⟨k1, k2, k3⟩ := key l e hl
        exact ⟨k1, hw.back, k2, k3⟩
      · obtain ⟨k1, k2, k3⟩ := key l e hl
        exact ⟨k1, hw.back, k2, k3⟩
    · exact ⟨ih.front, ih.back, ih.popped, ih.sorted⟩
    · exact ⟨ih.front, ih.back, ih.popped, ih.sorted⟩
    · exact ⟨(hpush k).front, (hpush k).back, (hpush k).popped, (hpush k).sorted⟩
    · exact ⟨ih.front, ih.back, ih.popped, ih.sorted⟩

/-! ### Elements and their launches; abandoned tasks -/

structure Origin (s : Sys) : Prop where
  queue : ∀ e ∈ s.front ++ s.back, Ev.launched e.id e.task e.batch ∈ s.trace
  wait : ∀ t e, s.pc t = .waiting e → Ev.popped e.id e.task e.batch ∈ s.trace
  popped : ∀ id task b, Ev.popped id task b ∈ s.trace → Ev.launched id task b ∈ s.trace
  launched : ∀ id task b, Ev.launched id task b ∈ s.trace → id < s.ids
  began : ∀ id task, Ev.began id task ∈ s.trace → ∃ b, Ev.popped id task b ∈ s.trace
  skipped : ∀ id task, Ev.skipped id task ∈ s.trace → ∃ b, Ev.popped id task b ∈ s.trace
  dead : ∀ task, task ∈ s.dead ↔ Ev.abandoned task ∈ s.trace
  /-- when a task is taken after it has been abandoned, it is skipped at once -/
  after : ∀ a b id task n, s.trace = a ++ .popped id task n :: b → Ev.abandoned task ∈ b → Ev.skipped id task ∈ a
  /-- only then -/
  only : ∀ a b id task, s.trace = a ++ .skipped id task :: b → Ev.abandoned task ∈ b

theorem origin {s} (h : Reachable s) : Origin s := by
  induction h with
  | init => exact ⟨nofun, nofun, nofun, nofun, nofun, nofun, by simp, fun a b _ _ _ h => by simp at h, fun a b _ _ h => by simp at h⟩
  | @step s s' a hr hs ih =>
    have after1 : ∀ x : Ev, (∀ id task n, x ≠ .popped id task n) → ∀ a b id task n, x :: s.trace = a ++ .popped id task n :: b → Ev.abandoned task ∈ b → Ev.skipped id task ∈ a := by
      intro x hx a b id task n heq hb
      cases a with
      | nil => exact absurd (List.cons.inj heq).1 (hx id task n)
      | cons y a => exact List.mem_cons_of_mem _ (ih.after a b id task n (List.cons.inj heq).2 hb)
    have only1 : ∀ x : Ev, (∀ id task, x ≠ .skipped id task) → ∀ a b id task, x :: s.trace = a ++ .skipped id task :: b → Ev.abandoned task ∈ b := by
      intro x hx a b id task heq
      cases a with
      | nil => exact absurd (List.cons.inj heq).1 (hx id task)
      | cons y a => exact ih.only a b id task (List.cons.inj heq).2
    have wk : ∀ x : Ev, ∀ id task, (∃ b, Ev.popped id task b ∈ s.trace) → ∃ b, Ev.popped id task b ∈ x :: s.trace := fun x id task ⟨b, h⟩ => ⟨b, List.mem_cons_of_mem _ h⟩
    have hpush : ∀ k, Origin (push s k) := by
      intro k
      refine ⟨?_, fun t e h => List.mem_cons_of_mem _ (ih.wait t e h), ?_, ?_, ?_, ?_, ?_, after1 _ (by simp), only1 _ (by simp)⟩
      · intro e he
        have he : e ∈ s.front ++ (s.back ++ [_]) := he
        rw [← List.append_assoc] at he
        rcases List.mem_append.1 he with he | he
        · exact List.mem_cons_of_mem _ (ih.queue e he)
        · simp only [List.mem_singleton] at he; subst he; exact List.mem_cons_self ..
      · intro id task b hm; exact List.mem_cons_of_mem _ (ih.popped id task b (by simpa [push] using hm))
      · intro id task b hm
        rcases List.mem_cons.1 hm with hm | hm
        · cases hm; exact Nat.lt_succ_self _
        · exact Nat.lt_succ_of_lt (ih.launched id task b hm)
      · intro id task hm; exact wk _ id task (ih.began id task (by simpa [push] using hm))
      · intro id task hm; exact wk _ id task (ih.skipped id task (by simpa [push] using hm))
      · intro task; rw [show (push s k).dead = s.dead from rfl, ih.dead]; simp [push]
    rcases step_cases hs with ⟨k, -, rfl⟩ | ⟨k, rfl⟩ | ⟨t, -, -, -, ht⟩ | ⟨t, e, -, hpc, -, rfl⟩ | ⟨t, e, k, -, hpc, rfl⟩ | ⟨t, e, k, -, hpc, -, rfl⟩ | ⟨t, e, -, hpc, rfl⟩
    · exact hpush k
    · refine ⟨fun e he => List.mem_cons_of_mem _ (ih.queue e he), fun t e h => List.mem_cons_of_mem _ (ih.wait t e h), ?_, ?_, ?_, ?_, ?_, after1 _ (by simp), only1 _ (by simp)⟩
      · intro id task b hm; exact List.mem_cons_of_mem _ (ih.popped id task b (by simpa using hm))
      · intro id task b hm; exact ih.launched id task b (by simpa using hm)
      · intro id task hm; exact wk _ id task (ih.began id task (by simpa using hm))
      · intro id task hm; exact wk _ id task (ih.skipped id task (by simpa using hm))
      · intro task; simp [ih.dead]
    · obtain ⟨h1, h2, h3, h4, -, h6⟩ := swap_same s
      obtain ⟨l, e, hl, ⟨hd, rfl⟩ | ⟨hd, rfl⟩⟩ := take_cases ht
      · have hlaunch : Ev.launched e.id e.task e.batch ∈ s.trace := ih.queue e (by rw [← h6, hl]; simp)
        rw [h3] at hd
        simp only [h1]
        refine ⟨?_, ?_, ?_, ?_, ?_, ?_, ?_, ?_, ?_⟩
        · intro x hx
          have hx : x ∈ l ++ (swap s).back := hx
          exact List.mem_cons_of_mem _ (List.mem_cons_of_mem _ (ih.queue x (by rw [← h6, hl]; simp at hx ⊢; rcases hx with h | h <;> simp [h])))
        · intro u x hx
          simp only [h2] at hx
          exact List.mem_cons_of_mem _ (List.mem_cons_of_mem _ (ih.wait u x hx))
        · intro id task b hm
          simp only [List.mem_cons, reduceCtorEq, false_or] at hm
          refine List.mem_cons_of_mem _ (List.mem_cons_of_mem _ ?_)
          rcases hm with hm | hm
          · cases hm; exact hlaunch
          · exact ih.popped id task b hm
        · intro id task b hm; rw [h4]; exact ih.launched id task b (by simpa using hm)
        · intro id task hm
          obtain ⟨b, hb⟩ := ih.began id task (by simpa using hm)
          exact ⟨b, List.mem_cons_of_mem _ (List.mem_cons_of_mem _ hb)⟩
        · intro id task hm
          rcases List.mem_cons.1 hm with hm | hm
          · cases hm; exact ⟨_, List.mem_cons_of_mem _ (List.mem_cons_self ..)⟩
          · obtain ⟨b, hb⟩ := ih.skipped id task (by simpa using hm)
            exact ⟨b, List.mem_cons_of_mem _ (List.mem_cons_of_mem _ hb)⟩
        · intro task; rw [h3, ih.dead]; simp
        · intro a b id task n heq hb
          match a with
          | [] => exact nomatch (List.cons.inj heq).1
          | [y] =>
            obtain ⟨g1, g2⟩ := List.cons.inj heq
            obtain ⟨g3, g4⟩ := List.cons.inj g2
            cases g3
            rw [← g1]; simp
          | y :: z :: a =>
            obtain ⟨g1, g2⟩ := List.cons.inj heq
            obtain ⟨g3, g4⟩ := List.cons.inj g2
            exact List.mem_cons_of_mem _ (List.mem_cons_of_mem _ (ih.after a b id task n g4 hb))
        · intro a b id task heq
          match a with
          | [] =>
            obtain ⟨g1, g2⟩ := List.cons.inj heq
            cases g1
            rw [← g2]
            exact List.mem_cons_of_mem _ ((ih.dead _).1 hd)
          | [y] =>
            obtain ⟨g1, g2⟩ := List.cons.inj heq
            exact nomatch (List.cons.inj g2).1
          | y :: z :: a =>
            obtain ⟨g1, g2⟩ := List.cons.inj heq
            obtain ⟨g3, g4⟩ := List.cons.inj g2
            exact ih.only a b id task g4
      · have hlaunch : Ev.launched e.id e.task e.batch ∈ s.trace := ih.queue e (by rw [← h6, hl]; simp)
        rw [h3] at hd
        refine ⟨?_, ?_, ?_, ?_, ?_, ?_, ?_, ?_, ?_⟩ <;> simp only [go_trace, go_dead, go_ids, h1]
        · intro x hx
          have hx : x ∈ l ++ (swap s).back := hx
          exact List.mem_cons_of_mem _ (ih.queue x (by rw [← h6, hl]; simp at hx ⊢; rcases hx with h | h <;> simp [h]))
        · intro u x hx
          simp only [go_pc, h2] at hx
          split at hx
          · cases hx; exact List.mem_cons_self ..
          · exact List.mem_cons_of_mem _ (ih.wait u x hx)
        · intro id task b hm
          refine List.mem_cons_of_mem _ ?_
          rcases List.mem_cons.1 hm with hm | hm
          · cases hm; exact hlaunch
          · exact ih.popped id task b hm
        · intro id task b hm; rw [h4]; exact ih.launched id task b (by simpa using hm)
        · intro id task hm; exact wk _ id task (ih.began id task (by simpa using hm))
        · intro id task hm; exact wk _ id task (ih.skipped id task (by simpa using hm))
        · intro task; rw [h3, ih.dead]; simp
        · intro a b id task n heq hb
          cases a with
          | nil =>
            obtain ⟨g1, g2⟩ := List.cons.inj heq
            cases g1
            rw [← g2] at hb
            exact absurd ((ih.dead _).2 hb) hd
          | cons y a => exact List.mem_cons_of_mem _ (ih.after a b id task n (List.cons.inj heq).2 hb)
        · exact only1 _ (by simp)
    · refine ⟨fun e he => List.mem_cons_of_mem _ (ih.queue e he), fun u x h => ?_, ?_, ?_, ?_, ?_, ?_, after1 _ (by simp), only1 _ (by simp)⟩
      · have h : (if u = t then Pc.running e else s.pc u) = .waiting x := h
        split at h
        · exact nomatch h
        · exact List.mem_cons_of_mem _ (ih.wait u x h)
      · intro id task b hm; exact List.mem_cons_of_mem _ (ih.popped id task b (by simpa using hm))
      · intro id task b hm; exact ih.launched id task b (by simpa using hm)
      · intro id task hm
        rcases List.mem_cons.1 hm with hm | hm
        · cases hm; exact ⟨_, List.mem_cons_of_mem _ (ih.wait t e hpc)⟩
        · exact wk _ id task (ih.began id task hm)
      · intro id task hm; exact wk _ id task (ih.skipped id task (by simpa using hm))
      · intro task; simp [ih.dead]
    · refine ⟨ih.queue, fun u x h => ?_, ih.popped, ih.launched, ih.began, ih.skipped, ih.dead, ih.after, ih.only⟩
      simp only [go_pc] at h
      split at h
      · exact nomatch h
      · exact ih.wait u x h
    · have hp := hpush k
      refine ⟨hp.queue, fun u x h => ?_, hp.popped, hp.launched, hp.began, hp.skipped, hp.dead, hp.after, hp.only⟩
      simp only [go_pc] at h
      split at h
      · exact nomatch h
      · exact hp.wait u x h
    · refine ⟨fun e he => List.mem_cons_of_mem _ (ih.queue e he), fun u x h => ?_, ?_, ?_, ?_, ?_, ?_, after1 _ (by simp), only1 _ (by simp)⟩
      · have h : (if u = t then Pc.idle else s.pc u) = .waiting x := h
        split at h
        · exact nomatch h
        · exact List.mem_cons_of_mem _ (ih.wait u x h)
      · intro id task b hm; exact List.mem_cons_of_mem _ (ih.popped id task b (by simpa using hm))
      · intro id task b hm; exact ih.launched id task b (by simpa using hm)
      · intro id task hm; exact wk _ id task (ih.began id task (by simpa using hm))
      · intro id task hm; exact wk _ id task (ih.skipped id task (by simpa using hm))
      · intro task; simp [ih.dead]

end Verif.Task
