import Verif.Proofs.Logger
/-!
# C51: the logger
-/
namespace Verif.Props
open Verif.Logger

theorem logger_run_reachable (acts : List Act) : ∀ {s s' : Sys}, Reachable s → run s acts = some s' → Reachable s' := by
  induction acts with
  | nil => intro s s' hr h; cases h; exact hr
  | cons a acts ih =>
    intro s s' hr h
    simp only [run] at h
    cases hs : step s a with
    | none => rw [hs] at h; exact nomatch h
    | some s1 => rw [hs] at h; exact ih (.step a hr hs) h

/-- C51: whatever threads do at the same time, messages are written or ignored in the order in which they were enqueued, each at most once and none is
skipped. -/
theorem C51_in_order (s : Sys) (h : Reachable s) : handled s.trace <+: enqueued s.trace ∧ (handled s.trace).Nodup := by
  have hi := inv h
  have hp : handled s.trace <+: enqueued s.trace := by rw [hi.order, List.append_assoc]; exact List.prefix_append _ _
  exact ⟨hp, List.Nodup.sublist hp.sublist hi.nodup⟩

/-- C51: what has been written is in order, too. -/
theorem C51_written_in_order (s : Sys) (h : Reachable s) : (written s.trace).Sublist (enqueued s.trace) ∧ (written s.trace).Nodup := by
  have hi := inv h
  have key : ∀ tr, (written tr).Sublist (handled tr) := by
    intro tr
    induction tr with
    | nil => exact List.Sublist.refl _
    | cons e tr ih =>
      cases e with
      | written id => exact List.Sublist.append ih (List.Sublist.refl _)
      | dropped id l => exact ih.trans (List.sublist_append_left _ _)
      | _ => exact ih
  have hp := (key s.trace).trans (C51_in_order s h).1.sublist
  exact ⟨hp, List.Nodup.sublist hp hi.nodup⟩

/-- C51: a message is ignored only if, in some configuration that was loaded, its level does not exist, or is expendable and more than a thousand
messages have been enqueued. -/
theorem C51_dropped (s : Sys) (h : Reachable s) (id l : Nat) (hd : Ev.dropped id l ∈ s.trace) :
    Ev.enqueued id l ∈ s.trace ∧ ∃ lv, Ev.loaded lv ∈ s.trace ∧ (lv.length ≤ l ∨ (lv[l]? = some true ∧ 1000 < (enqueued s.trace).length)) := by
  refine ⟨(inv h).levelD id l hd, ?_⟩
  obtain ⟨lv, h1, h2⟩ := (inv h).dropped id l hd
  exact ⟨lv, h1, h2.imp (fun h => List.getElem?_eq_none_iff.1 h) fun h => h⟩

theorem mem_handled (id : Nat) : ∀ tr : List Ev, id ∈ handled tr → Ev.written id ∈ tr ∨ ∃ l, Ev.dropped id l ∈ tr := by
  intro tr
  induction tr with
  | nil => exact fun h => nomatch h
  | cons e tr ih =>
    have lift : (Ev.written id ∈ tr ∨ ∃ l, Ev.dropped id l ∈ tr) → (Ev.written id ∈ e :: tr ∨ ∃ l, Ev.dropped id l ∈ e :: tr) :=
      fun h => h.imp (List.mem_cons_of_mem _) fun ⟨l, h⟩ => ⟨l, List.mem_cons_of_mem _ h⟩
    intro h
    cases e with
    | written i =>
      rcases List.mem_append.1 h with h | h
      · exact lift (ih h)
      · cases List.mem_singleton.1 h; exact .inl (List.mem_cons_self ..)
    | dropped i l =>
      rcases List.mem_append.1 h with h | h
      · exact lift (ih h)
      · cases List.mem_singleton.1 h; exact .inr ⟨l, List.mem_cons_self ..⟩
    | _ => exact lift (ih h)

theorem enqueued_level (s : Sys) (h : Reachable s) : ∀ id l l', Ev.enqueued id l ∈ s.trace → Ev.enqueued id l' ∈ s.trace → l = l' := by
  have hn := (inv h).nodup
  have mem : ∀ (tr : List Ev) id l, Ev.enqueued id l ∈ tr → id ∈ enqueued tr := by
    intro tr
    induction tr with
    | nil => intro _ _ h; exact nomatch h
    | cons e tr ih =>
      intro id l h
      rcases List.mem_cons.1 h with rfl | h
      · simp [enqueued]
      · have := ih id l h
        cases e with
        | enqueued i k => exact List.mem_append_left _ this
        | _ => exact this
  have key : ∀ tr : List Ev, (enqueued tr).Nodup → ∀ id l l', Ev.enqueued id l ∈ tr → Ev.enqueued id l' ∈ tr → l = l' := by
    intro tr
    induction tr with
    | nil => intro _ _ _ _ h; exact nomatch h
    | cons e tr ih =>
      intro hn id l l' h1 h2
      cases e with
      | enqueued i k =>
        obtain ⟨hn1, -, hn2⟩ := List.nodup_append.1 hn
        rcases List.mem_cons.1 h1 with e1 | g1 <;> rcases List.mem_cons.1 h2 with e2 | g2
        · cases e1; cases e2; rfl
        · cases e1; exact absurd rfl (hn2 id (mem tr id l' g2) id (by simp))
        · cases e2; exact absurd rfl (hn2 id (mem tr id l g1) id (by simp))
        · exact ih hn1 id l l' g1 g2
      | _ =>
        rcases List.mem_cons.1 h1 with e1 | h1
        · exact nomatch e1
        · rcases List.mem_cons.1 h2 with e2 | h2
          · exact nomatch e2
          · exact ih hn id l l' h1 h2
  exact key s.trace hn

/-- C51: a message whose level exists and is not expendable in any configuration that was loaded is never dropped: when `synchronize()` returns, every such
message that had been enqueued when it was called has been written. -/
theorem C51_synchronize (s : Sys) (h : Reachable s) (t : Nat) (tr : List Ev) (hr : Ev.returned t :: tr = s.trace) (id l : Nat) (hq : id ∈ before t tr) (hl : Ev.enqueued id l ∈ s.trace)
    (hk : ∀ lv, Ev.loaded lv ∈ s.trace → lv[l]? = some false) : Ev.written id ∈ s.trace := by
  have hok := (inv h).ok
  rw [← hr] at hok
  have hh : id ∈ handled s.trace := by rw [← hr]; exact hok.1 id hq
  rcases mem_handled id s.trace hh with hw | ⟨k, hd⟩
  · exact hw
  · obtain ⟨h1, lv, h2, h3⟩ := C51_dropped s h id k hd
    cases enqueued_level s h id l k hl h1
    have := hk lv h2
    rcases h3 with h3 | h3
    · rw [List.getElem?_eq_none_iff.2 h3] at this; exact nomatch this
    · rw [h3.1] at this; exact nomatch this

/-- C51: a message that will not be written any more, although it was enqueued before one that has been written, is of an expendable or unknown level. -/
theorem C51_not_lost (s : Sys) (h : Reachable s) (pre post : List Nat) (i j l : Nat) (he : enqueued s.trace = pre ++ i :: post) (hj : j ∈ post) (hw : j ∈ handled s.trace) (hl : Ev.enqueued i l ∈ s.trace)
    (hk : ∀ lv, Ev.loaded lv ∈ s.trace → lv[l]? = some false) : Ev.written i ∈ s.trace := by
  obtain ⟨hp, -⟩ := C51_in_order s h
  have hh : i ∈ handled s.trace := by
    obtain ⟨rest, hr⟩ := hp
    rw [he] at hr
    have hnd := (inv h).nodup
    rw [he] at hnd
    rcases List.append_eq_append_iff.1 hr with ⟨a, h1, h2⟩ | ⟨a, h1, h2⟩
    · exfalso
      have hjpre : j ∈ pre := by rw [h1]; exact List.mem_append_left _ hw
      have := (List.nodup_append.1 hnd).2.2 j hjpre j (List.mem_cons_of_mem _ hj)
      exact this rfl
    · cases a with
      | nil =>
        exfalso
        rw [List.append_nil] at h1
        have hjpre : j ∈ pre := by rw [← h1]; exact hw
        exact (List.nodup_append.1 hnd).2.2 j hjpre j (List.mem_cons_of_mem _ hj) rfl
      | cons x a =>
        cases h2
        rw [h1]; simp
  rcases mem_handled i s.trace hh with hw | ⟨k, hd⟩
  · exact hw
  · obtain ⟨h1, lv, h2, h3⟩ := C51_dropped s h i k hd
    cases enqueued_level s h i l k hl h1
    have := hk lv h2
    rcases h3 with h3 | h3
    · rw [List.getElem?_eq_none_iff.2 h3] at this; exact nomatch this
    · rw [h3.1] at this; exact nomatch this

/-- C51: no deadlock: if some thread is inside `synchronize()`, or inside `thread_loop()` with messages in its hands or in the queue, then some thread can
go on. -/
theorem C51_no_deadlock (s : Sys) (h : Reachable s) (t : Nat) (hp : s.pc t ≠ .idle) (hq : s.pc t = .entering .loop → s.queue ≠ []) : ∃ u, (step s (.go u)).isSome = true := by
  have hi := inv h
  have writer : ∀ u, (s.pc u).hasS = true → (step s (.go u)).isSome = true := by
    intro u hu
    simp only [step, go]
    cases hpc : s.pc u with
    | reading m n todo => rfl
    | writing m n lv todo => cases todo <;> rfl
    | _ => rw [hpc] at hu; exact nomatch hu
  cases hsl : s.slock with
  | some u => exact ⟨u, writer u ((hi.slock u).1 hsl)⟩
  | none =>
    cases hql : s.qlock with
    | some u =>
      have hu := (hi.qlock u).1 hql
      refine ⟨u, ?_⟩
      simp only [step, go]
      cases hpc : s.pc u with
      | locking m => simp only [hsl, if_true]; split <;> rfl
      | _ => rw [hpc] at hu; exact nomatch hu
    | none =>
      refine ⟨t, ?_⟩
      simp only [step, go]
      cases hpc : s.pc t with
      | idle => exact absurd hpc hp
      | entering m =>
        have : s.qlock = none ∧ (m = .loop → s.queue ≠ []) := ⟨hql, fun e => hq (by rw [hpc, e])⟩
        simp only [if_pos this]; rfl
      | locking m => simp only [hsl, if_true]; split <;> rfl
      | reading m n todo => rfl
      | writing m n lv todo => cases todo <;> rfl

def loggerDemo : List Act :=
  [.enqueue 0, .enqueue 2, .call 7 .loop, .go 7, .go 7, .enqueue 1, .call 8 .sync, .go 7, .go 8, .go 7, .go 7, .go 7, .go 8, .go 8, .go 8, .go 8]

/-- Thread 7 is the logger thread, thread 8 calls `synchronize()` while the former is writing; the message with level 2 is ignored. -/
example : ∃ s, run { levels := [false, true], trace := [.loaded [false, true]] } loggerDemo = some s ∧
    Reachable s ∧ enqueued s.trace = [0, 1, 2] ∧ handled s.trace = [0, 1, 2] ∧ written s.trace = [0, 2] ∧ before 8 s.trace = [0, 1, 2] ∧ s.trace.head? = some (.returned 8) ∧
    Ev.dropped 1 2 ∈ s.trace :=
  ⟨_, rfl, logger_run_reachable loggerDemo (.init [false, true]) rfl, by decide, by decide, by decide, by decide, by decide, by decide⟩

end Verif.Props
