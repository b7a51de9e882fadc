import Verif.Proofs.Heap
import Verif.Model.FiberHeap
/-! # Proofs about the queue of fibers -/
namespace Verif.FiberHeap
open Verif.Heap

structure Inv (s : Sys) : Prop where
  heap : isHeap Item.check s.pq = true
  wait : 0 ≤ s.wait

theorem launch_inv {s : Sys} (h : Inv s) (id : Nat) (v : Int) (l : List Item) :
    launch s id v l ≠ .undefined ∧ ∀ s', launch s id v l = .ok s' → Inv s' ∧ s'.pq.Perm (s.pq ++ [⟨id, v⟩]) := by
  unfold launch
  simp only []
  rw [if_neg (by simp [mayPush, h.heap])]
  split
  · rename_i ha
    rw [arranged_iff] at ha
    exact ⟨by simp, by rintro s' ⟨⟩; exact ⟨⟨ha.2, h.wait⟩, ha.1⟩⟩
  · exact ⟨by simp, by rintro s' ⟨⟩⟩

/-- What `take` does with a heap that is not empty. -/
theorem take_inv {s : Sys} (h : Inv s) (hne : s.pq ≠ []) (fate : Item → Option Int) (l l' : List Item) :
    take s fate l l' ≠ .undefined ∧ ∀ s' d, take s fate l l' = .ok (s', d) → Inv s' ∧ ∃ e l0, d = .took e s.pq ∧ (l0 ++ [e]).Perm s.pq ∧ (∀ x ∈ s.pq, e.check ≤ x.check) ∧ s.pq.head? = some e ∧
      s'.pq.Perm (l0 ++ ((fate e).map fun n => { e with check := n }).toList) := by
  unfold take
  rw [if_neg (by simp [mayPop, h.heap, hne])]
  by_cases h2 : popped Item.check s.pq l = true
  · rw [if_neg (by simp [h2])]
    cases hl : l.getLast? with
    | none =>
      rw [popped_iff, hl] at h2
      have := h2.2.1
      cases hp : s.pq with
      | nil => exact absurd hp hne
      | cons a t => rw [hp] at this; cases this
    | some e =>
      obtain ⟨p1, p2, p3, p4, p5⟩ := popped_last h.heap h2 hl
      simp only []
      cases hf : fate e with
      | none =>
        refine ⟨by simp, ?_⟩
        rintro s' d ⟨⟩
        exact ⟨⟨p5, h.wait⟩, e, l.dropLast, rfl, p2, p4, p3, by simp [hf]⟩
      | some n =>
        simp only []
        rw [if_neg (by simp [mayPush, p5])]
        split
        · rename_i ha
          rw [arranged_iff] at ha
          refine ⟨by simp, ?_⟩
          rintro s' d ⟨⟩
          exact ⟨⟨ha.2, h.wait⟩, e, l.dropLast, rfl, p2, p4, p3, by simpa [hf] using ha.1⟩
        · exact ⟨by simp, by rintro s' d ⟨⟩⟩
  · rw [if_pos (by simpa using h2)]
    exact ⟨by simp, by rintro s' d ⟨⟩⟩

theorem scan_inv {s s' : Sys} (h : Inv s) (async : Nat → Int) (l : List Item) (hs : scan s async l = some s') :
    isHeap Item.check s'.pq = true ∧ s'.pq.Perm (s.pq.map fun x => { x with check := async x.id }) ∧ s'.wait = s.wait := by
  unfold scan at hs
  simp only [] at hs
  split at hs
  · split at hs
    · rename_i ha
      rw [arranged_iff] at ha
      cases hs
      exact ⟨ha.2, ha.1, rfl⟩
    · cases hs
  · rename_i hc
    cases hs
    have hsame : (s.pq.map fun x => ({ x with check := async x.id } : Item)) = s.pq := by
      conv => rhs; rw [← List.map_id s.pq]
      refine List.map_congr_left fun x hx => ?_
      simp only [List.any_eq_true, decide_eq_true_eq, not_exists, not_and, ne_eq, Decidable.not_not] at hc
      have := hc x hx
      rw [← this]; rfl
    rw [hsame]
    exact ⟨h.heap, .refl _, rfl⟩

/-- The least time of a queue, which is its first one. -/
theorem wait_least {pq : List Item} (h : isHeap Item.check pq = true) (now : Int) : ∀ x ∈ pq, timeToWait pq now ≤ x.check - now := by
  intro x hx
  cases pq with
  | nil => cases hx
  | cons a t =>
    have := head_least h x hx
    simp only [timeToWait]
    omega

/-- What a call of `thread_loop()` does. -/
theorem loop_inv {s : Sys} (h : Inv s) (now : Int) (async : Nat → Int) (fate : Item → Option Int) (l0 l l' : List Item) :
    loop s now async fate l0 l l' ≠ .undefined ∧ ∀ s' d, loop s now async fate l0 l l' = .ok (s', d) → Inv s' ∧
      ((∃ w, d = .slept w ∧ 0 < w ∧ w ≤ 500000000 ∧ s'.pq.Perm (s.pq.map fun x => { x with check := async x.id }) ∧ ∀ x ∈ s'.pq, now + w ≤ x.check) ∨
       (∃ e q m, d = .took e q ∧ (q.Perm s.pq ∨ q.Perm (s.pq.map fun x => { x with check := async x.id })) ∧ e ∈ q ∧ (∀ x ∈ q, e.check ≤ x.check) ∧ e.check ≤ now ∧ (m ++ [e]).Perm q ∧
        s'.pq.Perm (m ++ ((fate e).map fun n => { e with check := n }).toList))) := by
  unfold loop
  by_cases h1 : timeToWait s.pq now > 0
  · rw [if_pos h1]
    cases hs : scan s async l0 with
    | none => exact ⟨by simp, by rintro s' d ⟨⟩⟩
    | some s1 =>
      obtain ⟨g1, g2, g3⟩ := scan_inv h async l0 hs
      simp only []
      have hw := h.wait
      generalize ht : min (timeToWait s1.pq now) (s.wait * 2 + 1000) = t
      have ht1 : t ≤ timeToWait s1.pq now := by omega
      have ht2 : t ≤ 0 → timeToWait s1.pq now ≤ 0 := by omega
      generalize hwd : (if t < 0 then 0 else if t > 500000000 then 500000000 else t) = w
      have hw0 : 0 ≤ w ∧ w ≤ 500000000 ∧ (0 < w → w ≤ t) ∧ (w = 0 → t ≤ 0) := by
        rw [← hwd]; split
        · omega
        · split <;> omega
      split
      · rename_i hp
        refine ⟨by simp, ?_⟩
        rintro s' d ⟨⟩
        refine ⟨⟨g1, hw0.1⟩, .inl ⟨w, rfl, hp, hw0.2.1, g2, ?_⟩⟩
        intro x hx
        have := wait_least g1 now x hx
        have := hw0.2.2.1 hp
        omega
      · rename_i hp
        have hne : s1.pq ≠ [] := by
          intro he
          have : timeToWait s1.pq now = 999000000 := by rw [he]; rfl
          have := ht2 (hw0.2.2.2 (by omega))
          omega
        obtain ⟨k1, k2⟩ := take_inv (s := { s1 with wait := w }) ⟨g1, hw0.1⟩ hne fate l l'
        refine ⟨k1, ?_⟩
        intro s' d hd
        obtain ⟨k3, e, m, k4, k5, k6, k8, k7⟩ := k2 s' d hd
        refine ⟨k3, .inr ⟨e, s1.pq, m, k4, .inr g2, k5.mem_iff.mp (by simp), k6, ?_, k5, k7⟩⟩
        have := ht2 (hw0.2.2.2 (by omega))
        have k8 : s1.pq.head? = some e := k8
        cases hp : s1.pq with
        | nil => exact absurd hp hne
        | cons a r =>
          rw [hp] at this k8
          cases k8
          simp only [timeToWait] at this
          omega
  · rw [if_neg h1]
    have hne : s.pq ≠ [] := by
      intro he
      rw [he] at h1
      simp [timeToWait] at h1
    obtain ⟨k1, k2⟩ := take_inv h hne fate l l'
    refine ⟨k1, ?_⟩
    intro s' d hd
    obtain ⟨k3, e, m, k4, k5, k6, k8, k7⟩ := k2 s' d hd
    refine ⟨k3, .inr ⟨e, s.pq, m, k4, .inl (.refl _), k5.mem_iff.mp (by simp), k6, ?_, k5, k7⟩⟩
    cases hp : s.pq with
    | nil => exact absurd hp hne
    | cons a r =>
      rw [hp] at h1 k8
      cases k8
      simp only [timeToWait] at h1
      omega

theorem step_inv {s : Sys} (h : Inv s) (a : Act) : step s a ≠ .undefined ∧ ∀ s', step s a = .ok s' → Inv s' := by
  cases a with
  | launch id v l =>
    obtain ⟨h1, h2⟩ := launch_inv h id v l
    exact ⟨h1, fun s' hs => (h2 s' hs).1⟩
  | loop now async fate l0 l l' =>
    obtain ⟨h1, h2⟩ := loop_inv h now async fate l0 l l'
    simp only [step]
    cases hl : loop s now async fate l0 l l' with
    | no => exact ⟨by simp, by rintro s' ⟨⟩⟩
    | undefined => exact absurd hl h1
    | ok x => exact ⟨by simp, by rintro s' ⟨⟩; exact (h2 _ _ hl).1⟩

theorem run_inv {s : Sys} (h : Inv s) (as : List Act) : run s as ≠ .undefined ∧ ∀ s', run s as = .ok s' → Inv s' := by
  induction as generalizing s with
  | nil => exact ⟨by simp [run], by rintro s' ⟨⟩; exact h⟩
  | cons a as ih =>
    simp only [run]
    obtain ⟨h1, h2⟩ := step_inv h a
    cases hs : step s a with
    | no => exact ⟨by simp, by rintro s' ⟨⟩⟩
    | undefined => exact absurd hs h1
    | ok s1 => exact ih (h2 s1 hs)

end Verif.FiberHeap
