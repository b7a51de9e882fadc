import Verif.Proofs.TimerHeap
import Verif.Proofs.FiberHeap
import Verif.Spec.Heap
import Verif.Proofs.Timer
/-!
# C108: the queues of timers and fibers
-/
namespace Verif.Props
open Verif.Timer

/-! ## The heap functions -/

theorem isHeap_ordered {α : Type} (key : α → Int) (l : List α) : Heap.isHeap key l = true ↔ Heap.Ordered key l := by
  unfold Heap.isHeap Heap.Ordered
  rw [List.all_eq_true]
  constructor
  · intro h i x y hx hy
    obtain ⟨hi, -⟩ := List.getElem?_eq_some_iff.mp hy
    have := h i (List.mem_range.mpr hi)
    rw [hx, hy] at this
    simpa using this
  · intro h i _
    split
    · rename_i x y hx hy; simpa using h i x y hx hy
    · rfl

/-- C108: the functions `push_heap`, `pop_heap` and `make_heap` are used as the standard has them: the former may be called if there is an element and those in front of it are a heap, the second if there is an element and
all of them are a heap; and the results are permutations, which are heaps, where the second has moved the first element to the end. -/
theorem C108_contract {α : Type} [DecidableEq α] (key : α → Int) (l l' : List α) :
    (Heap.mayPush key l = true ↔ ∃ front last, l = front ++ [last] ∧ Heap.Ordered key front) ∧
    (Heap.mayPop key l = true ↔ l ≠ [] ∧ Heap.Ordered key l) ∧
    (Heap.arranged key l l' = true ↔ l'.Perm l ∧ Heap.Ordered key l') ∧
    (l ≠ [] → (Heap.popped key l l' = true ↔ ∃ front first, l' = front ++ [first] ∧ l.head? = some first ∧ (front ++ [first]).Perm l ∧ Heap.Ordered key front)) := by
  refine ⟨?_, ?_, ?_, fun hne => ?_⟩
  · unfold Heap.mayPush
    rw [Bool.and_eq_true, isHeap_ordered]
    constructor
    · rintro ⟨h1, h2⟩
      have hne : l ≠ [] := by intro e; subst e; cases h1
      exact ⟨l.dropLast, l.getLast hne, (List.dropLast_concat_getLast hne).symm, h2⟩
    · rintro ⟨f, x, rfl, h⟩
      exact ⟨by simp, by simpa using h⟩
  · unfold Heap.mayPop
    rw [Bool.and_eq_true, isHeap_ordered]
    simp
  · unfold Heap.arranged
    rw [Bool.and_eq_true, isHeap_ordered, List.isPerm_iff]
  · unfold Heap.popped
    rw [Bool.and_eq_true, Bool.and_eq_true, isHeap_ordered, List.isPerm_iff, beq_iff_eq]
    constructor
    · rintro ⟨⟨h1, h2⟩, h3⟩
      have hne' : l' ≠ [] := by intro e; subst e; exact hne (List.nil_perm.mp h1)
      have e := List.dropLast_concat_getLast hne'
      rw [List.getLast?_eq_some_getLast hne'] at h2
      exact ⟨l'.dropLast, l'.getLast hne', e.symm, h2.symm, by rw [e]; exact h1, h3⟩
    · rintro ⟨f, x, rfl, h1, h2, h3⟩
      exact ⟨⟨h2, by simp [h1]⟩, by simpa using h3⟩

/-- Non-vacuity: 1, 3, 2 is a heap; 0 is pushed; and 0 is popped. -/
example : Heap.mayPush (fun x : Int => x) [1, 3, 2, 0] = true ∧ Heap.arranged (fun x : Int => x) [1, 3, 2, 0] [0, 1, 2, 3] = true ∧ Heap.mayPop (fun x : Int => x) [0, 1, 2, 3] = true ∧
    Heap.popped (fun x : Int => x) [0, 1, 2, 3] [1, 3, 2, 0] = true ∧ Heap.mayPush (fun x : Int => x) [1, 0, 5] = false := by decide +kernel

/-! ## Timers -/
section
open Verif.TimerHeap

/-- C108: whatever is inserted, released and run in whatever order, and whatever the heap functions choose to make of the array, these functions are called only when they may be, and no element of an empty
array is accessed. -/
theorem C108_defined (t : Int) (acts : List TimerHeap.Act) : TimerHeap.run { clock := t } acts ≠ .undefined := (TimerHeap.run_inv (TimerHeap.inv_init t) acts).1

/-- C108: the timer whose callback is about to be run has the least time in the queue, and this time has come. -/
theorem C108_earliest (t : Int) (acts : List TimerHeap.Act) (s s' : TimerHeap.Sys) (hr : TimerHeap.run { clock := t } acts = .ok s) (l l' : List Entry) (late : Int)
    (hs : TimerHeap.step s (.loop l l' late) = .ok s') (e : Entry) (he : s'.thread = .calling e) : e ∈ s.pq ∧ (∀ x ∈ s.pq, e.next ≤ x.next) ∧ e.next ≤ s.clock := by
  have h := (TimerHeap.run_inv (TimerHeap.inv_init t) acts).2 s hr
  simp only [TimerHeap.step] at hs
  split at hs
  · rename_i hth
    rcases loop_cases h.heap l l' late with e | ⟨e1, e⟩ | ⟨x, hx0, hx, ⟨hlt, hlate, e⟩ | ⟨hle, l0, hp, e2, ⟨hd, e⟩ | ⟨hd, hper, hp2, e3, e⟩ | ⟨hd, hper, e⟩⟩⟩
    · rw [e] at hs; cases hs
    · rw [e] at hs; cases hs; cases he
    · rw [e] at hs; cases hs; cases he
    · rw [e] at hs; cases hs; simp only at he; rw [hth] at he; cases he
    · rw [e] at hs; cases hs; cases he; exact ⟨hx0, hx, hle⟩
    · rw [e] at hs; cases hs; cases he; exact ⟨hx0, hx, hle⟩
  · cases hs

/-- C108: while the timer thread sleeps without a timeout, there is no timer; while it sleeps with one, the timeout is no later than the time of any timer in the queue, except for the time that passed between its
reading of the clock and its falling asleep.  So an insertion of an earlier timer is never overslept. -/
theorem C108_sleep (t : Int) (acts : List TimerHeap.Act) (s : TimerHeap.Sys) (hr : TimerHeap.run { clock := t } acts = .ok s) (u : Option Int) (late : Int) (hs : s.thread = .asleep u late) :
    match u with
    | none => s.pq = []
    | some d => ∀ x ∈ s.pq, d ≤ x.next + late := by
  have h := (TimerHeap.run_inv (TimerHeap.inv_init t) acts).2 s hr
  cases u with
  | none => exact h.empty late hs
  | some d =>
    intro x hx
    have := h.until_ d late hs x hx
    omega

/-- C108: the timer thread goes to sleep only if no timer is due; and if one is due, an element is taken out of the queue, for which the callback is run unless the timer has been released. -/
theorem C108_awake (t : Int) (acts : List TimerHeap.Act) (s s' : TimerHeap.Sys) (hr : TimerHeap.run { clock := t } acts = .ok s) (l l' : List Entry) (late : Int)
    (hs : TimerHeap.step s (.loop l l' late) = .ok s') :
    (∃ u, s'.thread = .asleep u late ∨ s'.thread = .asleep u 0) ∧ (∀ x ∈ s.pq, s.clock < x.next) ∧ s'.pq = s.pq ∨
    ∃ e ∈ s.pq, e.next ≤ s.clock ∧ if e.timer ∈ s.dead then s'.thread = .entering ∧ (s'.pq ++ [e]).Perm s.pq
      else s'.thread = .calling e ∧ if e.period = 0 then (s'.pq ++ [e]).Perm s.pq else (s'.pq ++ [e]).Perm (s.pq ++ [{ e with next := e.next + e.period }]) := by
  have h := (TimerHeap.run_inv (TimerHeap.inv_init t) acts).2 s hr
  simp only [TimerHeap.step] at hs
  split at hs
  · rename_i hth
    rcases loop_cases h.heap l l' late with e | ⟨e1, e⟩ | ⟨x, hx0, hx, ⟨hlt, hlate, e⟩ | ⟨hle, l0, hp, e2, ⟨hd, e⟩ | ⟨hd, hper, hp2, e3, e⟩ | ⟨hd, hper, e⟩⟩⟩
    · rw [e] at hs; cases hs
    · rw [e] at hs; cases hs
      exact .inl ⟨⟨none, .inr rfl⟩, by simp [e1], rfl⟩
    · rw [e] at hs; cases hs
      exact .inl ⟨⟨_, .inl rfl⟩, fun y hy => by have := hx y hy; omega, rfl⟩
    · rw [e] at hs; cases hs
      exact .inr ⟨x, hx0, hle, by rw [if_pos hd]; exact ⟨hth, hp⟩⟩
    · rw [e] at hs; cases hs
      refine .inr ⟨x, hx0, hle, ?_⟩
      rw [if_neg hd, if_neg hper]
      refine ⟨rfl, ?_⟩
      have h1 := hp2.append_right [x]
      refine h1.trans ?_
      rw [List.append_assoc]
      refine (List.Perm.append_left l0 (List.Perm.swap _ _ _)).trans ?_
      have := hp.append_right [({ x with next := x.next + x.period } : Entry)]
      simpa using this
    · rw [e] at hs; cases hs
      refine .inr ⟨x, hx0, hle, ?_⟩
      rw [if_neg hd, if_pos hper]
      exact ⟨rfl, hp⟩
  · cases hs

/-- C108: the timer thread is never stuck: from every reachable state it can make a step on its own. -/
theorem C108_progress (t : Int) (acts : List TimerHeap.Act) (s : TimerHeap.Sys) (hr : TimerHeap.run { clock := t } acts = .ok s) :
    (∃ s', TimerHeap.step s .wake = .ok s') ∨ (∃ s', TimerHeap.step s .call = .ok s') ∨ ∃ l l', ∀ late ≥ 0, ∃ s', TimerHeap.step s (.loop l l' late) = .ok s' := by
  have h := (TimerHeap.run_inv (TimerHeap.inv_init t) acts).2 s hr
  cases hth : s.thread with
  | asleep u late => exact .inl ⟨_, by simp only [TimerHeap.step, hth]; rfl⟩
  | calling e => exact .inr (.inl ⟨_, by simp only [TimerHeap.step, hth]; rfl⟩)
  | entering =>
    refine .inr (.inr ?_)
    by_cases hne : s.pq = []
    · exact ⟨[], [], fun late _ => ⟨{ s with thread := .asleep none 0 }, by simp [TimerHeap.step, hth, TimerHeap.loop, hne]⟩⟩
    · obtain ⟨l, hl⟩ := Heap.exists_popped Entry.next hne
      cases hll : l.getLast? with
      | none =>
        have := (Heap.popped_iff.mp hl).2.1
        rw [hll] at this
        cases hq : s.pq with
        | nil => exact absurd hq hne
        | cons a b => rw [hq] at this; cases this
      | some e =>
        obtain ⟨-, -, -, -, hd⟩ := Heap.popped_last h.heap hl hll
        obtain ⟨l', hl'⟩ := Heap.exists_arranged Entry.next (l.dropLast ++ [{ e with next := e.next + e.period }])
        refine ⟨l, l', fun late hlate => ?_⟩
        simp only [TimerHeap.step, hth]
        unfold TimerHeap.loop
        cases hq : s.pq with
        | nil => exact absurd hq hne
        | cons a b =>
          simp only []
          rw [← hq]
          have hlate : ¬ late < 0 := by omega
          rw [if_neg hlate]
          split
          · exact ⟨_, rfl⟩
          rw [if_neg (by simp [Heap.mayPop, h.heap, hne]), if_neg (by simp [hl]), hll]
          simp only []
          split
          · exact ⟨_, rfl⟩
          split
          · unfold TimerHeap.push
            rw [if_neg (by simp [Heap.mayPush, hd]), if_pos hl']
            exact ⟨_, rfl⟩
          · exact ⟨_, rfl⟩

/-- C108: everything that happens to timers could also happen if the queue were a list from which an element with the least time is taken; so all that C32 says holds of the heap, too. -/
theorem C108_refines (t : Int) (acts : List TimerHeap.Act) (s : TimerHeap.Sys) (hr : TimerHeap.run { clock := t } acts = .ok s) :
    ∃ a, Timer.Reachable a ∧ a.trace = s.trace ∧ a.pq.Perm s.pq ∧ a.clock = s.clock ∧ a.dead = s.dead := by
  obtain ⟨a, ha, r⟩ := refine_run (TimerHeap.inv_init t) (t := { clock := t }) ⟨rfl, .refl _, rfl, by simp, rfl, rfl⟩ (.init t) acts hr
  exact ⟨a, ha, r.trace, r.pq, r.clock, r.dead⟩

/-- C108: if nothing takes time but sleep, then timers fire on time: when a time of the schedule of a timer that has not been released is over, its callback has been run with this time, at this time. -/
theorem C108_fires (t : Int) (acts : List TimerHeap.Act) (s : TimerHeap.Sys) (hp : TimerHeap.Punctual { clock := t } acts) (hr : TimerHeap.run { clock := t } acts = .ok s) (id timer : Nat) (now delay period : Int)
    (hi : Ev.inserted id timer now delay period ∈ s.trace) (ha : Ev.released timer ∉ s.trace) (k : Nat) (hk : period = 0 → k = 0) (hc : now + delay + k * period < s.clock) :
    Ev.tick id timer (now + delay + k * period) (now + delay + k * period) ∈ s.trace := by
  have on : OnTime s := onTime_run (TimerHeap.inv_init t) ⟨by simp, by simp, by simp, by simp⟩ acts hp hr
  have cl : Called s := called_run (TimerHeap.inv_init t) ⟨by simp, by simp, by simp, by simp⟩ ⟨by simp, by simp, by simp⟩ acts hp hr
  obtain ⟨a, hra, r⟩ := refine_run (TimerHeap.inv_init t) (t := { clock := t }) ⟨rfl, .refl _, rfl, by simp, rfl, rfl⟩ (.init t) acts hr
  have iv := Timer.inv hra
  have hd : timer ∉ a.dead := by rw [r.dead]; exact fun hd => ha (cl.dead timer hd)
  have hi' : Ev.inserted id timer now delay period ∈ a.trace := by rw [r.trace]; exact hi
  obtain ⟨-, hsch, hone⟩ := iv.sched id timer now delay period hi'
  have hlt : k < (takes id a.trace).length := by
    rcases (Timer.kept hra).there id timer now delay period hi' hd with ⟨e, he, rfl⟩ | ⟨h0, h1⟩
    · obtain ⟨now', delay', q1, q2, q3⟩ := iv.queued e he
      obtain ⟨-, rfl, rfl, hper⟩ := iv.same _ _ _ _ _ _ _ _ _ hi' q1
      have hm : e ∈ s.pq := r.pq.mem_iff.mp he
      have h1 := on.later e hm
      have h2 := on.period e hm
      rw [hper] at hc hk
      rcases Int.lt_or_le (k : Int) ((takes e.id a.trace).length : Int) with h3 | h3
      · omega
      · exfalso
        have := Int.mul_le_mul_of_nonneg_right h3 h2
        omega
    · have := hk h0
      cases hh : takes id a.trace with
      | nil => exact absurd hh h1
      | cons x y => simp only [List.length_cons]; omega
  have hmem : now + delay + (k : Int) * period ∈ takes id a.trace := by rw [hsch]; exact mem_schedule hlt
  have htick : now + delay + (k : Int) * period ∈ ticks id a.trace := by
    cases hcur : a.current with
    | none => rw [← iv.idle hcur id]; exact hmem
    | some e =>
      rw [iv.current e hcur id] at hmem
      rcases List.mem_append.mp hmem with h | h
      · exact h
      · exfalso
        split at h
        · rw [List.mem_singleton] at h
          have := cl.calling e ((r.current e).mp hcur)
          omega
        · cases h
  obtain ⟨t', n, hm⟩ := mem_ticks htick
  obtain ⟨_, _, _, hi2⟩ := (Timer.kept hra).tick _ _ _ _ hm
  obtain ⟨rfl, -⟩ := iv.same _ _ _ _ _ _ _ _ _ hi' hi2
  rw [r.trace] at hm
  have := cl.tick _ _ _ _ hm
  rw [this] at hm
  exact hm

/-- Timer 7 is inserted while the thread sleeps; then timer 8, which is earlier, wakes it. -/
def heapActs : List TimerHeap.Act :=
  [.loop [] [] 0, .insert 7 100 50 0 [⟨0, 7, 100, 50⟩], .loop [] [] 0, .pass 30, .insert 8 20 0 0 [⟨1, 8, 50, 0⟩, ⟨0, 7, 100, 50⟩], .loop [] [] 0, .pass 20, .wake, .loop [⟨0, 7, 100, 50⟩, ⟨1, 8, 50, 0⟩] [] 0,
   .call, .loop [] [] 0, .pass 50, .wake, .loop [⟨0, 7, 100, 50⟩] [⟨0, 7, 150, 50⟩] 0, .call, .loop [] [] 0, .pass 1]

example : ∃ s, TimerHeap.run { clock := 0 } heapActs = .ok s ∧ s.trace = [.tick 0 7 100 100, .taken 0 7 100 100, .tick 1 8 50 50, .taken 1 8 50 50, .inserted 1 8 30 20 0, .inserted 0 7 0 100 50] ∧
    s.pq = [⟨0, 7, 150, 50⟩] ∧ s.thread = .asleep (some 150) 0 ∧ s.clock = 101 := ⟨_, rfl, rfl, rfl, rfl, rfl⟩

example : TimerHeap.Punctual { clock := 0 } heapActs := by
  refine ⟨rfl, ?_⟩; rintro _ ⟨⟩
  refine ⟨rfl, ?_⟩; rintro _ ⟨⟩
  refine ⟨rfl, ?_⟩; rintro _ ⟨⟩
  refine ⟨⟨_, _, rfl, by simp⟩, ?_⟩; rintro _ ⟨⟩
  refine ⟨rfl, ?_⟩; rintro _ ⟨⟩
  refine ⟨rfl, ?_⟩; rintro _ ⟨⟩
  refine ⟨⟨_, _, rfl, by simp⟩, ?_⟩; rintro _ ⟨⟩
  refine ⟨trivial, ?_⟩; rintro _ ⟨⟩
  refine ⟨rfl, ?_⟩; rintro _ ⟨⟩
  refine ⟨trivial, ?_⟩; rintro _ ⟨⟩
  refine ⟨rfl, ?_⟩; rintro _ ⟨⟩
  refine ⟨⟨_, _, rfl, by simp⟩, ?_⟩; rintro _ ⟨⟩
  refine ⟨trivial, ?_⟩; rintro _ ⟨⟩
  refine ⟨rfl, ?_⟩; rintro _ ⟨⟩
  refine ⟨trivial, ?_⟩; rintro _ ⟨⟩
  refine ⟨rfl, ?_⟩; rintro _ ⟨⟩
  refine ⟨⟨_, _, rfl, by simp⟩, ?_⟩; rintro _ ⟨⟩
  trivial

end

/-! ## Fibers -/
section
open Verif.FiberHeap

/-- C108: the same for fibers, whatever times other threads store in them. -/
theorem C108_fibers_defined (acts : List FiberHeap.Act) : FiberHeap.run {} acts ≠ .undefined := (FiberHeap.run_inv ⟨rfl, by simp⟩ acts).1

/-- C108: when a fiber is taken, it has the least time in the queue, and this time has come.  It leaves the queue, or is put back with the time it is given. -/
theorem C108_fibers_earliest (acts : List FiberHeap.Act) (s s' : FiberHeap.Sys) (hr : FiberHeap.run {} acts = .ok s) (now : Int) (async : Nat → Int) (fate : Item → Option Int) (l0 l l' : List Item) (e : Item)
    (q : List Item) (hs : FiberHeap.loop s now async fate l0 l l' = .ok (s', .took e q)) :
    (q.Perm s.pq ∨ q.Perm (s.pq.map fun x => { x with check := async x.id })) ∧ e ∈ q ∧ (∀ x ∈ q, e.check ≤ x.check) ∧ e.check ≤ now ∧
    match fate e with
    | none => (s'.pq ++ [e]).Perm q
    | some n => (s'.pq ++ [e]).Perm (q ++ [{ e with check := n }]) := by
  have h := (FiberHeap.run_inv (s := {}) ⟨rfl, by simp⟩ acts).2 s hr
  rcases ((loop_inv h now async fate l0 l l').2 _ _ hs).2 with ⟨w, hw, _⟩ | ⟨e', q', m, he, h1, h2, h3, h4, h5, h6⟩
  · cases hw
  · cases he
    refine ⟨h1, h2, h3, h4, ?_⟩
    cases hf : fate e with
    | none => rw [hf] at h6; exact ((by simpa using h6 : s'.pq.Perm m).append_right [e]).trans h5
    | some n =>
      rw [hf] at h6
      have h6 : s'.pq.Perm (m ++ [{ e with check := n }]) := h6
      refine (h6.append_right [e]).trans ?_
      rw [List.append_assoc]
      refine (List.Perm.append_left m (List.Perm.swap _ _ _)).trans ?_
      have := h5.append_right [({ e with check := n } : Item)]
      simpa using this

/-- C108: when the fiber thread sleeps, it does so for at most half a second, and no longer than until the time of any fiber in the queue, of which the times that other threads have stored are known. -/
theorem C108_fibers_sleep (acts : List FiberHeap.Act) (s s' : FiberHeap.Sys) (hr : FiberHeap.run {} acts = .ok s) (now : Int) (async : Nat → Int) (fate : Item → Option Int) (l0 l l' : List Item) (d : Int)
    (hs : FiberHeap.loop s now async fate l0 l l' = .ok (s', .slept d)) : 0 < d ∧ d ≤ 500000000 ∧ (∀ x ∈ s.pq, now + d ≤ async x.id) ∧ s'.pq.Perm (s.pq.map fun x => { x with check := async x.id }) := by
  have h := (FiberHeap.run_inv (s := {}) ⟨rfl, by simp⟩ acts).2 s hr
  rcases ((loop_inv h now async fate l0 l l').2 _ _ hs).2 with ⟨w, hw, h1, h2, h3, h4⟩ | ⟨e', q', m, he, _⟩
  · cases hw
    refine ⟨h1, h2, ?_, h3⟩
    intro x hx
    exact h4 { x with check := async x.id } (h3.mem_iff.mpr (List.mem_map_of_mem hx))
  · cases he

/-- Three fibers; another thread makes the last one due. -/
def fiberActs : List FiberHeap.Act :=
  [.launch 0 5 [⟨0, 5⟩], .launch 1 6 [⟨0, 5⟩, ⟨1, 6⟩], .launch 2 7 [⟨0, 5⟩, ⟨1, 6⟩, ⟨2, 7⟩],
   .loop 10 (fun _ => 0) (fun _ => some 1000000) [] [⟨1, 6⟩, ⟨2, 7⟩, ⟨0, 5⟩] [⟨1, 6⟩, ⟨2, 7⟩, ⟨0, 1000000⟩],
   .loop 10 (fun _ => 0) (fun _ => some 2000000) [] [⟨2, 7⟩, ⟨0, 1000000⟩, ⟨1, 6⟩] [⟨2, 7⟩, ⟨0, 1000000⟩, ⟨1, 2000000⟩],
   .loop 10 (fun _ => 0) (fun _ => some 3000000) [] [⟨0, 1000000⟩, ⟨1, 2000000⟩, ⟨2, 7⟩] [⟨0, 1000000⟩, ⟨1, 2000000⟩, ⟨2, 3000000⟩]]

example : ∃ s, FiberHeap.run {} fiberActs = .ok s ∧ s.pq = [⟨0, 1000000⟩, ⟨1, 2000000⟩, ⟨2, 3000000⟩] ∧
    (∃ s', FiberHeap.loop s 20 (fun n => if n = 2 then 8 else 1000000 * (n + 1)) (fun _ => none) [⟨2, 8⟩, ⟨0, 1000000⟩, ⟨1, 2000000⟩] [⟨0, 1000000⟩, ⟨1, 2000000⟩, ⟨2, 8⟩] [] =
      .ok (s', .took ⟨2, 8⟩ [⟨2, 8⟩, ⟨0, 1000000⟩, ⟨1, 2000000⟩]) ∧ s'.pq = [⟨0, 1000000⟩, ⟨1, 2000000⟩]) ∧
    ∃ s', FiberHeap.loop s 20 (fun n => 1000000 * (n + 1)) (fun _ => none) [] [] [] = .ok (s', .slept 1000) ∧ s'.wait = 1000 := by
  refine ⟨_, rfl, rfl, ⟨_, rfl, rfl⟩, ⟨_, rfl, rfl⟩⟩

end
end Verif.Props
