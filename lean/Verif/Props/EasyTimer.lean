import Verif.Spec.EasyTimer
import Verif.Proofs.EasyTimer
import Verif.Props.EasyQueue
/-!
# C119: easy timers from end to end

`heard w i q` is the list of the times that the callback of the object `i` has been called with since its start number `q`.
-/
namespace Verif.Props
open Verif.Timer (schedule ticks Ev)
open Verif.EasyTimer

/-- C119.  `start()` throws an exception and changes nothing if the delay or the period is negative or too large; otherwise it begins a new schedule, which has not called anything yet. -/
theorem C119_start {t0 : Int} {w w' : World} (h : EasyTimer.Reachable t0 w) {i : Nat} {delay period ago : Int} {l : List Timer.Entry} (hs : EasyTimer.step w (.start i delay period ago l) = some w') :
    if delay < 0 ∨ delay > Timer.limit ∨ period < 0 ∨ period > Timer.limit then w' = w
    else Started w' i (w.ends i).queues.length w.links.length w.sched.ids (w.sched.clock - ago) delay period ∧ heard w' i (w.ends i).queues.length = [] := by
  have hr' := EasyTimer.Reachable.step _ h hs
  simp only [EasyTimer.step] at hs
  split at hs
  · rename_i s hst
    split at hs
    · rename_i hids
      cases hs
      rw [if_pos]
      apply Classical.byContradiction
      intro hlim
      simp only [TimerHeap.step, TimerHeap.insert] at hst
      rw [if_neg (by omega : ¬ (delay < 0 ∨ delay > Timer.limit)), if_neg (by omega : ¬ (period < 0 ∨ period > Timer.limit))] at hst
      split at hst
      · cases hst
      · split at hst
        · cases hst
        · unfold TimerHeap.push at hst
          split at hst
          · cases hst
          · split at hst
            · cases hst; simp at hids
            · cases hst
    · rename_i hids
      split at hs
      · rename_i e hcr
        cases hs
        have hne : ¬ (delay < 0 ∨ delay > Timer.limit ∨ period < 0 ∨ period > Timer.limit) := by
          intro hlim
          simp only [TimerHeap.step, TimerHeap.insert] at hst
          split at hst
          · cases hst
          · split at hst
            · cases hst
            · by_cases hd : delay < 0 ∨ delay > Timer.limit
              · rw [if_pos hd] at hst; cases hst; exact hids rfl
              · rw [if_neg hd, if_pos (by omega)] at hst; cases hst; exact hids rfl
        rw [if_neg hne]
        obtain ⟨-, hq⟩ := sched_shape (inv h).heap hst
        rcases hq with ⟨-, hi⟩ | ⟨x, -, -, hi⟩ | ⟨t, d, p, ago', l', hact, -, -, hi, ht⟩ | ⟨x, hact, -⟩
        · exact absurd hi hids
        · exact absurd hi hids
        · cases hact
          refine ⟨⟨by simp, by simp only [ht]; exact .head _⟩, ?_⟩
          have h0 := (inv h).fresh i _ (Nat.le_refl _)
          rw [← UdpLink.easy_keep (by simp) hcr] at h0
          have h1 := (C71_order (.step ((inv h).easy i) hcr) (w.ends i).queues.length).sublist.trans (UdpLink.arrivals_handed _ _)
          rw [(List.append_eq_nil_iff.mp h0).1] at h1
          simpa [heard, setEnd] using h1
        · cases hact
      · cases hs
  · cases hs

theorem heard_ticks {t0 : Int} {w : World} (h : EasyTimer.Reachable t0 w) {i q n id : Nat} (hl : w.links[n]? = some (id, i, q)) : (heard w i q).Sublist (ticks id w.sched.trace) := by
  rw [(inv h).all n id i q hl]
  exact ((C71_order ((inv h).easy i) q).sublist.trans (UdpLink.arrivals_handed _ q)).trans (List.sublist_append_left _ _)

theorem heard_all {t0 : Int} {w : World} (h : EasyTimer.Reachable t0 w) {i q n id : Nat} (hl : w.links[n]? = some (id, i, q)) (hu : Undisturbed w i q) :
    heard w i q <+: ticks id w.sched.trace ∧ (Settled w i → heard w i q = ticks id w.sched.trace) := by
  have hi : ∀ x, .ignored q x ∉ (w.ends i).trace := fun x hx => by
    obtain ⟨post, pre, ht⟩ := List.append_of_mem hx
    exact hu.1 (by rw [ht]; exact List.mem_append_right _ (.tail _ (C71_ignored ((inv h).easy i) ht)))
  rw [(inv h).all n id i q hl, ← UdpLink.arrivals_all hu.2 hi]
  refine ⟨(C71_order ((inv h).easy i) q).trans (List.prefix_append _ _), fun hq => ?_⟩
  rw [show UdpLink.pending (w.ends i) q = [] by unfold UdpLink.pending; rw [hq.1], List.append_nil]
  exact C71_delivered ((inv h).easy i) hq.2 hu.1

theorem prefix_schedule {l : List Int} {a p : Int} {m : Nat} (h : l <+: schedule a p m) : l = schedule a p l.length ∧ l.length ≤ m := by
  have hlen : l.length ≤ m := by have := h.length_le; simpa [schedule] using this
  refine ⟨?_, hlen⟩
  have := List.prefix_iff_eq_take.mp h
  rw [this]
  unfold schedule
  rw [← List.map_take, List.take_range, List.length_map, List.length_range]

/-- C119.  The callback of an easy timer gets times of its schedule, in order, each at most once; and as long as it is not stopped and there is memory, it gets them without gaps: the first so many of
`now + delay`, `now + delay + period`, ….  If the period is zero, it is called at most once. -/
theorem C119_schedule {t0 : Int} {w : World} (h : EasyTimer.Reachable t0 w) {i q n id : Nat} {now delay period : Int} (hs : Started w i q n id now delay period) :
    (∃ m, (heard w i q).Sublist (schedule (now + delay) period m) ∧ (period = 0 → m ≤ 1)) ∧
    (Undisturbed w i q → heard w i q = schedule (now + delay) period (heard w i q).length) := by
  obtain ⟨a, ha, ht, -⟩ := C108_refines t0 w.done.reverse w.sched (inv h).run
  obtain ⟨m, hm, h1⟩ := C32_schedule a ha id (2 * n) now delay period (by rw [ht]; exact hs.2)
  rw [ht] at hm
  refine ⟨⟨m, hm ▸ heard_ticks h hs.1, h1⟩, fun hu => ?_⟩
  exact (prefix_schedule (hm ▸ (heard_all h hs.1 hu).1)).1

/-- C119.  The callback is never called before its time. -/
theorem C119_never_early {t0 : Int} {w : World} (h : EasyTimer.Reachable t0 w) {i q n id : Nat} {now delay period : Int} (hs : Started w i q n id now delay period) {x : Int} (hx : x ∈ heard w i q) :
    now + delay ≤ x ∧ x ≤ w.sched.clock := by
  obtain ⟨a, ha, ht, -⟩ := C108_refines t0 w.done.reverse w.sched (inv h).run
  obtain ⟨m, hm, h1⟩ := C32_schedule a ha id (2 * n) now delay period (by rw [ht]; exact hs.2)
  have hsch := (heard_ticks h hs.1).subset hx
  constructor
  · rw [← ht, hm] at hsch
    unfold schedule at hsch
    obtain ⟨k, -, rfl⟩ := List.mem_map.mp hsch
    have := Int.mul_nonneg (Int.natCast_nonneg k) ((inv h).pos _ _ _ _ _ hs.2).2
    omega
  · obtain ⟨k, b, hm⟩ := EasyTimer.mem_ticks hsch
    have h1 := C32_never_early a ha _ _ _ _ (by rw [ht]; exact hm)
    have h2 := (inv h).clock _ _ _ _ hm
    omega

/-- C119.  When the timer thread is not in a callback of the object and all its fibers have returned, the callback has been called for every tick of the timer thread. -/
theorem C119_complete {t0 : Int} {w : World} (h : EasyTimer.Reachable t0 w) {i q n id : Nat} {now delay period : Int} (hs : Started w i q n id now delay period) (hu : Undisturbed w i q)
    (hq : Settled w i) : heard w i q = ticks id w.sched.trace := (heard_all h hs.1 hu).2 hq

/-- C119.  If nothing takes time but sleep, then no time of the schedule of a timer which has been neither stopped nor abandoned is missed: when it is over and the fibers have returned, the callback has
been called with it. -/
theorem C119_punctual {t0 : Int} {w : World} (h : EasyTimer.Reachable t0 w) {i q n id : Nat} {now delay period : Int} (hs : Started w i q n id now delay period) (hu : Undisturbed w i q)
    (hq : Settled w i) (hp : TimerHeap.Punctual { clock := t0 } w.done.reverse) (ha : .released (2 * n) ∉ w.sched.trace) (k : Nat) (hk : period = 0 → k = 0)
    (hc : now + delay + k * period < w.sched.clock) : now + delay + k * period ∈ heard w i q := by
  rw [C119_complete h hs hu hq]
  have := C108_fires t0 w.done.reverse w.sched hp (inv h).run id (2 * n) now delay period hs.2 ha k hk hc
  exact EasyTimer.ticks_mem this

/-- C119.  The callback is called by one fiber at a time, and while it runs the timer that has been passed to it exists. -/
theorem C119_callback {t0 : Int} {w : World} (h : EasyTimer.Reachable t0 w) {i q f : Nat} :
    (∀ post pre x, (w.ends i).trace = post ++ .called f q x :: pre → EasyQueue.running pre q = none) ∧
    (EasyQueue.running (w.ends i).trace q = some f → EasyQueue.socketAlive (w.ends i) q = true) :=
  ⟨fun _ _ _ ht => C71_not_concurrent ((inv h).easy i) ht, fun hr => (C71_alive ((inv h).easy i) hr).2⟩

theorem easyTimer_run_reachable {t0 : Int} {w w' : World} (h : EasyTimer.Reachable t0 w) : ∀ {as : List EasyTimer.Act}, EasyTimer.run w as = some w' → EasyTimer.Reachable t0 w'
  | [], hr => by simp only [EasyTimer.run, Option.some.injEq] at hr; subst hr; exact h
  | a :: as, hr => by
    simp only [EasyTimer.run] at hr
    split at hr
    · cases hr
    · rename_i s hs
      exact easyTimer_run_reachable (.step a h hs) hr

theorem noFail {α : Type} {t : List (EasyQueue.Ev α)} (h : (t.all fun e => match e with | .failed _ _ => false | _ => true) = true) (q : Nat) (x : α) : .failed q x ∉ t := by
  intro hm
  exact absurd (List.all_eq_true.mp h _ hm) (by simp)

/-- Two easy timers: the first one goes off at 100 and 150, the second one at 130 only. -/
def easyTimerActs : List EasyTimer.Act :=
  [.sched (.loop [] [] 0), .start 0 100 50 0 [⟨0, 0, 100, 50⟩], .easy 0 .assign, .easy 0 .assign, .start 1 130 0 0 [⟨0, 0, 100, 50⟩, ⟨1, 2, 130, 0⟩], .easy 1 .assign, .easy 1 .assign, .sched (.loop [] [] 0),
   .sched (.pass 100), .sched .wake, .sched (.loop [⟨1, 2, 130, 0⟩, ⟨0, 0, 100, 50⟩] [⟨1, 2, 130, 0⟩, ⟨0, 0, 150, 50⟩] 0), .call, .easy 0 (.push .no), .sched (.loop [] [] 0), .easy 0 (.resume 0),
   .easy 0 (.enter 0), .easy 0 (.pop 0), .sched (.pass 30), .sched .wake, .sched (.loop [⟨0, 0, 150, 50⟩, ⟨1, 2, 130, 0⟩] [] 0), .call, .easy 1 (.push .no), .sched (.loop [] [] 0), .easy 1 (.resume 0),
   .easy 1 (.enter 0), .easy 1 (.pop 0), .sched (.pass 20), .sched .wake, .sched (.loop [⟨0, 0, 150, 50⟩] [⟨0, 0, 200, 50⟩] 0), .call, .easy 0 (.push .no), .sched (.loop [] [] 0), .sched (.pass 10),
   .easy 0 (.back 0), .easy 0 (.enter 0), .easy 0 (.pop 0), .easy 0 (.back 0), .easy 0 (.enter 0), .easy 0 (.pop 0)]

def easyTimerDone : List TimerHeap.Act :=
  [.loop [] [] 0, .insert 0 100 50 0 [⟨0, 0, 100, 50⟩], .insert 2 130 0 0 [⟨0, 0, 100, 50⟩, ⟨1, 2, 130, 0⟩], .loop [] [] 0, .pass 100, .wake,
   .loop [⟨1, 2, 130, 0⟩, ⟨0, 0, 100, 50⟩] [⟨1, 2, 130, 0⟩, ⟨0, 0, 150, 50⟩] 0, .call, .loop [] [] 0, .pass 30, .wake, .loop [⟨0, 0, 150, 50⟩, ⟨1, 2, 130, 0⟩] [] 0, .call, .loop [] [] 0, .pass 20, .wake,
   .loop [⟨0, 0, 150, 50⟩] [⟨0, 0, 200, 50⟩] 0, .call, .loop [] [] 0, .pass 10]

example : ∃ w, EasyTimer.Reachable 0 w ∧ Started w 0 0 0 0 0 100 50 ∧ Started w 1 0 1 1 0 130 0 ∧ heard w 0 0 = [100, 150] ∧ heard w 1 0 = [130] ∧ Undisturbed w 0 0 ∧ Settled w 0 ∧
    w.done.reverse = easyTimerDone ∧ .released 0 ∉ w.sched.trace ∧ w.sched.clock = 160 :=
  ⟨_, easyTimer_run_reachable .init (show EasyTimer.run { sched := { clock := 0 } } easyTimerActs = some _ from rfl), ⟨by decide +kernel, by decide +kernel⟩, ⟨by decide +kernel, by decide +kernel⟩,
    by decide +kernel, by decide +kernel, ⟨by decide +kernel, fun x hx => noFail (by decide +kernel) 0 x hx⟩, ⟨by decide +kernel, by decide +kernel⟩, by decide +kernel, by decide +kernel, by decide +kernel⟩

example : TimerHeap.Punctual { clock := 0 } easyTimerDone := by
  refine ⟨rfl, ?_⟩; rintro _ ⟨⟩
  refine ⟨rfl, ?_⟩; rintro _ ⟨⟩
  refine ⟨rfl, ?_⟩; rintro _ ⟨⟩
  refine ⟨rfl, ?_⟩; rintro _ ⟨⟩
  refine ⟨⟨_, _, rfl, by simp⟩, ?_⟩; rintro _ ⟨⟩
  refine ⟨trivial, ?_⟩; rintro _ ⟨⟩
  refine ⟨rfl, ?_⟩; rintro _ ⟨⟩
  refine ⟨trivial, ?_⟩; rintro _ ⟨⟩
  refine ⟨rfl, ?_⟩; rintro _ ⟨⟩
  refine ⟨⟨_, _, rfl, by simp⟩, ?_⟩; rintro _ ⟨⟩
  refine ⟨trivial, ?_⟩; rintro _ ⟨⟩
  refine ⟨rfl, ?_⟩; rintro _ ⟨⟩
  refine ⟨trivial, ?_⟩; rintro _ ⟨⟩
  refine ⟨rfl, ?_⟩; rintro _ ⟨⟩
  refine ⟨⟨_, _, rfl, by simp⟩, ?_⟩; rintro _ ⟨⟩
  refine ⟨trivial, ?_⟩; rintro _ ⟨⟩
  refine ⟨rfl, ?_⟩; rintro _ ⟨⟩
  refine ⟨trivial, ?_⟩; rintro _ ⟨⟩
  refine ⟨rfl, ?_⟩; rintro _ ⟨⟩
  refine ⟨⟨_, _, rfl, by simp⟩, ?_⟩; rintro _ ⟨⟩
  trivial

end Verif.Props
