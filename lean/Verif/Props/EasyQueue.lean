import Verif.Proofs.EasyQueue
/-!
# C71: easy UDP sockets and timers

`arrivals` and `calls` say what has arrived (packets, or ticks of a timer) since some call of `start()`, which is told apart by a number, and what has been passed to its callback; `running` says which fiber is in the
callback.  Traces have the newest event first.
-/
namespace Verif.Props
open Verif.EasyQueue

theorem easyQueue_run_reachable {s s' : Sys α} (h : Reachable s) : ∀ {as : List (Act α)}, run s as = some s' → Reachable s'
  | [], hr => by simp only [run, Option.some.injEq] at hr; subst hr; exact h
  | a :: as, hr => by
    simp only [run] at hr
    split at hr
    · cases hr
    · rename_i s'' hs
      exact easyQueue_run_reachable (.step h hs) hr

/-- C71.  What has been passed to the callback is what has arrived, each packet once and in order, up to some point. -/
theorem C71_order {s : Sys α} (hs : Reachable s) (q : Nat) : calls s.trace q <+: arrivals s.trace q := by
  by_cases h : q < s.queues.length
  · exact ⟨_, ((inv hs).seq q _ (List.getElem?_eq_getElem h)).symm⟩
  · have := (inv hs).fresh q (by omega)
    rw [this.1, this.2.1]; exact List.prefix_rfl

/-- C71.  The callback is called only if no call of it is running. -/
theorem C71_not_concurrent {s : Sys α} (hs : Reachable s) {post pre : List (Ev α)} {f q : Nat} {x : α} (ht : s.trace = post ++ .called f q x :: pre) : running pre q = none :=
  (Hist.at (ht ▸ (inv hs).hist) : Lawful pre (.called f q x)).1

/-- C71.  If something has arrived but has not been passed to the callback, then there is a fiber for it, unless `stop()`, or another `start()`, has been called. -/
theorem C71_pending {s : Sys α} (hs : Reachable s) {q : Nat} (hne : calls s.trace q ≠ arrivals s.trace q) :
    (∃ (f : Nat) (x : Fiber), s.fibs[f]? = some x ∧ x.qid = q ∧ x.st ≠ .done) ∨ .stopped q ∈ s.trace := by
  by_cases h : q < s.queues.length
  · have hq := List.getElem?_eq_getElem h
    have h1 := (inv hs).seq q _ hq
    have h2 := (inv hs).pend q _ hq (fun he => by rw [he, List.append_nil] at h1; exact hne h1.symm)
    rcases (inv hs).own q h with ho | ho | ho
    · exact Or.inl ((inv hs).back q _ hq h2 ((queueAlive_iff s q).mpr (Or.inl ho)))
    · exact Or.inl ((inv hs).back q _ hq h2 ((queueAlive_iff s q).mpr (Or.inr (Or.inl ho))))
    · exact Or.inr ho
  · have := (inv hs).fresh q (by omega)
    rw [this.1, this.2.1] at hne
    exact absurd rfl hne

/-- C71.  Once all fibers have returned, everything that has arrived has been passed to the callback, unless `stop()`, or another `start()`, has been called. -/
theorem C71_delivered {s : Sys α} (hs : Reachable s) (hd : ∀ x ∈ s.fibs, x.st = .done) {q : Nat} (hn : .stopped q ∉ s.trace) : calls s.trace q = arrivals s.trace q :=
  Classical.byContradiction fun hne => (C71_pending hs hne).elim (fun ⟨_, x, hf, _, hx⟩ => hx (hd x (List.mem_iff_getElem?.mpr ⟨_, hf⟩))) hn

/-- C71.  While the callback is running, the socket that has been passed to it exists, and so does the queue, even if `stop()` has been called. -/
theorem C71_alive {s : Sys α} (hs : Reachable s) {q f : Nat} (hr : running s.trace q = some f) : queueAlive s q = true ∧ socketAlive s q = true := by
  obtain ⟨y, hy, hq, hst⟩ := ((inv hs).run q f).mp hr
  have : (s.fibs.any fun x => x.qid == q && x.st.holds) = true := any_holds.mpr ⟨f, y, hy, hq, by rw [hst]; rfl⟩
  constructor
  · unfold queueAlive; rw [this, Bool.or_true]
  · unfold socketAlive; rw [this, Bool.or_true]

/-- C71.  Something is ignored only after `stop()`, or another `start()`, has been called. -/
theorem C71_ignored {s : Sys α} (hs : Reachable s) {post pre : List (Ev α)} {q : Nat} {x : α} (ht : s.trace = post ++ .ignored q x :: pre) : .stopped q ∈ pre :=
  (Hist.at (ht ▸ (inv hs).hist) : Lawful pre (.ignored q x))

/-- C71.  A fiber that waits in no callback can go on: it takes the next packet, or returns. -/
theorem C71_progress {s : Sys α} (hs : Reachable s) {f : Nat} {x : Fiber} (hf : s.fibs[f]? = some x) (hc : s.cur = some f) : x.st ≠ .done →
    ∃ a s', (a = .enter f ∨ a = .pop f ∨ a = .back f) ∧ step s a = some s' := by
  intro hd
  obtain ⟨qu, hqu⟩ := (inv hs).getQ hf
  cases hst : x.st with
  | done => exact absurd hst hd
  | ready =>
    cases h : queueAlive s x.qid && socketAlive s x.qid
    · exact ⟨.enter f, _, Or.inl rfl, by simp only [step, hc, if_true, hf, hst, h, Bool.false_eq_true, if_false]; rfl⟩
    · exact ⟨.enter f, _, Or.inl rfl, by simp only [step, hc, if_true, hf, hst, h]; rfl⟩
  | entered =>
    cases hp : qu.packets with
    | nil => exact ⟨.pop f, _, Or.inr (Or.inl rfl), by simp only [step, hc, if_true, hf, hst, pop, hqu, hp]; rfl⟩
    | cons y r => exact ⟨.pop f, _, Or.inr (Or.inl rfl), by simp only [step, hc, if_true, hf, hst, pop, hqu, hp]; rfl⟩
  | calling => exact ⟨.back f, _, Or.inr (Or.inr rfl), by simp only [step, hc, if_true, hf, hst]; rfl⟩

/-- No one refers to a queue, but the fiber in the callback. -/
structure EasyQuiet (s : Sys α) (q : Nat) : Prop where
  own : s.ownQ ≠ some q
  user : s.user ≠ .created q
  net : ∀ x, s.net ≠ some (q, x)
  fib : ∀ (f : Nat) (y : Fiber), s.fibs[f]? = some y → y.qid = q → y.st ≠ .entered

theorem easyQuiet_setOwn {s : Sys α} {q : Nat} (h : EasyQuiet s q) (o : Option Nat) (u : User) (ho : o ≠ some q) (hu : u ≠ .created q) :
    EasyQuiet { setOwn s o with user := u } q ∧ calls { setOwn s o with user := u }.trace q = calls s.trace q := by
  have hf := setOwn_fields s o
  refine ⟨⟨?_, hu, ?_, ?_⟩, (setOwn_trace s o q).2.1⟩
  · show (setOwn s o).ownQ ≠ _; rw [hf.2.1]; exact ho
  · show ∀ x, (setOwn s o).net ≠ _; rw [hf.2.2.2.1]; exact h.net
  · show ∀ (f : Nat) (y : Fiber), (setOwn s o).fibs[f]? = some y → _; rw [hf.2.2.2.2.1]; exact h.fib

/-- Without new packets, a queue stays quiet. -/
theorem easyQuiet_step {s s' : Sys α} {a : Act α} {q : Nat} (hs : Reachable s) (hq : q < s.queues.length) (h : EasyQuiet s q) (hst : step s a = some s') (ha : ∀ x, a ≠ .packet q x)
    (hfib : ∀ f, a = .enter f → ∀ (y : Fiber), s.fibs[f]? = some y → y.qid = q → ∀ (g : Nat) (z : Fiber), s.fibs[g]? = some z → z.qid = q → z.st ≠ .calling) :
    EasyQuiet s' q ∧ calls s'.trace q = calls s.trace q ∧ q < s'.queues.length := by
  have keep : ∀ (f : Nat) (x : Fiber) (st : FSt), s.fibs[f]? = some x → (x.qid = q → st ≠ .entered) → ∀ (g : Nat) (y : Fiber), (setFib s f st)[g]? = some y → y.qid = q → y.st ≠ .entered := by
    intro f x st hf he g y hy hyq
    rcases setFib_some hf hy with ⟨rfl, rfl⟩ | ⟨_, hy⟩
    · exact he hyq
    · exact h.fib g y hy hyq
  cases a with
  | create =>
    simp only [step] at hst
    split at hst
    · simp only [Option.some.injEq] at hst
      subst hst
      exact ⟨⟨h.own, fun he => by cases he; omega, h.net, h.fib⟩, rfl, by simp; omega⟩
    · cases hst
  | assign =>
    simp only [step] at hst
    split at hst
    · rename_i p hu
      simp only [Option.some.injEq] at hst
      subst hst
      have := easyQuiet_setOwn h (some p) (.assigned p) (fun he => h.user (by rw [hu]; cases he; rfl)) (by simp)
      exact ⟨this.1, this.2, by show q < (setOwn s (some p)).queues.length; rw [(setOwn_fields s _).1]; exact hq⟩
    · simp only [Option.some.injEq] at hst
      subst hst
      exact ⟨⟨h.own, by simp, h.net, h.fib⟩, rfl, hq⟩
    · cases hst
  | stop =>
    simp only [step] at hst
    split at hst
    · simp only [Option.some.injEq] at hst
      subst hst
      have := easyQuiet_setOwn h none .stopping (by simp) (by simp)
      exact ⟨this.1, this.2, by show q < (setOwn s none).queues.length; rw [(setOwn_fields s _).1]; exact hq⟩
    · simp only [Option.some.injEq] at hst
      subst hst
      exact ⟨⟨h.own, by simp, h.net, h.fib⟩, rfl, hq⟩
    · cases hst
  | packet p x =>
    have hpq : p ≠ q := fun he => ha x (by rw [he])
    simp only [step] at hst
    split at hst
    · split at hst
      · simp only [Option.some.injEq] at hst
        subst hst
        exact ⟨⟨h.own, h.user, fun y he => by cases he; exact hpq rfl, h.fib⟩, rfl, hq⟩
      · simp only [Option.some.injEq] at hst
        subst hst
        exact ⟨⟨h.own, h.user, h.net, h.fib⟩, rfl, hq⟩
    · cases hst
  | push fail =>
    simp only [step] at hst
    split at hst
    · rename_i p x hn
      unfold push at hst
      split at hst
      · cases hst
      · rename_i qu hqu
        have hf : ∀ (f : Nat) (y : Fiber), (if qu.active then s.fibs else s.fibs ++ [{ qid := p }])[f]? = some y → y.qid = q → y.st ≠ .entered := by
          intro f y hy hyq
          split at hy
          · exact h.fib f y hy hyq
          · rw [List.getElem?_append] at hy
            split at hy
            · exact h.fib f y hy hyq
            · have := List.mem_of_getElem? hy
              simp only [List.mem_singleton] at this
              rw [this]; simp
        cases fail with
        | launch =>
          simp only at hst
          split at hst
          · cases hst
          · simp only [Option.some.injEq] at hst
            subst hst
            exact ⟨⟨h.own, h.user, nofun, h.fib⟩, rfl, hq⟩
        | push =>
          simp only [Option.some.injEq] at hst
          subst hst
          exact ⟨⟨h.own, h.user, nofun, hf⟩, rfl, by simpa using hq⟩
        | no =>
          simp only [Option.some.injEq] at hst
          subst hst
          exact ⟨⟨h.own, h.user, nofun, hf⟩, rfl, by simpa using hq⟩
    · cases hst
  | resume f =>
    simp only [step] at hst
    split at hst
    · split at hst
      · split at hst
        · cases hst
        · simp only [Option.some.injEq] at hst
          subst hst
          exact ⟨⟨h.own, h.user, h.net, h.fib⟩, rfl, hq⟩
      · cases hst
    · cases hst
  | enter f =>
    simp only [step] at hst
    split at hst
    · split at hst
      · rename_i x hx
        split at hst
        · rename_i hrd
          split at hst
          · rename_i hal
            simp only [Option.some.injEq] at hst
            subst hst
            refine ⟨⟨h.own, h.user, h.net, keep f x _ hx fun hxq _ => ?_⟩, rfl, hq⟩
            simp only [Bool.and_eq_true, queueAlive_iff, hxq] at hal
            rcases hal.1 with he | he | ⟨y, he⟩ | ⟨g, y, hy, hyq, hh⟩
            · exact h.own he
            · exact h.user he
            · exact h.net y he
            · have h1 := h.fib g y hy hyq
              have h2 := hfib f rfl x hx hxq g y hy hyq
              cases hys : y.st <;> simp [hys, FSt.holds] at hh h1 h2
          · simp only [Option.some.injEq] at hst
            subst hst
            exact ⟨⟨h.own, h.user, h.net, keep f x _ hx fun _ => by simp⟩, rfl, hq⟩
        · cases hst
      · cases hst
    · cases hst
  | pop f =>
    simp only [step] at hst
    split at hst
    · split at hst
      · rename_i x hx
        split at hst
        · rename_i hent
          have hxq : x.qid ≠ q := fun he => h.fib f x hx he hent
          unfold pop at hst
          split at hst
          · cases hst
          · split at hst
            · simp only [Option.some.injEq] at hst
              subst hst
              exact ⟨⟨h.own, h.user, h.net, keep f x _ hx fun _ => by simp⟩, rfl, by simpa using hq⟩
            · simp only [Option.some.injEq] at hst
              subst hst
              exact ⟨⟨h.own, h.user, h.net, keep f x _ hx fun _ => by simp⟩, by simp only [calls]; rw [if_neg hxq], by simpa using hq⟩
        · cases hst
      · cases hst
    · cases hst
  | yield f =>
    simp only [step] at hst
    split at hst
    · split at hst
      · split at hst
        · simp only [Option.some.injEq] at hst
          subst hst
          exact ⟨⟨h.own, h.user, h.net, h.fib⟩, rfl, hq⟩
        · cases hst
      · cases hst
    · cases hst
  | back f =>
    simp only [step] at hst
    split at hst
    · split at hst
      · rename_i x hx
        split at hst
        · simp only [Option.some.injEq] at hst
          subst hst
          exact ⟨⟨h.own, h.user, h.net, keep f x _ hx fun _ => by simp⟩, rfl, hq⟩
        · cases hst
      · cases hst
    · cases hst

/-- C71.  After `stop()`, or another `start()`, the callback is not called any more, unless a packet is being received, or the fiber is about to take one.  (See `C71_after_stop` for these cases.) -/
theorem C71_stop_partial {s s' : Sys α} {q : Nat} (hs : Reachable s) (hq : q < s.queues.length) (h : EasyQuiet s q) {as : List (Act α)} (ha : ∀ x, .packet q x ∉ as) (hr : run s as = some s') :
    calls s'.trace q = calls s.trace q := by
  induction as generalizing s with
  | nil => simp only [run, Option.some.injEq] at hr; subst hr; rfl
  | cons a as ih =>
    simp only [run] at hr
    split at hr
    · cases hr
    · rename_i s1 hst
      have hi := inv hs
      have := easyQuiet_step hs hq h hst (fun x he => ha x (by rw [he]; exact .head _)) (by
        intro f hae y hy hyq g z hz hzq hc
        subst hae
        have hyd : y.st = .ready := by
          simp only [step, hy] at hst
          split at hst
          · split at hst
            · assumption
            · cases hst
          · cases hst
        have he := hi.uniq f y g z hy hz (hyq.trans hzq.symm) (by rw [hyd]; simp) (by rw [hc]; simp)
        subst he
        rw [hy] at hz; cases hz
        rw [hyd] at hc; cases hc)
      rw [ih (.step hs hst) this.2.2 this.1 (fun x hx => ha x (.tail _ hx)) hr, this.2.1]

/-- Packets arrive before and while a callback waits; a launch fails; the callback stops the server and starts another one. -/
def easyQueueDemo : List (Act Nat) :=
  [.create, .assign, .assign, .packet 0 10, .push .no, .resume 0, .enter 0, .pop 0, .packet 0 11, .yield 0, .push .no, .packet 0 12, .push .push, .resume 0, .back 0, .enter 0, .pop 0, .packet 0 13, .push .no,
   .back 0, .enter 0, .pop 0, .back 0, .enter 0, .pop 0, .packet 0 14, .push .launch, .packet 0 15, .push .no, .resume 1, .enter 1, .pop 1, .back 1, .enter 1, .pop 1]

example : ∃ s, run {} easyQueueDemo = some s ∧ (∀ x ∈ s.fibs, x.st = .done) ∧ .stopped 0 ∉ s.trace ∧ calls s.trace 0 = [10, 11, 13, 15] ∧ s.fibs.length = 2 :=
  ⟨_, rfl, by decide +kernel, by decide +kernel, by decide +kernel, by decide +kernel⟩

/-- Something is pending, and the callback is running. -/
example : ∃ s : Sys Nat, Reachable s ∧ calls s.trace 0 ≠ arrivals s.trace 0 ∧ running s.trace 0 = some 0 ∧ .stopped 0 ∉ s.trace :=
  ⟨_, easyQueue_run_reachable .init (show run {} (easyQueueDemo.take 11) = some _ from rfl), by decide +kernel, by decide +kernel, by decide +kernel⟩

/-- The callback calls `stop()`, then returns, and the fiber quits, although something is pending. -/
example : ∃ s s' : Sys Nat, Reachable s ∧ EasyQuiet s 0 ∧ 0 < s.queues.length ∧ run s [.back 0, .enter 0] = some s' ∧ (∀ x ∈ s'.fibs, x.st = .done) ∧ calls s'.trace 0 = [10] ∧ arrivals s'.trace 0 = [10, 11] := by
  refine ⟨_, _, easyQueue_run_reachable .init (show run {} [.create, .assign, .assign, .packet 0 10, .push .no, .packet 0 11, .push .no, .resume 0, .enter 0, .pop 0, .stop, .stop] = some _ from rfl),
    ⟨by simp [setOwn], by simp, by simp [setOwn], ?_⟩, by decide, rfl, by decide +kernel, by decide +kernel, by decide +kernel⟩
  intro f y hf _
  have hl : ∀ y ∈ ([{ qid := 0, st := .calling }] : List Fiber), y.st ≠ .entered := by decide
  exact hl y (List.mem_of_getElem? hf)

/-- The callback stops the server that has called it. -/
example : ∃ s : Sys Nat, Reachable s ∧ running s.trace 0 = some 0 ∧ s.ownS = none ∧ s.ownQ = none ∧ socketAlive s 0 = true :=
  ⟨_, easyQueue_run_reachable .init (show run {} [.create, .assign, .assign, .packet 0 10, .push .no, .resume 0, .enter 0, .pop 0, .stop, .stop] = some _ from rfl), by decide, rfl, rfl, by decide⟩

/-- C71 is violated after `stop()`: the callback calls `stop()` and returns, while the network thread is receiving another packet and so has a reference to the queue; the fiber goes on with packets that are pending. -/
theorem C71_after_stop : ∃ (s : Sys Nat) (pre : List (Ev Nat)), Reachable s ∧ s.trace = .called 0 0 11 :: pre ∧ .stopped 0 ∈ pre ∧ s.ownQ = none ∧ s.ownS = none :=
  ⟨_, _, easyQueue_run_reachable .init (show run {} [.create, .assign, .assign, .packet 0 10, .push .no, .packet 0 11, .push .no, .resume 0, .enter 0, .pop 0, .packet 0 12, .stop, .stop, .back 0, .enter 0,
    .pop 0] = some _ from rfl), rfl, by decide, rfl, rfl⟩

end Verif.Props
