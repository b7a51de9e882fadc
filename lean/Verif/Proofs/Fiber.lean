import Verif.Spec.Fiber
namespace Verif.Fiber

@[simp] theorem upd_same {α : Type} (f : Nat → α) (k : Nat) (v : α) : upd f k v k = v := by simp [upd]
theorem upd_other {α : Type} (f : Nat → α) {k i : Nat} (v : α) (h : i ≠ k) : upd f k v i = f i := by simp [upd, h]

/-- The possible outcomes of a step. -/
inductive Case (s : Sys) : Sys → Prop
  | tick (d) : Case s { s with clock := s.clock + d }
  | launch (v) (hl : s.pc.locked = false) (hv : v ≤ s.clock) : Case s (launch s v)
  | abandon (k) (hk : k < s.ids) : Case s { s with dead := k :: s.dead, trace := .abandoned k :: s.trace }
  | nop : Case s s
  | call (t f) (ht : s.thr t = .idle) (hl : (s.fut f).locked = false) (hi : (s.fut f).init = false) :
      Case s { s with fut := upd s.fut f { s.fut f with locked := true }, thr := upd s.thr t (.initing f), trace := .initBegan f :: s.trace }
  | escape (t f) (ht : s.thr t = .initing f) :
      Case s { s with fut := upd s.fut f { s.fut f with locked := false }, thr := upd s.thr t .idle, trace := .initEnded f .foreign :: s.trace }
  | complete (t f e) (ht : s.thr t = .initing f) (he : e ≠ .foreign) :
      Case s { s with
        fut := upd s.fut f { init := true, locked := false, failed := e == .threw, waiters := [] }
        thr := upd s.thr t (.notifying f s.clock (s.fut f).waiters)
        trace := .completed f :: .initEnded f e :: s.trace }
  | notify (t f since k v todo) (ht : s.thr t = .notifying f since (k :: todo)) (hv : v ≤ s.clock) (hk : k ∈ s.pq) :
      Case s { s with
        fib := upd s.fib k { s.fib k with async := v }
        thr := upd s.thr t (.notifying f since todo)
        trace := .notified f k :: s.trace }
  | gone (t f since k todo) (ht : s.thr t = .notifying f since (k :: todo)) (hk : k ∉ s.pq) :
      Case s { s with thr := upd s.thr t (.notifying f since todo), trace := .gone f k :: s.trace }
  | finalize (t f since) (ht : s.thr t = .notifying f since []) : Case s { s with thr := upd s.thr t .idle, trace := .finalized f :: s.trace }
  | choose (hp : s.pc = .idle) (hd : due s s.clock = true) : Case s { s with pc := .choosing s.clock }
  | startScan (hp : s.pc = .idle) (hd : due s s.clock = false) : Case s { s with pc := .scanning 0 s.clock, trace := .scanBegan :: s.trace }
  | scan (i now k) (hp : s.pc = .scanning i now) (hk : s.pq[i]? = some k) :
      Case s { s with fib := upd s.fib k { s.fib k with check := (s.fib k).async }, pc := .scanning (i + 1) now, trace := .scanned k :: s.trace }
  | endScan (now) (hp : s.pc = .scanning s.pq.length now) (hz : sleepTime s now = 0) :
      Case s { s with wait := 0, pc := .choosing now, trace := .scanEnded :: s.trace }
  | sleep (now) (hp : s.pc = .scanning s.pq.length now) (hz : sleepTime s now ≠ 0) :
      Case s { s with wait := sleepTime s now, pc := .idle, trace := .slept (sleepTime s now) :: .scanEnded :: s.trace }
  | remove (k now) (hp : s.pc = .choosing now) (hk : k ∈ s.pq) (hc : ((s.fib k).state = .pending ∧ k ∈ s.dead) ∨ (s.fib k).state = .terminated)
      (hmin : ∀ j ∈ s.pq, (s.fib k).check ≤ (s.fib j).check) :
      Case s { s with pq := s.pq.filter fun i => i != k, pc := .idle, trace := .removed k :: s.trace }
  | pick (k now) (hp : s.pc = .choosing now) (hk : k ∈ s.pq) (hmin : ∀ j ∈ s.pq, (s.fib k).check ≤ (s.fib j).check)
      (hc : ¬ (((s.fib k).state = .pending ∧ k ∈ s.dead) ∨ (s.fib k).state = .terminated)) (next : Nat)
      (hn : next = min ((s.fib k).check + s.warn) ((s.fib k).yield + s.fail)) :
      Case s { s with
        fib := upd s.fib k { s.fib k with async := if (s.fib k).async = (s.fib k).check then next else (s.fib k).async, check := next }
        pc := .looking k now
        trace := .picked k :: s.trace }
  | pass (k now f) (hp : s.pc = .looking k now) (hf : (s.fib k).wfut = some f) (ht : now < (s.fib k).yield + s.fail) (hi : (s.fut f).init = false) :
      Case s { s with pc := .idle }
  | begin_ (k now) (hp : s.pc = .looking k now) (hst : (s.fib k).state = .pending) :
      Case s { s with fib := upd s.fib k { s.fib k with state := .running }, pc := .running k, trace := .began k :: s.trace }
  | resume (k now ok) (hp : s.pc = .looking k now) (hst : (s.fib k).state ≠ .pending)
      (hf : ∀ f, (s.fib k).wfut = some f → (s.fut f).init = true ∨ (s.fib k).yield + s.fail ≤ now)
      (hok : ok = ((match (s.fib k).wfut with | none => true | some f => (s.fut f).init) && decide (k ∉ s.dead))) :
      Case s { s with fib := upd s.fib k { s.fib k with state := .running, wfut := none }, pc := .running k, trace := .resumed k (s.fib k).wfut now ok :: s.trace }
  | yieldOn (k f) (hp : s.pc = .running k) :
      Case s { s with fib := upd s.fib k { s.fib k with wfut := some f, yield := s.clock, async := s.clock }, pc := .yielding k f }
  | yield (k) (hp : s.pc = .running k) :
      Case s { s with
        fib := upd s.fib k { s.fib k with wfut := none, yield := s.clock, async := s.clock, state := .suspended }
        pc := .idle
        trace := .suspended k none s.clock :: s.trace }
  | noWait (k f) (hp : s.pc = .yielding k f) (hl : (s.fut f).locked = false) (hi : (s.fut f).init = true) :
      Case s { s with pc := .running k, trace := .returned k f :: s.trace }
  | register (k f) (hp : s.pc = .yielding k f) (hl : (s.fut f).locked = false) (hi : (s.fut f).init = false) :
      Case s { s with
        fut := upd s.fut f { s.fut f with waiters := (s.fut f).waiters ++ [k] }
        fib := upd s.fib k { s.fib k with state := .suspended }
        pc := .idle
        trace := .suspended k (some f) (s.fib k).yield :: .waits f k :: s.trace }
  | finish (k) (hp : s.pc = .running k) :
      Case s { s with fib := upd s.fib k { s.fib k with state := .terminated, async := s.clock }, pc := .idle, trace := .finished k :: s.trace }

theorem enterFiber_case {s k now} (hp : s.pc = .looking k now)
    (hf : ∀ f, (s.fib k).wfut = some f → (s.fut f).init = true ∨ (s.fib k).yield + s.fail ≤ now) : Case s (enterFiber s k now) := by
  unfold enterFiber
  dsimp only
  split
  · exact .begin_ k now hp (by assumption)
  · exact .resume k now _ hp (by intro h; contradiction) hf rfl

theorem step_case {s a s'} (h : step s a = some s') : Case s s' := by
  cases a with
  | tick d => cases h; exact .tick d
  | launch v =>
    simp only [step] at h
    split at h
    · rename_i hc; cases h; exact .launch v hc.1 hc.2
    · exact nomatch h
  | abandon k =>
    simp only [step] at h
    split at h
    · rename_i hc; cases h; exact .abandon k hc
    · exact nomatch h
  | call t f =>
    simp only [step] at h
    split at h
    · rename_i hc
      split at h
      · cases h; exact .nop
      · rename_i hi; cases h; exact .call t f hc.1 hc.2 (by simpa using hi)
    · exact nomatch h
  | exit t e =>
    simp only [step] at h
    split at h
    · rename_i f ht
      cases h
      cases e with
      | foreign => exact .escape t f ht
      | ok => exact .complete t f .ok ht (by decide)
      | threw => exact .complete t f .threw ht (by decide)
    · exact nomatch h
  | notify t v =>
    simp only [step] at h
    split at h
    · rename_i f since k todo ht
      split at h
      · rename_i hv
        cases h
        unfold notify
        split
        · exact .notify t f since k v todo ht hv.2 (by assumption)
        · exact .gone t f since k todo ht (by assumption)
      · exact nomatch h
    · exact nomatch h
  | finalize t =>
    simp only [step] at h
    split at h
    · cases h; exact .finalize t _ _ (by assumption)
    · exact nomatch h
  | enter =>
    simp only [step] at h
    split at h
    · split at h
      · cases h; exact .choose (by assumption) (by assumption)
      · cases h; exact .startScan (by assumption) (by simpa using ‹¬ due s s.clock = true›)
    · exact nomatch h
  | scan =>
    simp only [step] at h
    split at h
    · split at h
      · cases h; exact .scan _ _ _ (by assumption) (by assumption)
      · exact nomatch h
    · exact nomatch h
  | endScan =>
    simp only [step] at h
    split at h
    · rename_i i now hp
      split at h
      · rename_i hi
        subst hi
        split at h
        · cases h; exact .endScan now hp (by assumption)
        · cases h; exact .sleep now hp (by assumption)
      · exact nomatch h
    · exact nomatch h
  | pick k =>
    simp only [step] at h
    split at h
    · rename_i now hp
      split at h
      · rename_i hc
        cases h
        unfold pick
        dsimp only
        split
        · exact .remove k now hp hc.1 (by assumption) (fun j hj => of_decide_eq_true (List.all_eq_true.1 hc.2 j hj))
        · exact .pick k now hp hc.1 (fun j hj => of_decide_eq_true (List.all_eq_true.1 hc.2 j hj)) (by assumption) _ rfl
      · exact nomatch h
    · exact nomatch h
  | look =>
    simp only [step] at h
    split at h
    · rename_i k now hp
      cases h
      unfold look
      split
      · rename_i hw; exact enterFiber_case hp (fun f hf => by rw [hw] at hf; exact nomatch hf)
      · rename_i f hw
        split
        · rename_i hc; exact .pass k now f hp hw hc.1 hc.2
        · rename_i hc
          refine enterFiber_case hp (fun g hg => ?_)
          rw [hw] at hg
          cases hg
          by_cases hi : (s.fut f).init = true
          · exact .inl hi
          · exact .inr (Nat.le_of_not_lt fun hlt => hc ⟨hlt, by simpa using hi⟩)
    · exact nomatch h
  | yield f =>
    simp only [step] at h
    split at h
    · cases h
      unfold yield
      split
      · exact .yieldOn _ _ (by assumption)
      · exact .yield _ (by assumption)
    · exact nomatch h
  | register =>
    simp only [step] at h
    split at h
    · split at h
      · exact nomatch h
      · cases h
        unfold register
        split
        · exact .noWait _ _ (by assumption) (by simpa using ‹¬ _ = true›) (by assumption)
        · exact .register _ _ (by assumption) (by simp_all) (by simp_all)
    · exact nomatch h
  | finish =>
    simp only [step] at h
    split at h
    · cases h; exact .finish _ (by assumption)
    · exact nomatch h

end Verif.Fiber
