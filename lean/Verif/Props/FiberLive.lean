import Verif.Proofs.Live
import Verif.Spec.FiberLive
import Verif.Props.Fiber
/-!
# C127: fibers begin and are resumed
-/
namespace Verif.Props
open Verif.Fiber Verif.Live

theorem fl_reach {e : Exec Fiber.step} (hl : Fiber.Live e) (n : Nat) : Fiber.Reachable (e.st n) :=
  e.always (P := Fiber.Reachable) 0 hl.start (fun _ a _ h hs => .step a h hs) n (Nat.zero_le _)

theorem fl_conf {e : Exec Fiber.step} (n : Nat) : (e.st n).warn = (e.st 0).warn ∧ (e.st n).fail = (e.st 0).fail :=
  e.always (P := fun s => s.warn = (e.st 0).warn ∧ s.fail = (e.st 0).fail) 0 ⟨rfl, rfl⟩ (fun s a s' h hs => by cases step_case hs <;> exact h) n (Nat.zero_le _)

theorem fl_clock {s a s'} (h : Fiber.step s a = some s') : s.clock ≤ s'.clock := by
  cases step_case h <;> first | exact Nat.le_refl _ | exact Nat.le_add_right _ _

/-- When the scheduler is about to choose a fiber, there is one; and a scan does not go beyond the end. -/
theorem fl_inv {s} (h : Fiber.Reachable s) : (∀ now, s.pc = .choosing now → s.pq ≠ []) ∧ (∀ i now, s.pc = .scanning i now → i ≤ s.pq.length) := by
  induction h with
  | init => exact ⟨fun _ h => (nomatch h), fun _ _ h => nomatch h⟩
  | @step s s' a hr hs ih =>
    obtain ⟨h1, h2⟩ := ih
    cases step_case hs with
    | launch v hlk hv =>
      refine ⟨fun now h => ?_, fun i now h => ?_⟩
      · show s.pq ++ [_] ≠ []; simp
      · have := h2 i now h; show i ≤ (s.pq ++ [_]).length; simp; omega
    | choose hp hd =>
      refine ⟨fun now _ h => ?_, fun i now h => nomatch h⟩
      have h : s.pq = [] := h
      rw [due, h] at hd; exact nomatch hd
    | startScan hp hd => exact ⟨fun _ h => (nomatch h), fun i now h => by cases h; exact Nat.zero_le _⟩
    | scan i now k hp hk =>
      refine ⟨fun _ h => (nomatch h), fun i' now h => ?_⟩
      cases h
      exact (List.getElem?_eq_some_iff.1 hk).1
    | endScan now hp hz =>
      refine ⟨fun _ _ h => ?_, fun _ _ h => nomatch h⟩
      have h : s.pq = [] := h
      simp [sleepTime, least, h] at hz
    | _ => first | exact ⟨h1, h2⟩ | exact ⟨(by intro _ h; cases h), (by intro _ _ h; cases h)⟩

/-- How many steps the fiber thread is away from a fiber. -/
def flRank (s : Fiber.Sys) : Nat :=
  match s.pc with
  | .idle => 0
  | .scanning i _ => 3 + (s.pq.length - i)
  | .choosing _ => 2
  | .looking _ _ => 1
  | .running _ => 0
  | .yielding _ _ => 0

theorem fl_rank {s a s'} (h : Fiber.step s a = some s') (hi : s.pc ≠ .idle) (hr : flRank s ≠ 0) :
    (flRank s' ≤ flRank s ∧ (Sched a → flRank s' < flRank s)) := by
  unfold flRank at hr
  cases a with
  | tick d => cases h; exact ⟨Nat.le_refl _, fun h => by simp [Sched] at h⟩
  | launch v =>
    simp only [Fiber.step] at h
    split at h
    · rename_i hc
      cases h
      refine ⟨?_, fun h => by simp [Sched] at h⟩
      have hp : (launch s v).pc = s.pc := rfl
      unfold flRank
      rw [hp]
      cases hpc : s.pc with
      | scanning i now => rw [hpc] at hc; exact nomatch hc.1
      | _ => exact Nat.le_refl _
    · exact nomatch h
  | abandon k =>
    simp only [Fiber.step] at h
    split at h
    · cases h; exact ⟨Nat.le_refl _, fun h => by simp [Sched] at h⟩
    · exact nomatch h
  | call t f =>
    refine ⟨?_, fun h => by simp [Sched] at h⟩
    simp only [Fiber.step] at h
    split at h
    · split at h <;> (cases h; exact Nat.le_refl _)
    · exact nomatch h
  | exit t x =>
    refine ⟨?_, fun h => by simp [Sched] at h⟩
    simp only [Fiber.step] at h
    split at h
    · cases h; cases x <;> exact Nat.le_refl _
    · exact nomatch h
  | notify t v =>
    refine ⟨?_, fun h => by simp [Sched] at h⟩
    simp only [Fiber.step] at h
    split at h
    · split at h
      · cases h; unfold notify; split <;> exact Nat.le_refl _
      · exact nomatch h
    · exact nomatch h
  | finalize t =>
    refine ⟨?_, fun h => by simp [Sched] at h⟩
    simp only [Fiber.step] at h
    split at h
    · cases h; exact Nat.le_refl _
    · exact nomatch h
  | enter =>
    simp only [Fiber.step] at h
    split at h
    · contradiction
    · exact nomatch h
  | scan =>
    suffices h' : flRank s' < flRank s from ⟨Nat.le_of_lt h', fun _ => h'⟩
    simp only [Fiber.step] at h
    split at h
    · rename_i i now hp
      split at h
      · rename_i k hk
        cases h
        have := (List.getElem?_eq_some_iff.1 hk).1
        simp only [flRank, hp]
        omega
      · exact nomatch h
    · exact nomatch h
  | endScan =>
    suffices h' : flRank s' < flRank s from ⟨Nat.le_of_lt h', fun _ => h'⟩
    simp only [Fiber.step] at h
    split at h
    · rename_i i now hp
      split at h
      · split at h <;> (cases h; simp only [flRank, hp]; omega)
      · exact nomatch h
    · exact nomatch h
  | pick k =>
    suffices h' : flRank s' < flRank s from ⟨Nat.le_of_lt h', fun _ => h'⟩
    simp only [Fiber.step] at h
    split at h
    · rename_i now hp
      split at h
      · cases h
        have : (pick s k now).pc = .idle ∨ (pick s k now).pc = .looking k now := by unfold pick; dsimp only; split <;> simp
        simp only [flRank, hp]
        rcases this with h | h <;> rw [h] <;> simp
      · exact nomatch h
    · exact nomatch h
  | look =>
    suffices h' : flRank s' < flRank s from ⟨Nat.le_of_lt h', fun _ => h'⟩
    simp only [Fiber.step] at h
    split at h
    · rename_i k now hp
      cases h
      have he : (enterFiber s k now).pc = .running k := by unfold enterFiber; dsimp only; split <;> rfl
      have : (look s k now).pc = .idle ∨ (look s k now).pc = .running k := by
        unfold look
        split
        · exact .inr he
        · split
          · exact .inl rfl
          · exact .inr he
      simp only [flRank, hp]
      rcases this with h | h <;> rw [h] <;> simp
    · exact nomatch h
  | yield f =>
    exfalso
    simp only [Fiber.step] at h
    split at h
    · rename_i hp; rw [hp] at hr; exact hr rfl
    · exact nomatch h
  | register =>
    exfalso
    simp only [Fiber.step] at h
    split at h
    · rename_i hp; rw [hp] at hr; exact hr rfl
    · exact nomatch h
  | finish =>
    exfalso
    simp only [Fiber.step] at h
    split at h
    · rename_i hp; rw [hp] at hr; exact hr rfl
    · exact nomatch h

/-- A fiber for which no other has an earlier time. -/
theorem fl_least (l : List Nat) (g : Nat → Nat) (hl : l ≠ []) : ∃ k ∈ l, ∀ j ∈ l, g k ≤ g j := by
  induction l with
  | nil => exact absurd rfl hl
  | cons x l ih =>
    by_cases h : l = []
    · subst h; exact ⟨x, List.mem_cons_self .., fun j hj => by rw [List.mem_singleton.1 hj]; exact Nat.le_refl _⟩
    · obtain ⟨k, h1, h2⟩ := ih h
      by_cases hx : g x ≤ g k
      · refine ⟨x, List.mem_cons_self .., fun y hy => ?_⟩
        rcases List.mem_cons.1 hy with rfl | hy
        · exact Nat.le_refl _
        · exact Nat.le_trans hx (h2 y hy)
      · refine ⟨k, List.mem_cons_of_mem _ h1, fun y hy => ?_⟩
        rcases List.mem_cons.1 hy with rfl | hy
        · omega
        · exact h2 y hy

theorem fl_pick {s} (h : Fiber.Reachable s) (now : Nat) (hp : s.pc = .choosing now) : ∃ k, (Fiber.step s (.pick k)).isSome = true := by
  obtain ⟨k, h1, h2⟩ := fl_least s.pq (fun k => (s.fib k).check) ((fl_inv h).1 now hp)
  refine ⟨k, ?_⟩
  simp only [Fiber.step, hp]
  rw [if_pos ⟨h1, List.all_eq_true.2 fun j hj => decide_eq_true (h2 j hj)⟩]
  rfl

/-- Outside of fibers, the fiber thread can go on. -/
theorem fl_enabled {s} (h : Fiber.Reachable s) (hr : flRank s ≠ 0 ∨ s.pc = .idle) : Enabled Fiber.step Sched s := by
  cases hp : s.pc with
  | idle =>
    refine ⟨.enter, .inl rfl, ?_⟩
    simp only [Fiber.step, hp, if_true]
    split <;> rfl
  | scanning i now =>
    have := (fl_inv h).2 i now hp
    by_cases hi : i = s.pq.length
    · refine ⟨.endScan, .inr (.inr (.inl rfl)), ?_⟩
      simp only [Fiber.step, hp, if_pos hi]
      split <;> rfl
    · refine ⟨.scan, .inr (.inl rfl), ?_⟩
      have : s.pq[i]? = some s.pq[i] := List.getElem?_eq_getElem (by omega)
      simp only [Fiber.step, hp, this]
      rfl
  | choosing now =>
    obtain ⟨k, hk⟩ := fl_pick h now hp
    exact ⟨.pick k, .inr (.inr (.inr (.inl ⟨k, rfl⟩))), hk⟩
  | looking k now => exact ⟨.look, .inr (.inr (.inr (.inr (.inl rfl)))), by simp only [Fiber.step, hp]; rfl⟩
  | running k => rcases hr with hr | hr <;> simp [flRank, hp] at hr
  | yielding k f => rcases hr with hr | hr <;> simp [flRank, hp] at hr

/-- The fiber thread leaves the fiber that it is in only to the scheduler. -/
theorem fl_inside {s a s'} (h : Fiber.step s a = some s') (k : Nat) (hp : s.pc = .running k ∨ ∃ f, s.pc = .yielding k f) :
    s'.pc = .idle ∨ s'.pc = .running k ∨ ∃ f, s'.pc = .yielding k f := by
  have hn : (∀ now, s.pc ≠ .choosing now) ∧ (∀ i now, s.pc ≠ .scanning i now) ∧ (∀ j now, s.pc ≠ .looking j now) ∧ s.pc ≠ .idle := by
    rcases hp with hp | ⟨f, hp⟩ <;> rw [hp] <;> exact ⟨fun _ h => (nomatch h), fun _ _ h => (nomatch h), fun _ _ h => (nomatch h), fun h => nomatch h⟩
  obtain ⟨n1, n2, n3, n4⟩ := hn
  cases step_case h with
  | choose hq _ => exact absurd hq n4
  | startScan hq _ => exact absurd hq n4
  | scan _ _ _ hq _ => exact absurd hq (n2 _ _)
  | endScan _ hq _ => exact absurd hq (n2 _ _)
  | sleep _ hq _ => exact absurd hq (n2 _ _)
  | remove _ _ hq => exact absurd hq (n1 _)
  | pick _ _ hq => exact absurd hq (n1 _)
  | pass _ _ _ hq => exact absurd hq (n3 _ _)
  | begin_ _ _ hq => exact absurd hq (n3 _ _)
  | resume _ _ _ hq => exact absurd hq (n3 _ _)
  | yieldOn j f hq =>
    have : j = k := by rcases hp with hp | ⟨_, hp⟩ <;> rw [hp] at hq <;> cases hq; rfl
    subst this; exact .inr (.inr ⟨f, rfl⟩)
  | yield j hq => exact .inl rfl
  | noWait j f hq =>
    have : j = k := by rcases hp with hp | ⟨_, hp⟩ <;> rw [hp] at hq <;> cases hq; rfl
    subst this; exact .inr (.inl rfl)
  | register j f hq => exact .inl rfl
  | finish j hq => exact .inl rfl
  | _ => exact .inr hp

/-- The mutex of a future is unlocked. -/
theorem fl_unlocked {e : Exec Fiber.step} (hl : Fiber.Live e) (f n : Nat) : ∃ m, n ≤ m ∧ ((e.st m).fut f).locked = false := by
  cases hk : ((e.st n).fut f).locked with
  | false => exact ⟨n, Nat.le_refl _, hk⟩
  | true =>
    obtain ⟨t, ht⟩ := (futInv (fl_reach hl n)).held f hk
    refine e.leads (P := fun s => s.thr t = .initing f) (Q := fun s => (s.fut f).locked = false) (hl.exit t) n ht (fun s a s' hp h => ?_)
      (fun m _ hp => ⟨m, Nat.le_refl _, .inl ⟨.exit t .ok, ⟨_, rfl⟩, by simp only [Fiber.step, hp]; rfl⟩⟩) (fun s a s' hp ⟨x, ha⟩ h => ?_)
    · have other : ∀ u y, s.thr u ≠ .initing f → upd s.thr u y t = .initing f := by
        intro u y hu
        rw [upd_other _ _ (show t ≠ u from fun htu => hu (by rw [← htu]; exact hp))]; exact hp
      cases step_case h with
      | call u g hu => exact .inl (other u _ (by rw [hu]; exact fun h => nomatch h))
      | escape u g hu =>
        by_cases hfg : f = g
        · subst hfg; exact .inr (by show (upd s.fut f _ f).locked = false; rw [upd_same])
        · exact .inl (other u _ (by rw [hu]; exact fun h => hfg (by cases h; rfl)))
      | complete u g _ hu =>
        by_cases hfg : f = g
        · subst hfg; exact .inr (by show (upd s.fut f _ f).locked = false; rw [upd_same])
        · exact .inl (other u _ (by rw [hu]; exact fun h => hfg (by cases h; rfl)))
      | notify u _ _ _ _ _ hu => exact .inl (other u _ (by rw [hu]; exact fun h => nomatch h))
      | gone u _ _ _ _ hu => exact .inl (other u _ (by rw [hu]; exact fun h => nomatch h))
      | finalize u _ _ hu => exact .inl (other u _ (by rw [hu]; exact fun h => nomatch h))
      | _ => exact .inl hp
    · subst ha
      simp only [Fiber.step, hp] at h
      cases h
      cases x <;> (show (upd s.fut f _ f).locked = false; rw [upd_same])

/-- The fiber thread comes back to the scheduler again and again. -/
theorem fl_idle {e : Exec Fiber.step} (hl : Fiber.Live e) (n : Nat) : ∃ m, n ≤ m ∧ (e.st m).pc = .idle := by
  apply Classical.byContradiction
  intro hno
  have hni : ∀ m, n ≤ m → (e.st m).pc ≠ .idle := fun m hm h => hno ⟨m, hm, h⟩
  -- it gets into a fiber
  have hin : ∃ m, n ≤ m ∧ flRank (e.st m) = 0 := by
    by_cases h0 : flRank (e.st n) = 0
    · exact ⟨n, Nat.le_refl _, h0⟩
    refine e.leads_often (P := fun m => n ≤ m ∧ flRank (e.st m) ≠ 0) (Q := fun m => flRank (e.st m) = 0) (T := Sched) (fun m => flRank (e.st m)) (fun m hm => ?_)
      (fun m hm => hl.sched m fun j hj => ⟨j, Nat.le_refl _, fl_enabled (fl_reach hl j) (.inl (hm j hj).1.2)⟩) (fun m hm ⟨a, ha, hta⟩ => ?_) n ⟨Nat.le_refl _, h0⟩
    · by_cases hz : flRank (e.st (m + 1)) = 0
      · exact .inr hz
      · rcases e.next m with ⟨-, h⟩ | ⟨a, ha, h⟩
        · rw [h] at hz ⊢; exact .inl ⟨⟨by omega, hz⟩, Nat.le_refl _⟩
        · exact .inl ⟨⟨by omega, hz⟩, (fl_rank h (hni m hm.1) hm.2).1⟩
    · by_cases hz : flRank (e.st (m + 1)) = 0
      · exact .inr hz
      · rcases e.next m with ⟨h, -⟩ | ⟨a', ha', h⟩
        · rw [ha] at h; exact nomatch h
        · rw [ha] at ha'; cases ha'
          exact .inl ⟨⟨by omega, hz⟩, (fl_rank h (hni m hm.1) hm.2).2 hta⟩
  obtain ⟨m, hm, hz⟩ := hin
  have hk : ∃ k, (e.st m).pc = .running k ∨ ∃ f, (e.st m).pc = .yielding k f := by
    cases hp : (e.st m).pc with
    | idle => exact absurd hp (hni m hm)
    | running k => exact ⟨k, .inl rfl⟩
    | yielding k f => exact ⟨k, .inr ⟨f, rfl⟩⟩
    | scanning i now => simp only [flRank, hp] at hz; omega
    | choosing now => simp [flRank, hp] at hz
    | looking k now => simp [flRank, hp] at hz
  obtain ⟨k, hk⟩ := hk
  have hstay : ∀ j, m ≤ j → (e.st j).pc = .running k ∨ ∃ f, (e.st j).pc = .yielding k f := by
    intro j hj
    induction j with
    | zero =>
      have : m = 0 := by omega
      subst this; exact hk
    | succ j ih =>
      by_cases h : m = j + 1
      · subst h; exact hk
      · have ih := ih (by omega)
        rcases e.next j with ⟨-, h⟩ | ⟨a, -, h⟩
        · rw [h]; exact ih
        · exact (fl_inside h k ih).resolve_left (hni _ (by omega))
  obtain ⟨j, f, hj, hy⟩ := hl.body m k hstay
  obtain ⟨i, hi, a, ha, hta⟩ := hl.sched j fun i hi => by
    obtain ⟨q, hq, hfree⟩ := fl_unlocked hl f i
    refine ⟨q, hq, .register, .inr (.inr (.inr (.inr (.inr rfl)))), ?_⟩
    simp only [Fiber.step, hy q (by omega), hfree]
    rfl
  rcases e.next i with ⟨h, -⟩ | ⟨a', ha', h⟩
  · rw [ha] at h; exact nomatch h
  · rw [ha] at ha'; cases ha'
    have h1 := hy i hi
    have h2 := hy (i + 1) (by omega)
    rcases hta with rfl | rfl | rfl | ⟨q, rfl⟩ | rfl | rfl
    · simp [Fiber.step, h1] at h
    · simp [Fiber.step, h1] at h
    · simp [Fiber.step, h1] at h
    · simp [Fiber.step, h1] at h
    · simp [Fiber.step, h1] at h
    · simp only [Fiber.step, h1] at h
      split at h
      · exact nomatch h
      · cases hs' : e.st (i + 1)
        rw [← Option.some.inj h] at h2
        unfold register at h2
        split at h2 <;> exact nomatch h2

/-- A fiber that waits stays as it is until it runs, or it is dropped. -/
theorem fl_keep {s a s'} (h : Fiber.step s a = some s') (hr : Fiber.Reachable s) (k : Nat) (hk : k ∈ s.pq) (hst : (s.fib k).state = .pending ∨ (s.fib k).state = .suspended) :
    (k ∈ s'.pq ∧ (s'.fib k).state = (s.fib k).state ∧ (s'.fib k).yield = (s.fib k).yield) ∨ (s'.fib k).state = .running ∨ ((s.fib k).state = .pending ∧ .removed k ∈ s'.trace) := by
  have hlt := (fibInv hr).bound k hk
  have cur : ∀ j, s.pc.current = some j → k ≠ j := by
    rintro j hj rfl
    rw [((fibInv hr).current k).1 hj] at hst
    rcases hst with h | h <;> exact nomatch h
  have up : ∀ j (x : Fib), (k = j → x.state = (s.fib j).state ∧ x.yield = (s.fib j).yield) → ((upd s.fib j x k).state = (s.fib k).state ∧ (upd s.fib j x k).yield = (s.fib k).yield) := by
    intro j x hx
    unfold upd
    split
    · rename_i hkj; rw [hkj]; exact hx hkj
    · exact ⟨rfl, rfl⟩
  cases step_case h with
  | launch v hlk hv => exact .inl ⟨List.mem_append_left _ hk, up _ _ fun hkj => absurd hkj (Nat.ne_of_lt hlt)⟩
  | notify t f since j v todo => exact .inl ⟨hk, up _ _ fun _ => ⟨rfl, rfl⟩⟩
  | scan i now j => exact .inl ⟨hk, up _ _ fun _ => ⟨rfl, rfl⟩⟩
  | remove j now hp hj hc =>
    by_cases hkj : k = j
    · subst hkj
      refine .inr (.inr ⟨hst.resolve_right fun h => ?_, List.mem_cons_self ..⟩)
      rw [h] at hc
      rcases hc with ⟨hc, -⟩ | hc <;> exact nomatch hc
    · exact .inl ⟨List.mem_filter.2 ⟨hk, by simpa using hkj⟩, rfl, rfl⟩
  | pick j now => exact .inl ⟨hk, up _ _ fun _ => ⟨rfl, rfl⟩⟩
  | begin_ j now =>
    by_cases hkj : k = j
    · subst hkj; exact .inr (.inl (by show (upd s.fib k _ k).state = _; rw [upd_same]))
    · exact .inl ⟨hk, up _ _ fun h => absurd h hkj⟩
  | resume j now ok =>
    by_cases hkj : k = j
    · subst hkj; exact .inr (.inl (by show (upd s.fib k _ k).state = _; rw [upd_same]))
    · exact .inl ⟨hk, up _ _ fun h => absurd h hkj⟩
  | yieldOn j f hp => exact .inl ⟨hk, up _ _ fun h => absurd h (cur j (by rw [hp]; rfl))⟩
  | yield j hp => exact .inl ⟨hk, up _ _ fun h => absurd h (cur j (by rw [hp]; rfl))⟩
  | register j f hp => exact .inl ⟨hk, up _ _ fun h => absurd h (cur j (by rw [hp]; rfl))⟩
  | finish j hp => exact .inl ⟨hk, up _ _ fun h => absurd h (cur j (by rw [hp]; rfl))⟩
  | _ => exact .inl ⟨hk, rfl, rfl⟩

/-- A fiber that is due stays so until it is taken. -/
theorem fl_wait {s a s'} (h : Fiber.step s a = some s') (hr : Fiber.Reachable s) (hw : 0 < s.warn) (hf : 0 < s.fail) (k c : Nat) (hwt : Waiting k c s) :
    s'.trace = .picked k :: s.trace ∨ s'.trace = .removed k :: s.trace ∨ Waiting k c s' := by
  by_cases hlaunch : ∃ v, a = .launch v
  · obtain ⟨v, rfl⟩ := hlaunch
    simp only [Fiber.step] at h
    split at h
    · cases h
      obtain ⟨h1, h2, h3, h4, h5, h6, h7⟩ := hwt
      have hb := (fibInv hr).bound k h2
      refine .inr (.inr ⟨h1, List.mem_append_left _ h2, ?_, h4, h5, h6, fun j f hp => ?_⟩)
      · show (upd s.fib s.ids _ k).check = c
        rw [upd_other _ _ (Nat.ne_of_lt hb)]; exact h3
      · show c ≤ (upd s.fib s.ids _ j).yield
        have hj := (fibInv hr).bound j ((fibInv hr).alive j (.inl (((fibInv hr).current j).1 (by rw [show s.pc = _ from hp]; rfl))))
        rw [upd_other _ _ (Nat.ne_of_lt hj)]; exact h7 j f hp
    · exact nomatch h
  · have := fair_step hw hf hwt (fibInv hr) (step_case h) fun v hv => by
      have h1 := step_ids h fun v hv => hlaunch ⟨v, hv⟩
      rw [hv] at h1
      exact absurd h1 (Nat.succ_ne_self _)
    exact this.imp id (Or.imp id fun h => h.1)

/-- Times that the fiber thread has read since a time. -/
structure FlSince (C : Nat) (s : Fiber.Sys) : Prop where
  clock : C ≤ s.clock
  choose : ∀ now, s.pc = .choosing now → C ≤ now
  look : ∀ j now, s.pc = .looking j now → C ≤ now
  scan : ∀ i now, s.pc = .scanning i now → C ≤ now

theorem fl_since {s a s'} (h : Fiber.step s a = some s') (C : Nat) (hc : FlSince C s) : FlSince C s' := by
  obtain ⟨h1, h2, h3, h4⟩ := hc
  cases step_case h with
  | tick d => exact ⟨Nat.le_trans h1 (Nat.le_add_right _ _), h2, h3, h4⟩
  | choose hp hd => exact ⟨h1, fun now hq => by cases hq; exact h1, (by intro _ _ h; cases h), (by intro _ _ h; cases h)⟩
  | startScan hp hd => exact ⟨h1, (by intro _ h; cases h), (by intro _ _ h; cases h), fun i now hq => by cases hq; exact h1⟩
  | scan i now k hp hk => exact ⟨h1, (by intro _ h; cases h), (by intro _ _ h; cases h), fun i now hq => by cases hq; exact h4 _ _ hp⟩
  | endScan now hp hz => exact ⟨h1, fun now hq => by cases hq; exact h4 _ _ hp, (by intro _ _ h; cases h), (by intro _ _ h; cases h)⟩
  | pick k now hp => exact ⟨h1, (by intro _ h; cases h), fun j now hq => by cases hq; exact h2 _ hp, (by intro _ _ h; cases h)⟩
  | _ => first | exact ⟨h1, h2, h3, h4⟩ | exact ⟨h1, (by intro _ h; cases h), (by intro _ _ h; cases h), (by intro _ _ h; cases h)⟩

/-- A fiber is taken out of the heap. -/
def FlPicks (a : Fiber.Act) : Prop := ∃ k, a = .pick k

theorem fl_choice {s k s'} (h : Fiber.step s (.pick k) = some s') : s'.trace = .picked k :: s.trace ∨ s'.trace = .removed k :: s.trace := by
  simp only [Fiber.step] at h
  split at h
  · split at h
    · cases h
      unfold pick
      dsimp only
      split
      · exact .inr rfl
      · exact .inl rfl
    · exact nomatch h
  · exact nomatch h

theorem fl_choosing {s a s' now} (h : Fiber.step s a = some s') (hp : s.pc = .choosing now) : s'.pc = .choosing now ∨ FlPicks a := by
  cases a with
  | pick q => exact .inr ⟨q, rfl⟩
  | _ =>
    left
    first
      | (simp [Fiber.step, hp] at h; done)
      | (simp only [Fiber.step] at h
         repeat' split at h
         all_goals first | (cases h; done) | (rw [← Option.some.inj h]; first | exact hp | (unfold notify; split <;> exact hp) | (unfold Fiber.exit; split <;> exact hp)))

/-- A fiber that is due is taken. -/
theorem fl_taken {e : Exec Fiber.step} (hl : Fiber.Live e) (k c n : Nat) (hwt : Waiting k c (e.st n)) :
    ∃ m, n ≤ m ∧ ((e.st (m + 1)).trace = .picked k :: (e.st m).trace ∨ (e.st (m + 1)).trace = .removed k :: (e.st m).trace) := by
  apply Classical.byContradiction
  intro hno
  have hw : ∀ m, 0 < (e.st m).warn := fun m => by rw [(fl_conf m).1]; exact hl.warn
  have hf : ∀ m, 0 < (e.st m).fail := fun m => by rw [(fl_conf m).2]; exact hl.fail
  have hstay : ∀ m, n ≤ m → Waiting k c (e.st m) := by
    intro m hm
    induction m with
    | zero =>
      have : n = 0 := by omega
      subst this; exact hwt
    | succ m ih =>
      by_cases h : n = m + 1
      · subst h; exact hwt
      · have ih := ih (by omega)
        rcases e.next m with ⟨-, h⟩ | ⟨a, -, h⟩
        · rw [h]; exact ih
        · rcases fl_wait h (fl_reach hl m) (hw m) (hf m) k c ih with h | h | h
          · exact absurd ⟨m, by omega, .inl h⟩ hno
          · exact absurd ⟨m, by omega, .inr h⟩ hno
          · exact h
  obtain ⟨n2, h2⟩ := hl.prompt c
  have key : ∀ m, max n n2 ≤ m → ∀ a, e.act m = some a → Fiber.step (e.st m) a = some (e.st (m + 1)) →
      ∃ tr, (e.st (m + 1)).trace = tr ++ (e.st m).trace ∧ tr.countP Ev.isChoice + total (e.st (m + 1)) c ≤ total (e.st m) c := by
    intro m hm a ha h
    have := fair_step (hw m) (hf m) (hstay m (by omega)) (fibInv (fl_reach hl m)) (step_case h) fun v hv => by
      cases a with
      | launch u =>
        have hcu := h2 m (by omega) u ha
        simp only [Fiber.step] at h
        split at h
        · have h := Option.some.inj h
          rw [← h] at hv
          have := congrArg (fun t => (t.fib (e.st m).ids).check) hv
          simp [launch] at this
          exact this ▸ hcu
        · exact nomatch h
      | _ =>
        have h1 := step_ids h (fun v h => nomatch h)
        rw [hv] at h1
        exact absurd h1 (Nat.succ_ne_self _)
    rcases this with h | h | h
    · exact absurd ⟨m, by omega, .inl h⟩ hno
    · exact absurd ⟨m, by omega, .inr h⟩ hno
    · exact h.2.2.2
  obtain ⟨m, -, hfalse⟩ := e.leads_often (P := fun m => max n n2 ≤ m) (Q := fun _ => False) (T := FlPicks) (fun m => total (e.st m) c)
    (fun m hm => by
      rcases e.next m with ⟨-, h⟩ | ⟨a, ha, h⟩
      · rw [h]; exact .inl ⟨by omega, Nat.le_refl _⟩
      · obtain ⟨tr, -, h3⟩ := key m hm a ha h
        exact .inl ⟨by omega, by omega⟩)
    (fun m hm => by
      have hm := (hm m (Nat.le_refl _)).1
      -- the fiber thread enters the scheduler
      have hc : ∃ j now, m ≤ j ∧ (e.st j).pc = .choosing now := by
        apply Classical.byContradiction
        intro hnc
        obtain ⟨i, hi, hidle⟩ := fl_idle hl m
        obtain ⟨j, hj, hq⟩ := e.leads (P := fun s => s.pc = .idle ∧ due s s.clock = true) (Q := fun s => (∃ now, s.pc = .choosing now) ∨ due s s.clock = false) hl.sched i
          ⟨hidle, due_of (hstay i (by omega))⟩
          (fun s a s' hp h => by
            cases hd : due s' s'.clock with
            | false => exact .inr (.inr rfl)
            | true =>
              obtain ⟨hp, hd'⟩ := hp
              cases step_case h with
              | choose _ _ => exact .inr (.inl ⟨_, rfl⟩)
              | startScan _ hd2 => rw [hd'] at hd2; exact nomatch hd2
              | _ => first | exact .inl ⟨hp, rfl⟩ | (rename_i hq; rw [hp] at hq; exact nomatch hq) | (simp_all; done))
          (fun j hj hp => ⟨j, Nat.le_refl _, .inl (fl_enabled (fl_reach hl j) (.inr hp.1))⟩)
          (fun s a s' hp ha h => by
            obtain ⟨hp, hd⟩ := hp
            rcases ha with rfl | rfl | rfl | ⟨q, rfl⟩ | rfl | rfl
            · simp only [Fiber.step, hp, hd, if_true] at h
              cases h; exact .inl ⟨_, rfl⟩
            all_goals simp [Fiber.step, hp] at h)
        rcases hq with ⟨now, hq⟩ | hq
        · exact hnc ⟨j, now, by omega, hq⟩
        · rw [due_of (hstay j (by omega))] at hq; exact nomatch hq
      obtain ⟨j, now, hj, hpc⟩ := hc
      -- and takes a fiber
      have hchoose : ∀ i, j ≤ i → (e.st i).pc = .choosing now ∨ ∃ q, j ≤ q ∧ e.Taken FlPicks q := by
        intro i hi
        induction i with
        | zero =>
          have : j = 0 := by omega
          subst this; exact .inl hpc
        | succ i ih =>
          by_cases h : j = i + 1
          · subst h; exact .inl hpc
          · rcases ih (by omega) with ih | ih
            · rcases e.next i with ⟨-, h⟩ | ⟨a, ha, h⟩
              · rw [h]; exact .inl ih
              · by_cases hpk : FlPicks a
                · exact .inr ⟨i, by omega, a, ha, hpk⟩
                · left
                  exact (fl_choosing h ih).resolve_right hpk
            · exact .inr ih
      apply Classical.byContradiction
      intro hnp
      have hall : ∀ i, j ≤ i → (e.st i).pc = .choosing now := fun i hi => (hchoose i hi).resolve_right fun ⟨q, hq, h⟩ => hnp ⟨q, by omega, h⟩
      obtain ⟨i, hi, a, ha, hta⟩ := hl.sched j fun i hi => ⟨i, Nat.le_refl _, fl_enabled (fl_reach hl i) (.inl (by simp [flRank, hall i hi]))⟩
      rcases e.next i with ⟨h, -⟩ | ⟨a', ha', h⟩
      · rw [ha] at h; exact nomatch h
      · rw [ha] at ha'; cases ha'
        rcases hta with rfl | rfl | rfl | ⟨q, rfl⟩ | rfl | rfl
        · simp [Fiber.step, hall i hi] at h
        · simp [Fiber.step, hall i hi] at h
        · simp [Fiber.step, hall i hi] at h
        · exact hnp ⟨i, by omega, _, ha, q, rfl⟩
        · simp [Fiber.step, hall i hi] at h
        · simp [Fiber.step, hall i hi] at h)
    (fun m hm ⟨a, ha, hta⟩ => by
      rcases e.next m with ⟨h, -⟩ | ⟨a', ha', h⟩
      · rw [ha] at h; exact nomatch h
      · rw [ha] at ha'; cases ha'
        obtain ⟨tr, h3, h4⟩ := key m hm a ha h
        obtain ⟨q, rfl⟩ := hta
        have : 0 < tr.countP Ev.isChoice := by
          rcases fl_choice h with h5 | h5
          · rw [h5] at h3
            have : tr = [.picked q] := (List.append_cancel_right (as := [Ev.picked q]) h3).symm
            rw [this]; exact Nat.zero_lt_succ _
          · rw [h5] at h3
            have : tr = [.removed q] := (List.append_cancel_right (as := [Ev.removed q]) h3).symm
            rw [this]; exact Nat.zero_lt_succ _
        exact .inl ⟨by omega, by omega⟩)
    (max n n2) (Nat.le_refl _)
  exact hfalse

/-- A fiber that waits eventually runs, or is dropped before it begins. -/
theorem fl_runs {e : Exec Fiber.step} (hl : Fiber.Live e) (k n : Nat) (hk : k ∈ (e.st n).pq) (hst : ((e.st n).fib k).state = .pending ∨ ((e.st n).fib k).state = .suspended) :
    ∃ m, n ≤ m ∧ (((e.st m).fib k).state = .running ∨ (((e.st n).fib k).state = .pending ∧ .removed k ∈ (e.st m).trace)) := by
  apply Classical.byContradiction
  intro hno
  have hstay : ∀ m, n ≤ m → k ∈ (e.st m).pq ∧ ((e.st m).fib k).state = ((e.st n).fib k).state ∧ ((e.st m).fib k).yield = ((e.st n).fib k).yield := by
    intro m hm
    induction m with
    | zero =>
      have : n = 0 := by omega
      subst this; exact ⟨hk, rfl, rfl⟩
    | succ m ih =>
      by_cases h : n = m + 1
      · subst h; exact ⟨hk, rfl, rfl⟩
      · obtain ⟨i1, i2, i3⟩ := ih (by omega)
        rcases e.next m with ⟨-, h⟩ | ⟨a, -, h⟩
        · rw [h]; exact ⟨i1, i2, i3⟩
        · rcases fl_keep h (fl_reach hl m) k i1 (by rw [i2]; exact hst) with ⟨j1, j2, j3⟩ | h | ⟨h, h'⟩
          · exact ⟨j1, j2.trans i2, j3.trans i3⟩
          · exact absurd ⟨m + 1, hm, .inl h⟩ hno
          · exact absurd ⟨m + 1, hm, .inr ⟨i2 ▸ h, h'⟩⟩ hno
  -- a time after its time limit
  obtain ⟨n1, h1⟩ := hl.clock (((e.st n).fib k).yield + (e.st 0).fail)
  obtain ⟨m1, hm1, hidle⟩ := fl_idle hl (max n n1)
  have hclock : ((e.st n).fib k).yield + (e.st 0).fail ≤ (e.st m1).clock :=
    e.always (P := fun s => ((e.st n).fib k).yield + (e.st 0).fail ≤ s.clock) n1 h1 (fun s a s' hp hs => Nat.le_trans hp (fl_clock hs)) m1 (by omega)
  have hcheck : ((e.st m1).fib k).check ≤ (e.st m1).clock := by
    have := (bounded (fl_reach hl m1) k).check
    rw [(hstay m1 (by omega)).2.2, (fl_conf m1).2] at this
    omega
  obtain ⟨m, hm, hp⟩ := fl_taken hl k ((e.st m1).fib k).check m1
    ⟨hcheck, (hstay m1 (by omega)).1, rfl, (by rw [hidle]; exact fun _ _ h => nomatch h), (by rw [hidle]; exact fun _ h => nomatch h), (by rw [hidle]; exact fun _ _ h => nomatch h),
      (by rw [hidle]; exact fun _ _ h => nomatch h)⟩
  have hsince : ∀ j, m1 ≤ j → FlSince (e.st m1).clock (e.st j) := fun j hj =>
    e.always (P := FlSince (e.st m1).clock) m1 ⟨Nat.le_refl _, (by rw [hidle]; exact fun _ h => nomatch h), (by rw [hidle]; exact fun _ _ h => nomatch h), (by rw [hidle]; exact fun _ _ h => nomatch h)⟩
      (fun s a s' hp hs => fl_since hs _ hp) j hj
  rcases hp with hp | hp
  · -- the scheduler looks at it
    have hlook : ∃ now, (e.st (m + 1)).pc = .looking k now := by
      rcases e.next m with ⟨-, h⟩ | ⟨a, -, h⟩
      · rw [h] at hp; exact absurd (congrArg List.length hp) (by simp)
      · generalize e.st (m + 1) = s' at h hp
        cases step_case h with
        | pick j now => cases hp; exact ⟨now, rfl⟩
        | _ => first | (simp [launch] at hp; done) | (injection hp with h1 _; cases h1; done) | (have hq := congrArg List.length hp; simp at hq; done)
    obtain ⟨now, hlook⟩ := hlook
    have hnow := (hsince (m + 1) (by omega)).look k now hlook
    obtain ⟨j, hj, hr⟩ := e.leads_once (P := fun j => m + 1 ≤ j ∧ (e.st j).pc = .looking k now) (Q := fun j => m + 1 ≤ j ∧ ((e.st j).fib k).state = .running) hl.sched
      (fun j hj => by
        rcases e.next j with ⟨-, h⟩ | ⟨a, ha, h⟩
        · rw [h]; exact .inl ⟨by omega, hj.2⟩
        · have hpc := hj.2
          have hy : now ≥ ((e.st j).fib k).yield + (e.st j).fail := by rw [(hstay j (by omega)).2.2, (fl_conf j).2]; omega
          generalize e.st (j + 1) = s' at h
          cases step_case h with
          | begin_ q now' hq =>
            rw [hpc] at hq; cases hq
            exact .inr ⟨by omega, by show (upd (e.st j).fib k _ k).state = _; rw [upd_same]⟩
          | resume q now' ok hq =>
            rw [hpc] at hq; cases hq
            exact .inr ⟨by omega, by show (upd (e.st j).fib k _ k).state = _; rw [upd_same]⟩
          | pass q now' f hq hf ht =>
            rw [hpc] at hq; cases hq; omega
          | _ => first | exact .inl ⟨by omega, hpc⟩ | (rename_i hq; rw [hpc] at hq; exact nomatch hq) | (simp_all; done))
      (fun j hj => ⟨j, Nat.le_refl _, fl_enabled (fl_reach hl j) (.inl (by simp [flRank, (hj j (Nat.le_refl _)).2]))⟩)
      (fun j hj ⟨a, ha, hta⟩ => by
        rcases e.next j with ⟨h, -⟩ | ⟨a', ha', h⟩
        · rw [ha] at h; exact nomatch h
        · rw [ha] at ha'; cases ha'
          have hpc := hj.2
          have hy : ¬ now < ((e.st j).fib k).yield + (e.st j).fail := by rw [(hstay j (by omega)).2.2, (fl_conf j).2]; omega
          have hrun : ((enterFiber (e.st j) k now).fib k).state = .running := by
            unfold enterFiber
            dsimp only
            split <;> (show (upd (e.st j).fib k _ k).state = _; rw [upd_same])
          rcases hta with rfl | rfl | rfl | ⟨q, rfl⟩ | rfl | rfl
          · simp [Fiber.step, hpc] at h
          · simp [Fiber.step, hpc] at h
          · simp [Fiber.step, hpc] at h
          · simp [Fiber.step, hpc] at h
          · simp only [Fiber.step, hpc] at h
            refine ⟨by omega, ?_⟩
            rw [← Option.some.inj h]
            unfold look
            split
            · exact hrun
            · rw [if_neg (fun h => hy h.1)]; exact hrun
          · simp [Fiber.step, hpc] at h)
      (m + 1) ⟨Nat.le_refl _, hlook⟩
    exact hno ⟨j, by omega, .inl hr.2⟩
  · rcases e.next m with ⟨-, h⟩ | ⟨a, -, h⟩
    · rw [h] at hp; exact absurd (congrArg List.length hp) (by simp)
    · have hs1 := hstay m (by omega)
      have hs2 := hstay (m + 1) (by omega)
      generalize e.st (m + 1) = s' at h hp hs2
      cases step_case h with
      | remove j now hq hj hc =>
        cases hp
        exact absurd hs2.1 (by simp)
      | _ => first | (simp [launch] at hp; done) | (injection hp with h1 _; cases h1; done) | (have hq := congrArg List.length hp; simp at hq; done)

theorem fl_began (k : Nat) (tr : List Ev) (h : life k tr = .running ∨ life k tr = .suspended ∨ life k tr = .finished) : .began k ∈ tr := by
  induction tr with
  | nil => rcases h with h | h | h <;> exact nomatch h
  | cons x tr ih =>
    cases x with
    | began i =>
      simp only [life] at h
      split at h
      · rename_i hi; rw [hi]; exact List.mem_cons_self ..
      · exact List.mem_cons_of_mem _ (ih h)
    | _ =>
      simp only [life] at h
      refine List.mem_cons_of_mem _ (ih ?_)
      repeat' split at h
      all_goals first | exact h | simp_all

theorem fl_removed (k : Nat) (tr : List Ev) (hw : life k tr ≠ .wrong) (h : .removed k ∈ tr) : .began k ∈ tr ∨ .abandoned k ∈ tr := by
  induction tr with
  | nil => exact nomatch h
  | cons x tr ih =>
    have tail : .removed k ∈ tr → life k tr ≠ .wrong → .began k ∈ x :: tr ∨ .abandoned k ∈ x :: tr := fun h1 h2 => (ih h2 h1).imp (List.mem_cons_of_mem _) (List.mem_cons_of_mem _)
    have hw' : life k tr ≠ .wrong := by
      intro hq
      apply hw
      cases x <;> simp [life, hq]
    rcases List.mem_cons.1 h with rfl | h
    · simp only [life, if_true] at hw
      split at hw
      · rename_i hc
        rcases hc with hc | ⟨-, hc⟩
        · exact .inl (List.mem_cons_of_mem _ (fl_began k tr (.inr (.inr hc))))
        · exact .inr (List.mem_cons_of_mem _ hc)
      · exact absurd rfl hw
    · exact tail h hw'

/-- C127: every fiber that is launched begins to execute, unless it is abandoned. -/
theorem C127_fiber (e : Exec Fiber.step) (hl : Fiber.Live e) (n k : Nat) (h : .launched k ∈ (e.st n).trace) :
    ∃ m, n ≤ m ∧ (.began k ∈ (e.st m).trace ∨ .abandoned k ∈ (e.st m).trace) := by
  have hr := fl_reach hl n
  have state : ∀ m, life k (e.st m).trace = expected (e.st m) k := fun m => (lifeInv (fl_reach hl m)).life k
  rcases C64_not_lost _ hr k h with hk | hd
  · have hlt := (fibInv hr).bound k hk
    cases hst : ((e.st n).fib k).state with
    | pending =>
      obtain ⟨m, hm, h1 | ⟨-, h1⟩⟩ := fl_runs hl k n hk (.inl hst)
      · have hk' := (fibInv (fl_reach hl m)).alive k (.inl h1)
        refine ⟨m, hm, .inl (fl_began k _ (.inl ?_))⟩
        rw [state m]
        unfold expected
        rw [if_neg (Nat.not_le.2 ((fibInv (fl_reach hl m)).bound k hk')), if_neg (by simpa using hk'), h1]
      · exact ⟨m, hm, fl_removed k _ (C64_life _ (fl_reach hl m) k) h1⟩
    | _ =>
      refine ⟨n, Nat.le_refl _, .inl (fl_began k _ ?_)⟩
      rw [state n]
      unfold expected
      rw [if_neg (Nat.not_le.2 hlt), if_neg (by simpa using hk), hst]
      simp
  · refine ⟨n, Nat.le_refl _, fl_removed k _ (C64_life _ hr k) ?_⟩
    have key : ∀ tr, life k tr = .dropped → .removed k ∈ tr := by
      intro tr
      induction tr with
      | nil => exact fun h => nomatch h
      | cons x tr ih =>
        intro h
        cases x with
        | removed i =>
          simp only [life] at h
          split at h
          · rename_i hi; rw [hi]; exact List.mem_cons_self ..
          · exact List.mem_cons_of_mem _ (ih h)
        | _ =>
          simp only [life] at h
          refine List.mem_cons_of_mem _ (ih ?_)
          repeat' split at h
          all_goals first | exact h | simp_all
    exact key _ hd

/-- C127: a fiber that is suspended in `yield()` is resumed, whether its future completes or not. -/
theorem C127_yield (e : Exec Fiber.step) (hl : Fiber.Live e) (n k : Nat) (h : life k (e.st n).trace = .suspended) :
    ∃ m, n ≤ m ∧ life k (e.st m).trace = .running := by
  obtain ⟨hk, hst⟩ := suspended_state (fl_reach hl n) h
  obtain ⟨m, hm, h1 | ⟨h1, -⟩⟩ := fl_runs hl k n hk (.inr hst)
  · have hr := fl_reach hl m
    have hk' := (fibInv hr).alive k (.inl h1)
    refine ⟨m, hm, ?_⟩
    rw [(lifeInv hr).life k]
    unfold expected
    rw [if_neg (Nat.not_le.2 ((fibInv hr).bound k hk')), if_neg (by simpa using hk'), h1]
  · rw [hst] at h1; exact nomatch h1

/-- A fiber waits for a future which never completes; it is resumed after the time limit, and finishes.  Then there are no fibers. -/
def fiberLiveAct : Nat → Act
  | 0 => .launch 0
  | 1 => .enter
  | 2 => .pick 0
  | 3 => .look
  | 4 => .yield (some 7)
  | 5 => .register
  | 6 => .tick 5000
  | 7 => .enter
  | 8 => .pick 0
  | 9 => .look
  | 10 => .finish
  | 11 => .enter
  | 12 => .pick 0
  | n + 13 => if n % 3 = 0 then .tick 1 else if n % 3 = 1 then .enter else .endScan

def fiberLiveSt : Nat → Fiber.Sys
  | 0 => { warn := 1000, fail := 5000 }
  | n + 1 => (Fiber.step (fiberLiveSt n) (fiberLiveAct n)).getD (fiberLiveSt n)

theorem fiberLive_tail (n : Nat) : (fiberLiveSt (n + 13)).pq = [] ∧ (∀ t, (fiberLiveSt (n + 13)).thr t = .idle) ∧ n ≤ 3 * (fiberLiveSt (n + 13)).clock ∧
    (n % 3 ≠ 2 → (fiberLiveSt (n + 13)).pc = .idle) ∧ (n % 3 = 2 → ∃ now, (fiberLiveSt (n + 13)).pc = .scanning 0 now) := by
  induction n with
  | zero => exact ⟨rfl, fun _ => rfl, Nat.zero_le _, fun _ => rfl, fun h => nomatch h⟩
  | succ n ih =>
    obtain ⟨h1, h2, h3, h4, h5⟩ := ih
    have hs : fiberLiveSt (n + 1 + 13) = (Fiber.step (fiberLiveSt (n + 13)) (fiberLiveAct (n + 13))).getD (fiberLiveSt (n + 13)) := rfl
    rw [hs]
    have ha : fiberLiveAct (n + 13) = if n % 3 = 0 then .tick 1 else if n % 3 = 1 then .enter else .endScan := rfl
    rw [ha]
    by_cases h0 : n % 3 = 0
    · rw [if_pos h0]
      refine ⟨h1, h2, ?_, fun _ => h4 (by omega), fun h => absurd h (by omega)⟩
      show n + 1 ≤ 3 * (_ + 1)
      omega
    · by_cases h6 : n % 3 = 1
      · have hd : due (fiberLiveSt (n + 13)) (fiberLiveSt (n + 13)).clock = false := by simp [due, h1]
        rw [if_neg h0, if_pos h6]
        simp only [Fiber.step, h4 (by omega), if_true, hd]
        refine ⟨h1, h2, ?_, fun h => absurd h (by omega), fun _ => ⟨_, rfl⟩⟩
        show n + 1 ≤ 3 * (fiberLiveSt (n + 13)).clock
        omega
      · obtain ⟨now, hp⟩ := h5 (by omega)
        have hz : ¬ sleepTime (fiberLiveSt (n + 13)) now = 0 := by simp [sleepTime, least, h1]
        rw [if_neg h0, if_neg h6]
        simp only [Fiber.step, hp, h1, List.length_nil, if_true, hz, if_false]
        refine ⟨rfl, h2, ?_, fun _ => rfl, fun h => absurd h (by omega)⟩
        show n + 1 ≤ 3 * (fiberLiveSt (n + 13)).clock
        omega

theorem fiberLive_ok (n : Nat) : (Fiber.step (fiberLiveSt n) (fiberLiveAct n)).isSome = true := by
  match n with
  | 0 => rfl
  | 1 => rfl
  | 2 => rfl
  | 3 => rfl
  | 4 => rfl
  | 5 => rfl
  | 6 => rfl
  | 7 => rfl
  | 8 => rfl
  | 9 => rfl
  | 10 => rfl
  | 11 => rfl
  | 12 => rfl
  | n + 13 =>
    obtain ⟨h1, -, -, h4, h5⟩ := fiberLive_tail n
    have ha : fiberLiveAct (n + 13) = if n % 3 = 0 then .tick 1 else if n % 3 = 1 then .enter else .endScan := rfl
    rw [ha]
    split
    · rfl
    · split
      · simp only [Fiber.step, h4 (by omega), if_true]
        split <;> rfl
      · obtain ⟨now, hp⟩ := h5 (by omega)
        simp only [Fiber.step, hp, h1, List.length_nil, if_true]
        split <;> rfl

def fiberLiveExec : Exec Fiber.step where
  st := fiberLiveSt
  act n := some (fiberLiveAct n)
  ok n := by
    obtain ⟨s, hs⟩ := Option.isSome_iff_exists.1 (fiberLive_ok n)
    show _ = some ((Fiber.step (fiberLiveSt n) (fiberLiveAct n)).getD (fiberLiveSt n))
    rw [hs]; rfl

/-- Non-vacuity: in this execution, the hypotheses hold, a fiber is launched, and it is suspended. -/
example : Fiber.Live fiberLiveExec ∧ .launched 0 ∈ (fiberLiveExec.st 1).trace ∧ life 0 (fiberLiveExec.st 6).trace = .suspended := by
  refine ⟨⟨.init 1000 5000, by decide, by decide, fun t => ⟨3 * t + 13, ?_⟩, fun n _ => ?_, fun t n hen => ?_, fun t => ⟨13, fun m hm v h => ?_⟩, fun n k h => ?_⟩, by decide, by decide⟩
  · have := (fiberLive_tail (3 * t)).2.2.1
    show t ≤ (fiberLiveSt (3 * t + 13)).clock
    omega
  · refine ⟨(3 * n + 1) + 13, by omega, .enter, ?_, .inl rfl⟩
    show some (if (3 * n + 1) % 3 = 0 then Act.tick 1 else if (3 * n + 1) % 3 = 1 then .enter else .endScan) = _
    rw [if_neg (by omega), if_pos (by omega)]
  · exfalso
    obtain ⟨m, hm, a, ⟨x, rfl⟩, hs⟩ := hen (n + 13) (by omega)
    obtain ⟨j, rfl⟩ : ∃ j, m = j + 13 := ⟨m - 13, by omega⟩
    have : (fiberLiveExec.st (j + 13)).thr t = .idle := (fiberLive_tail j).2.1 t
    simp [Fiber.step, this] at hs
  · obtain ⟨j, rfl⟩ : ∃ j, m = j + 13 := ⟨m - 13, by omega⟩
    have h : some (if j % 3 = 0 then Act.tick 1 else if j % 3 = 1 then .enter else .endScan) = some (.launch v) := h
    repeat' split at h
    all_goals cases h
  · have h := h (3 * n + 13) (by omega)
    have hp : (fiberLiveExec.st (3 * n + 13)).pc = .idle := (fiberLive_tail (3 * n)).2.2.2.1 (by omega)
    rw [hp] at h
    rcases h with h | ⟨_, h⟩ <;> exact nomatch h

end Verif.Props
