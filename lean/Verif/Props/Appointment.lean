import Verif.Proofs.Appointment
/-!
# C07: appointments
-/
namespace Verif.Props
open Verif.Appoint

theorem appoint_run_reachable {as : List Act} : ∀ {s s' : Sys}, Reachable s → run s as = some s' → Reachable s' := by
  induction as with
  | nil => intro s s' h hr; simp only [run, Option.some.injEq] at hr; exact hr ▸ h
  | cons a as ih =>
    intro s s' h hr
    simp only [run] at hr
    split at hr
    · exact nomatch hr
    · rename_i s1 h1; exact ih (.step h h1) hr

/-- C07: no two objects that are enrolled in the same file have the same index, at any time. -/
theorem C07_distinct (s : Sys) (h : Reachable s) (i j f b : Nat) (hi : place s.trace i = some (f, b)) (hj : place s.trace j = some (f, b)) : i = j :=
  (inv h).uniq f b i j (((inv h).locks f b i).2 hi) (((inv h).locks f b j).2 hj)

/-- C07: outside of calls to `enroll()`, `index()` is the index that the object has, and -1 if it has none. -/
theorem C07_index (s : Sys) (h : Reachable s) (i : Nat) (hp : (s.obj i).probe = none) :
    (s.obj i).index = (match place s.trace i with | some (_, b) => (b : Int) | none => -1) := (inv h).idle i hp

/-- C07: an index that is given to an object is not taken by any object, and every smaller index had been taken, by somebody else, at some time in this call. -/
theorem C07_free (s : Sys) (h : Reachable s) (post pre : List Ev) (i f b : Nat) (ht : s.trace = post ++ .enrolls i f b :: pre) :
    ¬ Taken pre f b ∧
    ∀ b' < b, ∃ mid pre' j, pre = mid ++ .busy i f b' :: pre' ∧ (∀ e ∈ mid, e.who = i → ∃ x, e = .busy i f x) ∧ j ≠ i ∧ place pre' j = some (f, b') :=
  (inv h).fair post i f b pre ht

/-- C07: it is the smallest one that is not taken, if nobody else does anything in the meantime. -/
theorem C07_smallest (s : Sys) (h : Reachable s) (post mid pre : List Ev) (i f b : Nat) (ht : s.trace = post ++ .enrolls i f b :: (mid ++ .calls i f :: pre))
    (halone : ∀ e ∈ mid, e.who = i) : (∀ j, j ≠ i → place pre j ≠ some (f, b)) ∧ ∀ b' < b, ∃ j, j ≠ i ∧ place pre j = some (f, b') := by
  have hpl : ∀ (l : List Ev) (j : Nat), j ≠ i → (∀ e ∈ l, e.who = i) → ∀ t, place (l ++ t) j = place t j := by
    intro l j hj
    induction l with
    | nil => intro _ t; rfl
    | cons e es ih =>
      intro hl t
      rw [List.cons_append, place_cons_ne (by rw [hl e List.mem_cons_self]; exact fun x => hj x.symm), ih (fun e he => hl e (List.mem_cons_of_mem _ he))]
  obtain ⟨h1, h2⟩ := C07_free s h post _ i f b ht
  refine ⟨fun j hj hp => h1 ⟨j, ?_⟩, fun b' hb => ?_⟩
  · rw [hpl mid j hj halone, place_cons_ne (fun x => hj x.symm)]; exact hp
  · obtain ⟨m, pre', j, e1, e2, e3, e4⟩ := h2 b' hb
    refine ⟨j, e3, ?_⟩
    -- the attempt is in `mid`
    rcases List.append_eq_append_iff.1 e1 with ⟨a, ha1, ha2⟩ | ⟨a, ha1, ha2⟩
    · exfalso
      cases a with
      | nil => exact nomatch (List.cons.inj ha2).1
      | cons x xs =>
        have := (List.cons.inj ha2).1
        obtain ⟨y, hy⟩ := e2 (.calls i f) (by rw [ha1, ← this]; simp) rfl
        exact nomatch hy
    · cases a with
      | nil => exact nomatch (List.cons.inj ha2).1
      | cons x xs =>
        have this : pre' = xs ++ .calls i f :: pre := (List.cons.inj ha2).2
        rw [this, hpl xs j e3 (fun e he => halone e (by rw [ha1]; simp [he])), place_cons_ne (fun x => e3 x.symm)] at e4
        exact e4

/-- C07: an attempt to take an index succeeds if and only if nobody else has it, so nothing that has been given up, or belonged to a dead process, remains taken. -/
theorem C07_available (s s' : Sys) (h : Reachable s) (i f b : Nat) (hp : (s.obj i).probe = some (f, b)) (hs : step s (.lock i) = some s') :
    (s'.obj i).index = b ↔ ∀ j, j ≠ i → place s.trace j ≠ some (f, b) := by
  have hinv := inv h
  simp only [step, hp] at hs
  split at hs
  · rename_i hany
    injection hs with hs; subst hs
    obtain ⟨⟨f', b', k⟩, hl, hc⟩ := List.any_eq_true.1 hany
    simp only [ne_eq, decide_eq_true_eq] at hc
    obtain ⟨rfl, rfl, hk⟩ := hc
    have h1 := (hinv.busy i f' b' hp).1
    constructor
    · intro hx
      simp only [put, if_true, h1] at hx
      omega
    · intro hx; exact absurd ((hinv.locks _ _ _).1 hl) (hx k hk)
  · rename_i hany
    injection hs with hs; subst hs
    constructor
    · intro _ j hj hpl
      exact hany (List.any_eq_true.2 ⟨_, (hinv.locks f b j).2 hpl, by simpa using hj⟩)
    · intro _; simp [put]

/-- C07: `withdraw()`, an exception, and the end of a process leave the object without an index; and nothing changes the index of another object. -/
theorem C07_withdraw (s s' : Sys) (a : Act) (hs : step s a = some s') :
    (∀ i, a = .withdraw i ∨ a = .error i ∨ a = .die i → place s'.trace i = none ∧ (s'.obj i).index = -1) ∧
    (∀ j, j ≠ a.who → place s'.trace j = place s.trace j ∧ s'.obj j = s.obj j) := by
  cases a with
  | enroll i f =>
    simp only [step] at hs
    split at hs
    · exact nomatch hs
    · injection hs with hs; subst hs
      refine ⟨fun i h => (by rcases h with h | h | h <;> cases h), fun j hj => ⟨place_cons_ne (fun x => hj x.symm), by simp only [put]; exact if_neg hj⟩⟩
  | lock i =>
    simp only [step] at hs
    split at hs
    · exact nomatch hs
    split at hs
    all_goals
      injection hs with hs; subst hs
      refine ⟨fun i h => (by rcases h with h | h | h <;> cases h), fun j hj => ⟨place_cons_ne (fun x => hj x.symm), by simp only [put]; exact if_neg hj⟩⟩
  | error i =>
    simp only [step] at hs
    split at hs
    · exact nomatch hs
    · injection hs with hs; subst hs
      refine ⟨fun k h => ?_, fun j hj => ⟨place_cons_ne (fun x => hj x.symm), by simp only [put]; exact if_neg hj⟩⟩
      have : k = i := by rcases h with h | h | h <;> cases h <;> rfl
      subst this
      exact ⟨place_self rfl, by simp [put]⟩
  | withdraw i =>
    simp only [step] at hs
    split at hs
    · exact nomatch hs
    · injection hs with hs; subst hs
      refine ⟨fun k h => ?_, fun j hj => ⟨place_cons_ne (fun x => hj x.symm), by simp only [put]; exact if_neg hj⟩⟩
      have : k = i := by rcases h with h | h | h <;> cases h <;> rfl
      subst this
      exact ⟨place_self rfl, by simp [put]⟩
  | die i =>
    simp only [step] at hs
    injection hs with hs; subst hs
    refine ⟨fun k h => ?_, fun j hj => ⟨place_cons_ne (fun x => hj x.symm), by simp only [put]; exact if_neg hj⟩⟩
    have : k = i := by rcases h with h | h | h <;> cases h <;> rfl
    subst this
    exact ⟨place_self rfl, by simp [put]⟩

/-- C07: `enroll()` comes to an end, after at most as many attempts as there are indices that have been taken by others, and one more. -/
theorem C07_terminates (s : Sys) (i f b : Nat) (hp : (s.obj i).probe = some (f, b)) :
    ∃ k s' b', k ≤ s.locks.length + 1 ∧ run s (List.replicate k (.lock i)) = some s' ∧ s'.trace.head? = some (.enrolls i f b') ∧ (s'.obj i).index = b' := by
  obtain ⟨k, s', b', hk, hr⟩ := terminates (ahead s i f b) s i f b hp (Nat.le_refl _)
  have : ahead s i f b ≤ s.locks.length := List.length_filter_le _ _
  exact ⟨k, s', b', by omega, hr⟩

/-- Two objects enroll, the first one leaves, and a third one gets its index. -/
def appointDemo : List Act := [.enroll 0 7, .lock 0, .enroll 1 7, .lock 1, .lock 1, .withdraw 0, .enroll 2 7, .lock 2]

/-- Non-vacuity. -/
example : ∃ s, run {} appointDemo = some s ∧ Reachable s ∧ (s.obj 0).index = -1 ∧ (s.obj 1).index = 1 ∧ (s.obj 2).index = 0 ∧
    s.trace = [.enrolls 2 7 0, .calls 2 7, .leaves 0, .enrolls 1 7 1, .busy 1 7 0, .calls 1 7, .enrolls 0 7 0, .calls 0 7] :=
  ⟨_, rfl, appoint_run_reachable .init (as := appointDemo) rfl, by decide, by decide, by decide, rfl⟩

/-- Without the condition that nobody else does anything in the meantime, the index needs not be the smallest one that is not taken when `enroll()` returns: the object that had
the index 0 leaves after it has been found to be taken.  This is inherent in locking one byte after another. -/
theorem C07_not_smallest : ∃ s, run {} [.enroll 0 7, .lock 0, .enroll 1 7, .lock 1, .withdraw 0, .lock 1] = some s ∧ (s.obj 1).index = 1 ∧ place s.trace 0 = none ∧
    ∀ j, place s.trace j ≠ some (7, 0) := by
  refine ⟨_, rfl, by decide, by decide, ?_⟩
  intro j hj
  by_cases h0 : j = 0
  · subst h0; exact absurd hj (by decide)
  · by_cases h1 : j = 1
    · subst h1; exact absurd hj (by decide)
    · have : ∀ k, k ≠ 0 → k ≠ 1 → place [.enrolls 1 7 1, .leaves 0, .busy 1 7 0, .calls 1 7, .enrolls 0 7 0, .calls 0 7] k = none := by
        intro k h0 h1
        have e0 : ¬ (0 = k) := fun x => h0 x.symm
        have e1 : ¬ (1 = k) := fun x => h1 x.symm
        simp [place, Ev.who, e0, e1]
      exact absurd ((this j h0 h1).symm.trans hj) (by simp)

end Verif.Props
