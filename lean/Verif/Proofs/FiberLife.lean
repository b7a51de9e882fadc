import Verif.Proofs.FiberHist
namespace Verif.Fiber

/-- What the history of fiber `k` must be. -/
def expected (s : Sys) (k : Nat) : Life :=
  if s.ids ≤ k then .none
  else if k ∉ s.pq then .dropped
  else match (s.fib k).state with
    | .pending => .launched
    | .running => .running
    | .suspended => .suspended
    | .terminated => .finished

theorem expected_same {s s' : Sys} {k} (h1 : s'.ids = s.ids) (h2 : k ∈ s'.pq ↔ k ∈ s.pq) (h3 : (s'.fib k).state = (s.fib k).state) : expected s k = expected s' k := by
  unfold expected
  rw [h1, h3]
  simp only [h2]

structure LifeInv (s : Sys) : Prop where
  life : ∀ k, life k s.trace = expected s k
  dead : ∀ k, k ∈ s.dead ↔ Ev.abandoned k ∈ s.trace

theorem lifeInv_step {s s'} (ih : LifeInv s) (hI : FibInv s) (hc : Case s s') : LifeInv s' := by
  obtain ⟨h1, h2⟩ := ih
  have hlive : ∀ k, (s.fib k).state = .running → life k s.trace = .running := by
    intro k hk
    have hp := hI.alive k (.inl hk)
    rw [h1 k]; unfold expected
    rw [if_neg (Nat.not_le.2 (hI.bound k hp)), if_neg (by simpa using hp), hk]
  have hsusp : ∀ k, (s.fib k).state = .suspended → life k s.trace = .suspended := by
    intro k hk
    have hp := hI.alive k (.inr hk)
    rw [h1 k]; unfold expected
    rw [if_neg (Nat.not_le.2 (hI.bound k hp)), if_neg (by simpa using hp), hk]
  cases hc with
  | tick d => exact ⟨h1, h2⟩
  | nop => exact ⟨h1, h2⟩
  | launch v hl hv =>
    refine ⟨fun k => ?_, fun k => by simpa [launch] using h2 k⟩
    show Fiber.life k (.launched s.ids :: s.trace) = _
    by_cases hk : k = s.ids
    · subst hk
      have : Fiber.life s.ids s.trace = .none := by rw [h1]; simp [expected]
      simp [Fiber.life, this, expected, launch]
    · have : s.ids ≠ k := fun h => hk h.symm
      simp only [Fiber.life, this, if_false, h1 k]
      unfold expected launch
      dsimp only
      rw [upd_other _ _ hk]
      have h3 : (s.ids + 1 ≤ k) = (s.ids ≤ k) := by apply propext; omega
      have h4 : (k ∈ s.pq ++ [s.ids]) = (k ∈ s.pq) := by simp [hk]
      simp only [h3, h4]
  | abandon k hk =>
    refine ⟨h1, fun i => ?_⟩
    simp [h2 i]
  | call => exact ⟨h1, fun k => by simpa using h2 k⟩
  | escape => exact ⟨h1, fun k => by simpa using h2 k⟩
  | complete => exact ⟨h1, fun k => by simpa using h2 k⟩
  | gone => exact ⟨h1, fun k => by simpa using h2 k⟩
  | finalize => exact ⟨h1, fun k => by simpa using h2 k⟩
  | choose => exact ⟨h1, h2⟩
  | startScan => exact ⟨h1, fun k => by simpa using h2 k⟩
  | endScan => exact ⟨h1, fun k => by simpa using h2 k⟩
  | sleep => exact ⟨h1, fun k => by simpa using h2 k⟩
  | pass => exact ⟨h1, h2⟩
  | noWait => exact ⟨h1, fun k => by simpa using h2 k⟩
  | notify t f since k v todo ht hv hk =>
    refine ⟨fun i => ?_, fun i => by simpa using h2 i⟩
    show Fiber.life i s.trace = _
    rw [h1 i]
    refine expected_same rfl Iff.rfl ?_
    by_cases hi : i = k
    · subst hi; simp
    · simp [upd_other _ _ hi]
  | scan j now k hp hk =>
    refine ⟨fun i => ?_, fun i => by simpa using h2 i⟩
    show Fiber.life i s.trace = _
    rw [h1 i]
    refine expected_same rfl Iff.rfl ?_
    by_cases hi : i = k
    · subst hi; simp
    · simp [upd_other _ _ hi]
  | pick k now hp hk hmin hc next hn =>
    refine ⟨fun i => ?_, fun i => by simpa using h2 i⟩
    show Fiber.life i s.trace = _
    rw [h1 i]
    refine expected_same rfl Iff.rfl ?_
    by_cases hi : i = k
    · subst hi; simp
    · simp [upd_other _ _ hi]
  | yieldOn k f hp =>
    refine ⟨fun i => ?_, fun i => by simpa using h2 i⟩
    show Fiber.life i s.trace = _
    rw [h1 i]
    refine expected_same rfl Iff.rfl ?_
    by_cases hi : i = k
    · subst hi; simp
    · simp [upd_other _ _ hi]
  | remove k now hp hk hc =>
    refine ⟨fun i => ?_, fun i => by simpa using h2 i⟩
    show Fiber.life i (.removed k :: s.trace) = _
    by_cases hi : i = k
    · subst hi
      have : Fiber.life i s.trace = .finished ∨ (Fiber.life i s.trace = .launched ∧ Ev.abandoned i ∈ s.trace) := by
        rw [h1 i]; unfold expected
        rw [if_neg (Nat.not_le.2 (hI.bound i hk)), if_neg (by simpa using hk)]
        rcases hc with ⟨hc, hd⟩ | hc
        · rw [hc]; exact .inr ⟨rfl, (h2 i).1 hd⟩
        · rw [hc]; exact .inl rfl
      simp only [Fiber.life, if_true, this]
      unfold expected
      dsimp only
      rw [if_neg (Nat.not_le.2 (hI.bound i hk)), if_pos (by simp)]
    · have : k ≠ i := fun h => hi h.symm
      simp only [Fiber.life, this, if_false, h1 i]
      exact expected_same rfl (by simp [hi]) rfl
  | begin_ k now hp hst =>
    refine ⟨fun i => ?_, fun i => by simpa using h2 i⟩
    have hk := (hI.looking k now hp).1
    show Fiber.life i (.began k :: s.trace) = _
    by_cases hi : i = k
    · subst hi
      have : Fiber.life i s.trace = .launched := by
        rw [h1 i]; unfold expected
        rw [if_neg (Nat.not_le.2 (hI.bound i hk)), if_neg (by simpa using hk), hst]
      simp only [Fiber.life, if_true, this]
      unfold expected
      dsimp only
      rw [if_neg (Nat.not_le.2 (hI.bound i hk)), if_neg (by simpa using hk)]
      simp
    · have : k ≠ i := fun h => hi h.symm
      simp only [Fiber.life, this, if_false, h1 i]
      exact expected_same rfl Iff.rfl (by simp only [upd_other _ _ hi])
  | resume k now ok hp hst hff hok =>
    refine ⟨fun i => ?_, fun i => by simpa using h2 i⟩
    have hk := (hI.looking k now hp).1
    have hs : (s.fib k).state = .suspended := by
      have hl := (hI.looking _ _ hp).2
      cases h : (s.fib k).state with
      | pending => exact absurd h hst
      | suspended => rfl
      | terminated => exact absurd h hl
      | running => have := (hI.current k).2 h; rw [hp] at this; exact nomatch this
    show Fiber.life i (.resumed k _ now ok :: s.trace) = _
    by_cases hi : i = k
    · subst hi
      simp only [Fiber.life, if_true, hsusp i hs]
      unfold expected
      dsimp only
      rw [if_neg (Nat.not_le.2 (hI.bound i hk)), if_neg (by simpa using hk)]
      simp
    · have : k ≠ i := fun h => hi h.symm
      simp only [Fiber.life, this, if_false, h1 i]
      exact expected_same rfl Iff.rfl (by simp only [upd_other _ _ hi])
  | yield k hp =>
    have hr := (hI.current k).1 (by rw [hp]; rfl)
    have hk := hI.alive k (.inl hr)
    refine ⟨fun i => ?_, fun i => by simpa using h2 i⟩
    show Fiber.life i (.suspended k none s.clock :: s.trace) = _
    by_cases hi : i = k
    · subst hi
      simp only [Fiber.life, if_true, hlive i hr]
      unfold expected
      dsimp only
      rw [if_neg (Nat.not_le.2 (hI.bound i hk)), if_neg (by simpa using hk)]
      simp
    · have : k ≠ i := fun h => hi h.symm
      simp only [Fiber.life, this, if_false, h1 i]
      exact expected_same rfl Iff.rfl (by simp only [upd_other _ _ hi])
  | register k f hp hl hi =>
    have hr := (hI.current k).1 (by rw [hp]; rfl)
    have hk := hI.alive k (.inl hr)
    refine ⟨fun i => ?_, fun i => by simpa using h2 i⟩
    show Fiber.life i (.suspended k (some f) (s.fib k).yield :: .waits f k :: s.trace) = _
    by_cases hi : i = k
    · subst hi
      simp only [Fiber.life, if_true, hlive i hr]
      unfold expected
      dsimp only
      rw [if_neg (Nat.not_le.2 (hI.bound i hk)), if_neg (by simpa using hk)]
      simp
    · have : k ≠ i := fun h => hi h.symm
      simp only [Fiber.life, this, if_false, h1 i]
      exact expected_same rfl Iff.rfl (by simp only [upd_other _ _ hi])
  | finish k hp =>
    have hr := (hI.current k).1 (by rw [hp]; rfl)
    have hk := hI.alive k (.inl hr)
    refine ⟨fun i => ?_, fun i => by simpa using h2 i⟩
    show Fiber.life i (.finished k :: s.trace) = _
    by_cases hi : i = k
    · subst hi
      simp only [Fiber.life, if_true, hlive i hr]
      unfold expected
      dsimp only
      rw [if_neg (Nat.not_le.2 (hI.bound i hk)), if_neg (by simpa using hk)]
      simp
    · have : k ≠ i := fun h => hi h.symm
      simp only [Fiber.life, this, if_false, h1 i]
      exact expected_same rfl Iff.rfl (by simp only [upd_other _ _ hi])

theorem lifeInv {s} (h : Reachable s) : LifeInv s := by
  induction h with
  | init => constructor <;> simp [life, expected]
  | step a hr hs ih => exact lifeInv_step ih (fibInv hr) (step_case hs)

/-- During a scan, the fibers before the current one have been looked at. -/
def ScanInv (s : Sys) : Prop := ∀ i now, s.pc = .scanning i now → ∀ j < i, ∀ k, s.pq[j]? = some k → isScanned k s.trace = true

theorem scanInv_step {s s'} (ih : ScanInv s) (hc : Case s s') : ScanInv s' := by
  cases hc with
  | launch v hl hv => intro i now hp; rw [show s.pc = _ from hp] at hl; exact nomatch hl
  | startScan hp hd => intro i now hp j hj; cases hp; exact absurd hj (Nat.not_lt_zero _)
  | scan i now k hp hk =>
    intro i' now' hp' j hj k' hk'
    cases hp'
    show isScanned k' (.scanned k :: s.trace) = true
    simp only [isScanned]
    split
    · rfl
    · rename_i hne
      rcases Nat.lt_succ_iff_lt_or_eq.1 hj with hj | hj
      · exact ih i now hp j hj k' hk'
      · subst hj; rw [show s.pq[j]? = some k' from hk'] at hk; cases hk; exact absurd rfl hne
  | choose => intro i now hp; exact nomatch hp
  | endScan => intro i now hp; exact nomatch hp
  | sleep => intro i now hp; exact nomatch hp
  | remove => intro i now hp; exact nomatch hp
  | pick => intro i now hp; exact nomatch hp
  | pass => intro i now hp; exact nomatch hp
  | begin_ => intro i now hp; exact nomatch hp
  | resume => intro i now hp; exact nomatch hp
  | yieldOn => intro i now hp; exact nomatch hp
  | yield => intro i now hp; exact nomatch hp
  | noWait => intro i now hp; exact nomatch hp
  | register => intro i now hp; exact nomatch hp
  | finish => intro i now hp; exact nomatch hp
  | _ => exact ih

theorem scanInv {s} (h : Reachable s) : ScanInv s := by
  induction h with
  | init => intro i now hp; exact nomatch hp
  | step a hr hs ih => exact scanInv_step ih (step_case hs)

theorem least_le {s : Sys} {k c} (h : least s = some c) (hk : k ∈ s.pq) : c ≤ (s.fib k).check := by
  unfold least at h
  exact (List.min?_eq_some_iff.1 h).2 _ (List.mem_map.2 ⟨k, hk, rfl⟩)

theorem sleepTime_le (s : Sys) (now k : Nat) (hk : k ∈ s.pq) (hz : sleepTime s now ≠ 0) : now + sleepTime s now ≤ (s.fib k).check := by
  cases hl : least s with
  | none =>
    have : s.pq = [] := by
      unfold least at hl
      rw [List.min?_eq_none_iff] at hl
      exact List.map_eq_nil_iff.1 hl
    rw [this] at hk; exact nomatch hk
  | some c =>
    have e : sleepTime s now = min (min (c - now) (s.wait * 2 + 1000)) 500000000 := by unfold sleepTime; rw [hl]
    have := least_le hl hk
    rw [e] at hz ⊢
    omega

theorem sleepTime_max (s : Sys) (now : Nat) : sleepTime s now ≤ 500000000 := by unfold sleepTime; dsimp only; omega

end Verif.Fiber
