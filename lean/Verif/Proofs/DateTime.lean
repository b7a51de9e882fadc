import Verif.Spec.DateTime
/-!
# The calendar: `gmtime_r()` and `timegm()` are inverse
-/
namespace Verif.DateTime

theorem yearDays_succ (y : Nat) : yearDays (y + 1) = yearDays y + (if leap y then 366 else 365) := by
  have h4 : (y + 1 + 3) / 4 = (y + 3) / 4 + (if y % 4 = 0 then 1 else 0) := by split <;> omega
  have h100 : (y + 1 + 99) / 100 = (y + 99) / 100 + (if y % 100 = 0 then 1 else 0) := by split <;> omega
  have h400 : (y + 1 + 399) / 400 = (y + 399) / 400 + (if y % 400 = 0 then 1 else 0) := by split <;> omega
  have m1 : y % 400 = 0 → y % 100 = 0 := by omega
  have m2 : y % 100 = 0 → y % 4 = 0 := by omega
  have hle : (y + 99) / 100 ≤ (y + 3) / 4 := by omega
  unfold yearDays leap
  rw [h4, h100, h400]
  clear h4 h100 h400
  generalize (y + 3) / 4 = A at *
  generalize (y + 99) / 100 = B at *
  generalize (y + 399) / 400 = C at *
  by_cases c1 : y % 4 = 0 <;> by_cases c2 : y % 100 = 0 <;> by_cases c3 : y % 400 = 0 <;>
    first
    | exact absurd (m2 c2) c1
    | exact absurd (m1 c3) c2
    | (simp [c1, c2, c3]; done)
    | (simp [c1, c2, c3]; omega)

theorem yearDays_le (y : Nat) : yearDays y ≤ 366 * y := by unfold yearDays; omega
theorem le_yearDays (y : Nat) : 365 * y ≤ yearDays y := by unfold yearDays; omega

theorem findYear_spec (n : Nat) : ∀ fuel y, yearDays y ≤ n → n < fuel + y → yearDays (findYear n fuel y) ≤ n ∧ n < yearDays (findYear n fuel y + 1) := by
  intro fuel
  induction fuel with
  | zero => intro y h1 h2; have := le_yearDays y; omega
  | succ k ih =>
    intro y h1 h2
    rw [findYear]
    split
    · rename_i h; exact ih (y + 1) h (by omega)
    · rename_i h; exact ⟨h1, by omega⟩

theorem yearDays_mono {a b : Nat} (h : a ≤ b) : yearDays a ≤ yearDays b := by
  induction b with
  | zero => cases Nat.le_zero.1 h; exact Nat.le_refl _
  | succ b ih =>
    rcases Nat.lt_or_ge a (b + 1) with h1 | h1
    · rw [yearDays_succ]; exact Nat.le_trans (ih (by omega)) (Nat.le_add_right _ _)
    · cases Nat.le_antisymm h h1; exact Nat.le_refl _

/-- The year of a day is unique. -/
theorem year_unique {n a b : Nat} (h1 : yearDays a ≤ n) (h2 : n < yearDays (a + 1)) (h3 : yearDays b ≤ n) (h4 : n < yearDays (b + 1)) : a = b := by
  rcases Nat.lt_trichotomy a b with h | h | h
  · have := yearDays_mono (show a + 1 ≤ b from h); omega
  · exact h
  · have := yearDays_mono (show b + 1 ≤ a from h); omega

theorem findMonth_spec (lp : Bool) (n : Nat) : ∀ m, monthDays lp (findMonth lp n m) ≤ n ∧ findMonth lp n m ≤ m ∧ ∀ j, findMonth lp n m < j → j ≤ m → n < monthDays lp j := by
  intro m
  induction m with
  | zero => exact ⟨Nat.zero_le _, Nat.le_refl _, fun j h1 h2 => by simp only [findMonth] at h1; omega⟩
  | succ m ih =>
    rw [findMonth]
    split
    · rename_i h; exact ⟨h, Nat.le_refl _, fun j h1 h2 => by omega⟩
    · rename_i h
      refine ⟨ih.1, by omega, fun j h1 h2 => ?_⟩
      rcases Nat.lt_or_ge j (m + 1) with h3 | h3
      · exact ih.2.2 j h1 (by omega)
      · cases Nat.le_antisymm h2 h3; omega

/-- The number of days of a month. -/
def monthLen (lp : Bool) (m : Nat) : Nat := if m < 11 then monthDays lp (m + 1) - monthDays lp m else 31

theorem monthLen_eq {m : Nat} (h : m ≤ 11) (y : Nat) : monthLen (leap y) m = daysIn y (m + 1) := by
  have hl : leap y = decide (y % 4 = 0 ∧ (y % 100 ≠ 0 ∨ y % 400 = 0)) := rfl
  unfold daysIn
  rw [hl]
  by_cases hc : y % 4 = 0 ∧ (y % 100 ≠ 0 ∨ y % 400 = 0)
  · simp only [hc, decide_true, if_true]
    have : m = 0 ∨ m = 1 ∨ m = 2 ∨ m = 3 ∨ m = 4 ∨ m = 5 ∨ m = 6 ∨ m = 7 ∨ m = 8 ∨ m = 9 ∨ m = 10 ∨ m = 11 := by omega
    rcases this with rfl | rfl | rfl | rfl | rfl | rfl | rfl | rfl | rfl | rfl | rfl | rfl <;> rfl
  · simp only [hc, decide_false, if_false]
    have : m = 0 ∨ m = 1 ∨ m = 2 ∨ m = 3 ∨ m = 4 ∨ m = 5 ∨ m = 6 ∨ m = 7 ∨ m = 8 ∨ m = 9 ∨ m = 10 ∨ m = 11 := by omega
    rcases this with rfl | rfl | rfl | rfl | rfl | rfl | rfl | rfl | rfl | rfl | rfl | rfl <;> rfl

theorem monthDays_succ (lp : Bool) {m : Nat} (h : m < 11) : monthDays lp (m + 1) = monthDays lp m + monthLen lp m := by
  unfold monthLen
  rw [if_pos h]
  have : m = 0 ∨ m = 1 ∨ m = 2 ∨ m = 3 ∨ m = 4 ∨ m = 5 ∨ m = 6 ∨ m = 7 ∨ m = 8 ∨ m = 9 ∨ m = 10 := by omega
  cases lp <;> rcases this with rfl | rfl | rfl | rfl | rfl | rfl | rfl | rfl | rfl | rfl | rfl <;> rfl

theorem monthLen_bounds (lp : Bool) (m : Nat) (h : m ≤ 11) : 28 ≤ monthLen lp m ∧ monthLen lp m ≤ 31 := by
  have : m = 0 ∨ m = 1 ∨ m = 2 ∨ m = 3 ∨ m = 4 ∨ m = 5 ∨ m = 6 ∨ m = 7 ∨ m = 8 ∨ m = 9 ∨ m = 10 ∨ m = 11 := by omega
  cases lp <;> rcases this with rfl | rfl | rfl | rfl | rfl | rfl | rfl | rfl | rfl | rfl | rfl | rfl <;> decide

theorem monthDays_mono (lp : Bool) {a b : Nat} (h : a ≤ b) (hb : b ≤ 11) : monthDays lp a ≤ monthDays lp b := by
  induction b with
  | zero => cases Nat.le_zero.1 h; exact Nat.le_refl _
  | succ b ih =>
    rcases Nat.lt_or_ge a (b + 1) with h1 | h1
    · rw [monthDays_succ lp (by omega)]; exact Nat.le_trans (ih (by omega) (by omega)) (Nat.le_add_right _ _)
    · cases Nat.le_antisymm h h1; exact Nat.le_refl _

/-- What a day is. -/
structure IsDay (n : Nat) (y m d : Nat) : Prop where
  mon : m ≤ 11
  pos : 1 ≤ d
  len : d ≤ monthLen (leap y) m
  eq : n = yearDays y + monthDays (leap y) m + d - 1

theorem IsDay.year {n y m d : Nat} (h : IsDay n y m d) : yearDays y ≤ n ∧ n < yearDays (y + 1) := by
  obtain ⟨h1, h2, h3, h4⟩ := h
  have h5 : monthDays (leap y) m + monthLen (leap y) m ≤ (if leap y then 366 else 365) := by
    by_cases hm : m < 11
    · rw [← monthDays_succ _ hm]
      refine Nat.le_trans (monthDays_mono _ (show m + 1 ≤ 11 by omega) (Nat.le_refl _)) ?_
      cases leap y <;> decide
    · have : m = 11 := by omega
      subst this
      cases leap y <;> decide
  rw [yearDays_succ]
  omega

theorem IsDay.unique {n y m d y' m' d' : Nat} (h : IsDay n y m d) (h' : IsDay n y' m' d') : y = y' ∧ m = m' ∧ d = d' := by
  have hy : y = y' := year_unique h.year.1 h.year.2 h'.year.1 h'.year.2
  subst hy
  obtain ⟨h1, h2, h3, h4⟩ := h
  obtain ⟨h1', h2', h3', h4'⟩ := h'
  have key : ∀ a b da db, a < b → b ≤ 11 → da ≤ monthLen (leap y) a → 1 ≤ db → yearDays y + monthDays (leap y) a + da - 1 < yearDays y + monthDays (leap y) b + db - 1 ∨ da = 0 := by
    intro a b da db hab hb hda hdb
    have e1 := monthDays_succ (leap y) (show a < 11 by omega)
    have e2 := monthDays_mono (leap y) (show a + 1 ≤ b from hab) hb
    omega
  rcases Nat.lt_trichotomy m m' with h | h | h
  · rcases key m m' d d' h h1' h3 h2' with h | h <;> omega
  · subst h; exact ⟨rfl, rfl, by omega⟩
  · rcases key m' m d' d h h1 h3' h2 with h | h <;> omega

theorem findDay (n : Nat) : let y := findYear n (n + 1) (n / 366); let m := findMonth (leap y) (n - yearDays y) 11
    IsDay n y m (n - yearDays y - monthDays (leap y) m + 1) := by
  intro y m
  have hy := findYear_spec n (n + 1) (n / 366) (Nat.le_trans (yearDays_le _) (Nat.mul_div_le _ _)) (by omega)
  obtain ⟨hm1, hm2, hm3⟩ := findMonth_spec (leap y) (n - yearDays y) 11
  refine ⟨hm2, Nat.le_add_left _ _, ?_, ?_⟩
  · by_cases h : m < 11
    · have h1 := hm3 (m + 1) (Nat.lt_succ_self _) (by omega)
      rw [monthDays_succ _ h] at h1
      have : monthDays (leap y) m ≤ n - yearDays y := hm1
      omega
    · have hm : m = 11 := by omega
      have hd := hy.2
      rw [yearDays_succ] at hd
      have hlen : monthLen (leap y) m = 31 := by rw [hm]; rfl
      have hmd : monthDays (leap y) m = if leap y then 335 else 334 := by rw [hm]; cases leap y <;> rfl
      rw [hlen, hmd]
      show n - yearDays y - _ + 1 ≤ 31
      have hd : n < yearDays y + (if leap y then 366 else 365) := hd
      split at hd <;> rename_i hl <;> simp only [hl, Bool.false_eq_true, ↓reduceIte] <;> omega
  · have h1 : yearDays y ≤ n := hy.1
    have h2 : monthDays (leap y) m ≤ n - yearDays y := hm1
    show n = yearDays y + monthDays (leap y) m + (n - yearDays y - monthDays (leap y) m + 1) - 1
    omega

structure Valid (tm : Tm) : Prop where
  mon : tm.mon ≤ 11
  pos : 1 ≤ tm.mday
  mday : tm.mday ≤ 31
  hour : tm.hour ≤ 23
  min : tm.min ≤ 59
  sec : tm.sec ≤ 59
  wday : tm.wday ≤ 6

theorem breakDown_valid (t off : Int) : Valid (breakDown t off) := by
  have h := findDay ((t + off + epoch).toNat / 86400)
  refine ⟨h.mon, h.pos, Nat.le_trans h.len (monthLen_bounds _ _ h.mon).2, ?_, ?_, ?_, ?_⟩ <;> simp only [breakDown] <;> omega

theorem breakDown_day (t off : Int) : IsDay ((t + off + epoch).toNat / 86400) (breakDown t off).year (breakDown t off).mon (breakDown t off).mday := findDay _

theorem timegm_breakDown (t off : Int) (h : 0 ≤ t + off + epoch) : timegm (breakDown t off) = t + off := by
  have hd := breakDown_day t off
  have hp := hd.pos
  have he := hd.eq
  unfold timegm
  have hs : (breakDown t off).hour * 3600 + (breakDown t off).min * 60 + (breakDown t off).sec = (t + off + epoch).toNat % 86400 := by
    simp only [breakDown]; omega
  rw [hs]
  generalize yearDays (breakDown t off).year + monthDays (leap (breakDown t off).year) (breakDown t off).mon = a at *
  generalize (breakDown t off).mday = b at *
  unfold epoch at *
  omega

/-- Years are within these bounds if seconds are. -/
theorem breakDown_year {t off : Int} {a b : Nat} (ha : ((yearDays a : Nat) : Int) * 86400 ≤ t + off + epoch) (hb : t + off + epoch < ((yearDays b : Nat) : Int) * 86400) :
    a ≤ (breakDown t off).year ∧ (breakDown t off).year < b := by
  obtain ⟨h1, h2⟩ := (breakDown_day t off).year
  constructor
  · rcases Nat.lt_or_ge (breakDown t off).year a with h | h
    · have := yearDays_mono (show (breakDown t off).year + 1 ≤ a from h); omega
    · exact h
  · rcases Nat.lt_or_ge (breakDown t off).year b with h | h
    · exact h
    · have := yearDays_mono h; omega

theorem IsDay.next {n y m d : Nat} (h : IsDay n y m d) : let x := Date.next ⟨y, m + 1, d⟩; 1 ≤ x.month ∧ IsDay (n + 1) x.year (x.month - 1) x.day := by
  obtain ⟨h1, h2, h3, h4⟩ := h
  intro x
  have hx : x = Date.next ⟨y, m + 1, d⟩ := rfl
  unfold Date.next at hx
  simp only at hx
  rw [← monthLen_eq h1] at hx
  split at hx
  · rename_i hd
    rw [hx]
    exact ⟨Nat.le_add_left _ _, h1, Nat.le_add_left _ _, hd, by simp only [Nat.add_sub_cancel]; omega⟩
  · rename_i hd
    split at hx
    · rename_i hm
      rw [hx]
      refine ⟨Nat.le_add_left _ _, by simp only; omega, Nat.le_refl _, ?_, ?_⟩
      · exact Nat.le_trans (show 1 ≤ 28 by decide) (monthLen_bounds _ _ (by simp only; omega)).1
      · simp only [Nat.add_sub_cancel]
        rw [monthDays_succ _ (by omega)]; omega
    · rename_i hm
      rw [hx]
      have : m = 11 := by omega
      subst this
      refine ⟨Nat.le_refl _, Nat.zero_le _, Nat.le_refl _, ?_, ?_⟩
      · exact Nat.le_trans (show 1 ≤ 28 by decide) (monthLen_bounds _ _ (Nat.zero_le _)).1
      · rw [yearDays_succ]
        have h5 : monthLen (leap y) 11 = 31 := rfl
        have h6 : monthDays (leap y) 11 = if leap y then 335 else 334 := by cases leap y <;> rfl
        have h7 : ∀ lp, monthDays lp (1 - 1) = 0 := fun _ => rfl
        rw [h5] at hd h3
        rw [h7]
        split at h6 <;> rename_i hl <;> simp only [hl, Bool.false_eq_true, ↓reduceIte] <;> omega

theorem breakDown_next (t off : Int) (h : 0 ≤ t + off + epoch) : (breakDown (t + 86400) off).date = (breakDown t off).date.next := by
  have h1 := breakDown_day t off
  have h2 := breakDown_day (t + 86400) off
  have h3 : (t + 86400 + off + epoch).toNat / 86400 = (t + off + epoch).toNat / 86400 + 1 := by omega
  rw [h3] at h2
  obtain ⟨h4, h5⟩ := h1.next
  obtain ⟨e1, e2, e3⟩ := h2.unique h5
  have hd : (breakDown t off).date = ⟨(breakDown t off).year, (breakDown t off).mon + 1, (breakDown t off).mday⟩ := rfl
  rw [hd]
  generalize Date.next _ = x at *
  cases x with
  | mk yy mm dd =>
    simp only at e1 e2 e3 h4
    unfold Tm.date
    rw [e1, e2, e3]
    congr 1
    omega

end Verif.DateTime
