import Verif.Proofs.Geometry
/-! # Angles and vectors: properties C78–C80 -/
namespace Verif.Props
open Verif.Geometry Verif.Spec Real

/-- Two ways of rounding. -/
theorem rounds_id : Rounds (fun q => q) := by
  refine ⟨fun _ _ h => h, rfl, rfl, fun a _ => ?_, fun a _ => ?_⟩
  · simp
  · simp only [sub_self, abs_zero]; positivity

/-- Cutting after forty digits. -/
def cut (q : Rat) : Rat := (⌊q * 10 ^ 40⌋ : Rat) / 10 ^ 40

theorem cut_close (q : Rat) : |cut q - q| ≤ 1 / 10 ^ 40 := by
  unfold cut
  have h1 := Int.floor_le (q * 10 ^ 40)
  have h2 := Int.lt_floor_add_one (q * 10 ^ 40)
  rw [abs_le]
  constructor
  · rw [neg_le_sub_iff_le_add, ← add_div, le_div_iff₀ (by positivity)]; exact h2.le
  · rw [sub_le_iff_le_add, div_le_iff₀ (by positivity)]
    have : (1 / 10 ^ 40 + q) * 10 ^ 40 = 1 + q * 10 ^ 40 := by ring
    rw [this]; linarith

theorem rounds_cut : Rounds cut := by
  refine ⟨fun a b h => ?_, ?_, ?_, fun a _ => (cut_close a).trans (by norm_num), fun a _ => (cut_close a).trans ?_⟩
  · unfold cut
    have : ⌊a * 10 ^ 40⌋ ≤ ⌊b * 10 ^ 40⌋ := Int.floor_le_floor (by nlinarith)
    have : (⌊a * 10 ^ 40⌋ : Rat) ≤ (⌊b * 10 ^ 40⌋ : Rat) := by exact_mod_cast this
    gcongr
  · simp [cut]
  · have : ⌊(1 : Rat) * 10 ^ 40⌋ = 10 ^ 40 := by
      rw [one_mul]
      have := Int.floor_intCast (R := Rat) (10 ^ 40)
      push_cast at this
      exact this
    simp [cut]
    rw [one_mul] at this
    rw [this]
    norm_num
  · have h1 : 0 ≤ |a| / 10 ^ 6 := by positivity
    have h2 : (1 : Rat) / 10 ^ 40 ≤ 1 / 10 ^ 37 := by norm_num
    linarith

/-! ## C78 -/

/-- The reduced angle is in its range, for all numbers; it is the same angle, for all numbers but the 488 least ones.  Missing: those. -/
theorem C78_reduce_partial (t : Int) (h0 : -2147483648 ≤ t) (h1 : t < 2147483648) :
    (0 ≤ reduce360 t ∧ reduce360 t ≤ 359) ∧ (-179 ≤ reduce180 t ∧ reduce180 t ≤ 180)
    ∧ (-2147483160 ≤ t → (360 : Int) ∣ reduce360 t - t) ∧ (-2147483339 ≤ t → (360 : Int) ∣ reduce180 t - t) := by
  unfold reduce360 reduce180 toU32 toInt
  refine ⟨⟨?_, ?_⟩, ⟨?_, ?_⟩, fun h => ?_, fun h => ?_⟩ <;> split <;> omega

example : reduce360 (-30) = 330 ∧ reduce180 330 = -30 ∧ reduce180 180 = 180 ∧ reduce180 (-180) = 180 := by decide

/-- The least numbers are reduced to other angles: −2147483161 is 359 degrees, not 255. -/
theorem C78_least_violated : reduce360 (-2147483161) = 255 ∧ ¬ (360 : Int) ∣ 255 - (-2147483161)
    ∧ reduce180 (-2147483340) = 76 ∧ ¬ (360 : Int) ∣ 76 - (-2147483340) := by decide

/-- The sine, the cosine and the tangent are exact to the ninth, the ninth and the eighth digit; only right angles have no tangent.
Missing: the 488 least numbers. -/
theorem C78_trig_partial (t : Int) (h0 : -2147483160 ≤ t) (h1 : t < 2147483648) :
    |((do_trig_degrees t).sin : ℝ) / 10 ^ 10 - sin (t * (π / 180))| ≤ 5.001 / 10 ^ 11
    ∧ |((do_trig_degrees t).cos : ℝ) / 10 ^ 10 - cos (t * (π / 180))| ≤ 5.001 / 10 ^ 11
    ∧ (t % 180 ≠ 90 → ∃ v, (do_trig_degrees t).tan = some v ∧ |(v : ℝ) / 10 ^ 10 - tan (t * (π / 180))| ≤ 5.02 / 10 ^ 9
      ∧ (|v| < 10 ^ 11 → |(v : ℝ) / 10 ^ 10 - tan (t * (π / 180))| ≤ 5.2 / 10 ^ 10)) := by
  have hk : (t % 360).toNat < 360 := by omega
  obtain ⟨e1, e2⟩ := entry_close _ hk
  change |_ - sin ((t : ℝ) * deg)| ≤ _ ∧ |_ - cos ((t : ℝ) * deg)| ≤ _ ∧ (_ → ∃ v, _ = some v ∧ |_ - tan ((t : ℝ) * deg)| ≤ _ ∧ (_ → |_ - tan ((t : ℝ) * deg)| ≤ _))
  rw [trig_eq t h0 h1, sin_turn, cos_turn, tan_turn]
  refine ⟨e1, e2, fun ht => ?_⟩
  obtain ⟨v, hv, hc⟩ := entry_tan_close _ hk (by omega) (by omega)
  refine ⟨v, hv, hc.trans ?_, fun hs => hc.trans ?_⟩
  · have : (tanError v : ℝ) ≤ 50 := by
      have : tanError v ≤ 50 := by unfold tanError; split <;> omega
      exact_mod_cast this
    rw [div_le_div_iff₀ (by norm_num) (by norm_num)]
    linarith
  · have : tanError v = 5 := by unfold tanError; rw [if_pos (by rw [Int.abs_eq_natAbs] at hs; omega)]
    rw [this]; norm_num

example : (do_trig_degrees (-330)).sin = 5000000000 ∧ (do_trig_degrees 225).tan = some 10000000000 ∧ (do_trig_degrees 450).cos = 0 := by decide +kernel

/-- The sine of the number −2147483250, which is a right angle, is not near one. -/
theorem C78_least_sine_violated : do_trig_degrees (-2147483250) = do_trig_degrees 166 ∧ (-2147483250 : Int) % 360 = 270 := by decide +kernel

/-! ## C79 -/

/-- The direction of every vector but zero is found, and is within 0.51 degrees of the exact one, whatever the rounding.  Missing: it is
not always the nearest integral one, and it may be 360 in place of 0. -/
theorem C79_direction_partial (fl : Rat → Rat) (hfl : Rounds fl) (v : Vector2) (h : v ≠ ⟨0, 0⟩) :
    ∃ d : Int, v.direction fl = .ok d ∧ 0 ≤ d ∧ d ≤ 360
      ∧ ∃ r φ : ℝ, 0 < r ∧ v.x = r * cos φ ∧ v.y = r * sin φ ∧ |φ - d * (π / 180)| ≤ 0.51 * (π / 180) := by
  obtain ⟨x, y⟩ := v
  exact direction hfl y x (by rintro ⟨rfl, rfl⟩; exact h rfl)

example : Rounds cut ∧ (Vector2.direction (fun q => q) ⟨-3, 4⟩ = .ok 127) := ⟨rounds_cut, by decide +kernel⟩

/-- Every pair of numbers that are not both infinite has a result, not-a-numbers and infinities included. -/
theorem C79_total_partial (fl : Rat → Rat) (hfl : Rounds fl) (y x : F) (h : ¬ ((∃ a, x = .inf a) ∧ (∃ b, y = .inf b))) :
    ∃ d : Int, do_arctan_degrees fl y x = .ok d ∧ 0 ≤ d ∧ d ≤ 360 := arctan_total hfl y x h

example : do_arctan_degrees (fun q => q) .nan (.inf true) = .ok 180 ∧ do_arctan_degrees (fun q => q) (.inf true) (.num 5) = .ok 270 := by decide +kernel

/-- The direction of a vector with two infinite elements fails an assertion. -/
theorem C79_infinite_violated (fl : Rat → Rat) (a b : Bool) : do_arctan_degrees fl (.inf a) (.inf b) = .error .assertion := by
  cases a <;> cases b <;> simp [do_arctan_degrees, F.eq, F.gt, F.neg, F.div, do_reduced_arctan, Except.map]

/-- A vector that points a little below the axis has the direction 360, not 0. -/
theorem C79_360_violated : Vector2.direction (fun q => q) ⟨1, -1 / 1000⟩ = .ok 360 := by decide +kernel

/-- The nearest integral direction of this vector is 45, not 44. -/
theorem C79_nearest_violated : Vector2.direction (fun q => q) ⟨1, 9828 / 10000⟩ = .ok 44
    ∧ (44.5 : ℝ) * (π / 180) < arctan (9828 / 10000) := by
  refine ⟨by decide +kernel, ?_⟩
  change _ * deg < _
  have hc : ∀ x : ℝ, |x| ≤ 89 → cos (x * deg) ≠ 0 := fun x hx => (cos_pos_deg x hx).ne'
  have e := tan_sub_mul (45 * deg) (0.5 * deg) (hc _ (by norm_num [abs_le])) (hc _ (by norm_num [abs_le]))
    (by rw [← sub_mul]; exact hc _ (by norm_num [abs_le]))
  rw [← sub_mul, show (45 : ℝ) - 0.5 = 44.5 by norm_num, show (45 : ℝ) * deg = π / 4 by rw [pi_deg]; ring, tan_pi_div_four] at e
  have h0 := deg_pos
  have h1 := deg_bounds.1
  have ht : 0.0087265 ≤ tan (0.5 * deg) := le_trans (by norm_num at *; linarith) (le_tan (by positivity) (by rw [pi_deg]; nlinarith))
  have hn := tan_nonneg_deg 44.5 (by norm_num) (by norm_num)
  have : tan (44.5 * deg) < 9828 / 10000 := by
    by_contra hc
    push Not at hc
    nlinarith
  have h2 := arctan_strictMono this
  rwa [arctan_tan (by rw [pi_deg]; nlinarith) (by rw [pi_deg]; nlinarith)] at h2

/-! ## C80 -/

/-- The direction of a vector that was made from a length and an angle is that angle, up to whole turns. -/
theorem C80_polar (fl : Rat → Rat) (hfl : Rounds fl) (rho : Rat) (theta : Int) (h0 : -2147483160 ≤ theta) (h1 : theta < 2147483648)
    (h2 : 1 / 10 ^ 33 ≤ rho) (h3 : rho ≤ 10 ^ 38) : ∃ d : Int, (ofPolar fl rho theta).direction fl = .ok d ∧ (360 : Int) ∣ d - theta := by
  obtain ⟨d, a, _, _, b⟩ := ofPolar_direction hfl rho theta h0 h1 h2 h3
  exact ⟨d, a, b⟩

example : (ofPolar (fun q => q) 7 (-100)).direction (fun q => q) = .ok 260 := by decide +kernel

/-- A vector whose elements are within a thousandth of its length of those in the direction of an integral angle has that direction. -/
theorem C80_near (fl : Rat → Rat) (hfl : Rounds fl) (v : Vector2) (rho : ℝ) (theta : Int) (h : 0 < rho)
    (hx : |(v.x : ℝ) - rho * cos (theta * (π / 180))| ≤ rho / 1000) (hy : |(v.y : ℝ) - rho * sin (theta * (π / 180))| ≤ rho / 1000) :
    ∃ d : Int, v.direction fl = .ok d ∧ (360 : Int) ∣ d - theta := by
  obtain ⟨d, a, _, _, b⟩ := direction_angle hfl v.x v.y rho theta h hx hy
  exact ⟨d, a, b⟩

example : |((1001 / 1000 : Rat) : ℝ) - 1 * cos ((0 : Int) * (π / 180))| ≤ 1 / 1000 ∧ |((-1 / 1000 : Rat) : ℝ) - 1 * sin ((0 : Int) * (π / 180))| ≤ 1 / 1000 := by
  norm_num

/-- A rotated vector is the exact one, up to five digits. -/
theorem C80_rotate (fl : Rat → Rat) (hfl : Rounds fl) (v : Vector2) (theta : Int) (h0 : -2147483160 ≤ theta) (h1 : theta < 2147483648)
    (hx : |(v.x : ℝ)| ≤ 10 ^ 38) (hy : |(v.y : ℝ)| ≤ 10 ^ 38) :
    |((v.rotate fl theta).x : ℝ) - (v.x * cos (theta * (π / 180)) - v.y * sin (theta * (π / 180)))| ≤ (|(v.x : ℝ)| + |(v.y : ℝ)|) * (4 / 10 ^ 6) + 1 / 10 ^ 36
    ∧ |((v.rotate fl theta).y : ℝ) - (v.x * sin (theta * (π / 180)) + v.y * cos (theta * (π / 180)))| ≤ (|(v.x : ℝ)| + |(v.y : ℝ)|) * (4 / 10 ^ 6) + 1 / 10 ^ 36 :=
  rotate_close hfl v theta h0 h1 hx hy

example : Vector2.rotate (fun q => q) ⟨3, 4⟩ 90 = ⟨-4, 3⟩ := by decide +kernel

/-- The angle from a vector to its rotation is the angle of the rotation, up to whole turns. -/
theorem C80_angle (fl : Rat → Rat) (hfl : Rounds fl) (v : Vector2) (theta : Int) (h0 : -2147483160 ≤ theta) (h1 : theta < 2147483648)
    (h2 : 1 / 10 ^ 24 ≤ v.x ^ 2 + v.y ^ 2) (h3 : v.x ^ 2 + v.y ^ 2 ≤ 10 ^ 36) :
    ∃ d : Int, (v.rotate fl theta).angle_from fl v = .ok d ∧ (360 : Int) ∣ d - theta := by
  obtain ⟨d, a, _, _, b⟩ := rotate_angle hfl v theta h0 h1 h2 h3
  exact ⟨d, a, b⟩

example : (Vector2.rotate (fun q => q) ⟨3, 4⟩ 200).angle_from (fun q => q) ⟨3, 4⟩ = .ok 200 := by decide +kernel

end Verif.Props
