import Verif.Proofs.GeometryTable
import Verif.Spec.Geometry
import Mathlib.Analysis.SpecialFunctions.Trigonometric.Arctan
/-! # Angles: reduction, the table for all integers, and directions -/
namespace Verif.Geometry
open Real Verif.Spec

/-! ### Reduction -/

theorem index_eq (t : Int) (h : -2147483160 ≤ t) (h' : t < 2147483648) : (((toU32 t + 2147483160) % 4294967296 % 360 : Nat) : Int) = t % 360 := by
  unfold toU32; omega

theorem getD_congr {α : Type} (l : List α) (d : α) {i j : Nat} (h : i = j) : l.getD i d = l.getD j d := by rw [h]

theorem trig_eq (t : Int) (h : -2147483160 ≤ t) (h' : t < 2147483648) : do_trig_degrees t = entry (t % 360).toNat := by
  have := index_eq t h h'
  exact getD_congr table default (by omega)

theorem turn (t : Int) : ∃ n : Int, (t : ℝ) * deg = ((t % 360).toNat : ℝ) * deg + n * (2 * π) := by
  refine ⟨t / 360, ?_⟩
  have h1 : t = (t % 360).toNat + 360 * (t / 360) := by omega
  have h2 : (t : ℝ) = ((t % 360).toNat : ℝ) + 360 * ((t / 360 : Int) : ℝ) := by exact_mod_cast h1
  rw [h2]
  unfold deg
  ring

theorem sin_turn (t : Int) : sin (t * deg) = sin ((t % 360).toNat * deg) := by
  obtain ⟨n, hn⟩ := turn t
  rw [hn, sin_add_int_mul_two_pi]

theorem cos_turn (t : Int) : cos (t * deg) = cos ((t % 360).toNat * deg) := by
  obtain ⟨n, hn⟩ := turn t
  rw [hn, cos_add_int_mul_two_pi]

theorem tan_turn (t : Int) : tan (t * deg) = tan ((t % 360).toNat * deg) := by
  rw [tan_eq_sin_div_cos, tan_eq_sin_div_cos, sin_turn, cos_turn]

theorem entry_tan_close (k : Nat) (hk : k < 360) (h1 : k ≠ 90) (h2 : k ≠ 270) :
    ∃ t, (entry k).tan = some t ∧ |(t : ℝ) / 10 ^ 10 - tan (k * deg)| ≤ ((tanError t : ℝ) + 0.2) / 10 ^ 10 := by
  obtain ⟨t, ht, a, b, c⟩ := entry_tan_fine k hk h1 h2
  obtain ⟨h3, h4⟩ := fine_close k hk
  refine ⟨t, ht, ?_⟩
  have a := natAbs_real (n := tanError t * (fineAt k).c.natAbs) a
  have hc : ((fineAt k).c.natAbs : ℝ) = |((fineAt k).c : ℝ)| := by rw [← Int.cast_abs, Int.abs_eq_natAbs]; simp
  have c := natAbs_real c
  have b : (17 * 10 ^ 18 : ℝ) ≤ |((fineAt k).c : ℝ)| := by rw [← hc]; exact_mod_cast b
  push_cast at a c
  rw [hc] at a
  generalize ((fineAt k).c : ℝ) = C at *
  generalize ((fineAt k).s : ℝ) = S at *
  have he : (0 : ℝ) ≤ tanError t := Nat.cast_nonneg _
  have he' : (tanError t : ℝ) ≤ 50 := by
    have : tanError t ≤ 50 := by unfold tanError; split <;> omega
    exact_mod_cast this
  generalize (tanError t : ℝ) = E at *
  generalize (t : ℝ) = T at *
  generalize hx : (k : ℝ) * deg = x at *
  have hcl : |C| / 10 ^ 21 - 5 / 10 ^ 15 ≤ |cos x| := by
    have := abs_sub_abs_le_abs_sub (C / 10 ^ 21) (cos x)
    rw [abs_sub_comm] at h3
    rw [abs_div, abs_of_pos (show (0 : ℝ) < 10 ^ 21 by norm_num)] at this
    linarith
  have hcu : |cos x| ≤ |C| / 10 ^ 21 + 5 / 10 ^ 15 := by
    have := abs_sub_abs_le_abs_sub (cos x) (C / 10 ^ 21)
    rw [abs_div, abs_of_pos (show (0 : ℝ) < 10 ^ 21 by norm_num)] at this
    linarith
  have hpos : 0 < |cos x| := by linarith
  have hne : cos x ≠ 0 := abs_pos.mp hpos
  rw [tan_eq_sin_div_cos]
  have e : T / 10 ^ 10 - sin x / cos x = (T / 10 ^ 10 * cos x - sin x) / cos x := by field_simp
  rw [e, abs_div, div_le_iff₀ hpos]
  have e2 : T / 10 ^ 10 * cos x - sin x = (T * C - S * 10 ^ 10) / 10 ^ 31 + T / 10 ^ 10 * (cos x - C / 10 ^ 21) - (sin x - S / 10 ^ 21) := by ring
  rw [e2]
  refine (abs_sub _ _).trans ?_
  have t1 : |(T * C - S * 10 ^ 10) / 10 ^ 31 + T / 10 ^ 10 * (cos x - C / 10 ^ 21)| ≤ E * |C| / 10 ^ 31 + 58 * (5 / 10 ^ 15) := by
    refine (abs_add_le _ _).trans ?_
    rw [abs_div, abs_mul, abs_div, abs_of_pos (show (0 : ℝ) < 10 ^ 31 by norm_num), abs_of_pos (show (0 : ℝ) < 10 ^ 10 by norm_num)]
    have u1 : |T * C - S * 10 ^ 10| / 10 ^ 31 ≤ E * |C| / 10 ^ 31 := by
      refine div_le_div_of_nonneg_right ?_ (by norm_num)
      norm_num at a ⊢
      exact a
    have u2 : |T| / 10 ^ 10 * |cos x - C / 10 ^ 21| ≤ 58 * (5 / 10 ^ 15) := by
      refine mul_le_mul ?_ h3 (abs_nonneg _) (by norm_num)
      rw [div_le_iff₀ (by norm_num)]
      linarith
    linarith
  have t2 : E * |C| / 10 ^ 31 ≤ E / 10 ^ 10 * (|cos x| + 5 / 10 ^ 15) := by
    have : E * |C| / 10 ^ 31 = E / 10 ^ 10 * (|C| / 10 ^ 21) := by ring
    rw [this]
    refine mul_le_mul_of_nonneg_left (by linarith) (by positivity)
  have t3 : E / 10 ^ 10 * (5 / 10 ^ 15) ≤ 50 / 10 ^ 10 * (5 / 10 ^ 15) := by gcongr
  have t4 : (E + 0.2) / 10 ^ 10 * |cos x| = E / 10 ^ 10 * |cos x| + 0.2 / 10 ^ 10 * |cos x| := by ring
  rw [t4]
  have t5 : E / 10 ^ 10 * (|cos x| + 5 / 10 ^ 15) = E / 10 ^ 10 * |cos x| + E / 10 ^ 10 * (5 / 10 ^ 15) := by ring
  have t6 : (0.0169 : ℝ) ≤ |cos x| := by
    refine le_trans ?_ hcl
    have : (17 * 10 ^ 18 : ℝ) / 10 ^ 21 ≤ |C| / 10 ^ 21 := by gcongr
    norm_num at *
    linarith
  norm_num at *
  linarith

/-! ### The search -/

theorem tan_small : ∀ k < 46, 0 ≤ (entry k).tan.getD 0 ∧ (entry k).tan.getD 0 ≤ 10000000000 := by decide +kernel

theorem tan_ends : (entry 0).tan = some 0 ∧ (entry 45).tan = some 10000000000 := by decide +kernel

section
variable {fl : Rat → Rat} (hfl : Rounds fl)
include hfl

theorem tanAt_zero : tanAt fl 0 = 0 := by
  unfold tanAt
  rw [show (table.getD 0 default).tan = some 0 from tan_ends.1]
  simpa using hfl.zero

theorem tanAt_last : tanAt fl 45 = 1 := by
  unfold tanAt
  rw [show (table.getD 45 default).tan = some 10000000000 from tan_ends.2]
  have : ((((some 10000000000 : Option Int).getD 0 : Int) : Rat) / 10000000000) = 1 := by norm_num
  rw [this]
  exact hfl.one

theorem fl_close (q : Rat) (h : |q| ≤ 1) : |((fl q : Rat) : ℝ) - (q : ℝ)| ≤ 1 / 10 ^ 7 := by
  have := (Rat.cast_le (K := ℝ)).mpr (hfl.close q h)
  push_cast at this
  exact this

theorem tanAt_close (k : Nat) (hk : k < 46) : |((tanAt fl k : Rat) : ℝ) - tan (k * deg)| ≤ 1.01 / 10 ^ 7 := by
  obtain ⟨t, ht, h⟩ := entry_tan_close k (by omega) (by omega) (by omega)
  obtain ⟨h1, h2⟩ := tan_small k hk
  rw [ht, Option.getD_some] at h1 h2
  have he : tanError t = 5 := by unfold tanError; rw [if_pos (by omega)]
  rw [he] at h
  unfold tanAt
  rw [show (table.getD k default).tan = some t from ht, Option.getD_some]
  have hq : |(t : Rat) / 10000000000| ≤ 1 := by
    rw [abs_of_nonneg (by positivity), div_le_one (by norm_num)]
    exact_mod_cast h2
  have := fl_close hfl _ hq
  push_cast at this
  rw [abs_le] at *
  norm_num at *
  constructor <;> linarith [this.1, this.2, h.1, h.2]

theorem search_spec (slope : Rat) (n lower theta : Nat) (h1 : 1 ≤ lower) (h2 : lower ≤ theta) (h3 : theta ≤ 45) (hn : theta - lower ≤ n)
    (hl : tanAt fl (lower - 1) ≤ slope) (hu : theta = 45 ∨ slope < tanAt fl theta) :
    1 ≤ search fl slope n lower theta ∧ search fl slope n lower theta ≤ 45 ∧ tanAt fl (search fl slope n lower theta - 1) ≤ slope
      ∧ (search fl slope n lower theta = 45 ∨ slope < tanAt fl (search fl slope n lower theta)) := by
  induction n generalizing lower theta with
  | zero =>
    have : lower = theta := by omega
    subst this
    exact ⟨h1, h3, hl, hu⟩
  | succ n ih =>
    unfold search
    split
    · rename_i he
      subst he
      exact ⟨h1, h3, hl, hu⟩
    · split
      · rename_i hs
        exact ih _ _ h1 (by omega) (by omega) (by omega) hl (.inr hs)
      · rename_i hs
        exact ih _ _ (by omega) (by omega) h3 (by omega) (by simpa using hs) hu

/-- What the reduced function gives for a slope from zero to one. -/
theorem reduced_spec (s : Rat) (h0 : 0 ≤ s) (h1 : s ≤ 1) : ∃ k : Nat, 1 ≤ k ∧ k ≤ 45 ∧ tanAt fl (k - 1) ≤ s ∧ s ≤ tanAt fl k
    ∧ ((do_reduced_arctan fl (.num s) = .ok (k : Int) ∧ fl (tanAt fl k - s) < fl (s - tanAt fl (k - 1)))
      ∨ (do_reduced_arctan fl (.num s) = .ok ((k - 1 : Nat) : Int) ∧ fl (s - tanAt fl (k - 1)) ≤ fl (tanAt fl k - s))) := by
  obtain ⟨a, b, c, d⟩ := search_spec hfl s 45 1 45 (by omega) (by omega) (by omega) (by omega) (by simpa [tanAt_zero hfl] using h0) (.inl rfl)
  refine ⟨search fl s 45 1 45, a, b, c, ?_, ?_⟩
  · rcases d with d | d
    · rw [d, tanAt_last hfl]; exact h1
    · exact le_of_lt d
  · have hd : s < tanAt fl (search fl s 45 1 45) ∨ s = 1 := by
      rcases d with d | d
      · rw [d, tanAt_last hfl]; exact lt_or_eq_of_le h1
      · exact .inl d
    unfold do_reduced_arctan
    simp only []
    rw [if_neg (not_not.mpr (And.intro h0 h1)), if_neg (not_not.mpr hd), if_neg (not_not.mpr c)]
    split
    · rename_i h; exact .inl ⟨rfl, h⟩
    · rename_i h; exact .inr ⟨rfl, not_lt.mp h⟩

end

/-! ### The tangents of neighbouring angles -/

theorem deg_pos : 0 < deg := by unfold deg; positivity

theorem deg_bounds : 0.017453 ≤ deg ∧ deg ≤ 0.0174533 := by
  unfold deg
  have h1 := pi_gt_d6
  have h2 := pi_lt_d6
  constructor <;> linarith

theorem tan_add_mul (x y : ℝ) (hx : cos x ≠ 0) (hy : cos y ≠ 0) (h : cos (x + y) ≠ 0) : tan (x + y) * (1 - tan x * tan y) = tan x + tan y := by
  have e : cos x * cos y - sin x * sin y ≠ 0 := by rw [← cos_add]; exact h
  rw [tan_eq_sin_div_cos, tan_eq_sin_div_cos, tan_eq_sin_div_cos, sin_add, cos_add]
  have e' : 1 - sin x / cos x * (sin y / cos y) = (cos x * cos y - sin x * sin y) / (cos x * cos y) := by field_simp
  rw [e', div_mul_div_cancel₀ e]
  field_simp

theorem pi_deg : π = 180 * deg := by unfold deg; ring

theorem cos_pos_deg (x : ℝ) (h : |x| ≤ 89) : 0 < cos (x * deg) := by
  have := deg_pos
  rw [abs_le] at h
  apply cos_pos_of_mem_Ioo
  constructor <;> rw [pi_deg] <;> nlinarith

theorem tan_nonneg_deg (x : ℝ) (h0 : 0 ≤ x) (h : x ≤ 89) : 0 ≤ tan (x * deg) := by
  have := deg_pos
  apply tan_nonneg_of_nonneg_of_le_pi_div_two
  · positivity
  · rw [pi_deg]; nlinarith

theorem tan_le_one (x : ℝ) (h0 : 0 ≤ x) (h : x ≤ 45) : tan (x * deg) ≤ 1 := by
  have := deg_pos
  rw [← tan_pi_div_four]
  have e : π / 4 = 45 * deg := by rw [pi_deg]; ring
  rw [e]
  rcases eq_or_lt_of_le h with h | h
  · rw [h]
  · refine le_of_lt (tan_lt_tan_of_nonneg_of_lt_pi_div_two (by positivity) (by rw [pi_deg]; nlinarith) (by nlinarith))

theorem tan_one_deg : deg ≤ tan deg ∧ tan deg ≤ 0.017456 := by
  have h0 := deg_pos
  obtain ⟨h1, h2⟩ := deg_bounds
  constructor
  · exact le_tan h0.le (by rw [pi_deg]; nlinarith)
  · have hc : 1 - deg ^ 2 / 2 ≤ cos deg := one_sub_sq_div_two_le_cos
    have hs : sin deg ≤ deg := sin_le h0.le
    have hp : 0.9998 ≤ cos deg := by nlinarith
    rw [tan_eq_sin_div_cos, div_le_iff₀ (by linarith)]
    nlinarith

theorem tan_half_deg : 0.0089 ≤ tan (0.51 * deg) := by
  have h0 := deg_pos
  obtain ⟨h1, h2⟩ := deg_bounds
  refine le_trans ?_ (le_tan (by positivity) (by rw [pi_deg]; nlinarith))
  norm_num at *
  linarith

theorem tan_sub_mul (x y : ℝ) (hx : cos x ≠ 0) (hy : cos y ≠ 0) (h : cos (x - y) ≠ 0) : tan (x - y) * (1 + tan x * tan y) = tan x - tan y := by
  have := tan_add_mul x (-y) hx (by simpa using hy) (by simpa [sub_eq_add_neg] using h)
  rw [tan_neg] at this
  rw [sub_eq_add_neg]
  linarith

/-- Between two neighbouring angles: the middle of the tangents is not far from the tangent of the middle. -/
theorem tan_mid (L : ℝ) (h0 : 0 ≤ L) (h1 : L ≤ 44) :
    (tan (L * deg) + tan ((L + 1) * deg)) / 2 + 4 / 10 ^ 6 ≤ tan ((L + 0.51) * deg)
      ∧ tan ((L + 1 - 0.51) * deg) ≤ (tan (L * deg) + tan ((L + 1) * deg)) / 2 - 4 / 10 ^ 6 := by
  have hc : ∀ x : ℝ, |x| ≤ 89 → cos (x * deg) ≠ 0 := fun x hx => (cos_pos_deg x hx).ne'
  have a0 := tan_nonneg_deg L h0 (by linarith)
  have a1 := tan_le_one L h0 (by linarith)
  have b0 := tan_nonneg_deg (L + 1) (by linarith) (by linarith)
  have b1 := tan_le_one (L + 1) (by linarith) (by linarith)
  have e1 := tan_add_mul (L * deg) deg (hc _ (by rw [abs_le]; constructor <;> linarith)) (by simpa using hc 1 (by norm_num))
    (by rw [show L * deg + deg = (L + 1) * deg by ring]; exact hc _ (by rw [abs_le]; constructor <;> linarith))
  have e2 := tan_add_mul (L * deg) (0.51 * deg) (hc _ (by rw [abs_le]; constructor <;> linarith)) (hc _ (by norm_num [abs_le]))
    (by rw [show L * deg + 0.51 * deg = (L + 0.51) * deg by ring]; exact hc _ (by rw [abs_le]; constructor <;> linarith))
  have e3 := tan_sub_mul ((L + 1) * deg) (0.51 * deg) (hc _ (by rw [abs_le]; constructor <;> linarith)) (hc _ (by norm_num [abs_le]))
    (by rw [show (L + 1) * deg - 0.51 * deg = (L + 1 - 0.51) * deg by ring]; exact hc _ (by rw [abs_le]; constructor <;> linarith))
  have m0 := tan_nonneg_deg (L + 0.51) (by linarith) (by linarith)
  have n0 := tan_nonneg_deg (L + 1 - 0.51) (by linarith) (by linarith)
  have m1 := tan_le_one (L + 0.51) (by linarith) (by linarith)
  have n1 := tan_le_one (L + 1 - 0.51) (by linarith) (by linarith)
  rw [show L * deg + deg = (L + 1) * deg by ring] at e1
  rw [show L * deg + 0.51 * deg = (L + 0.51) * deg by ring] at e2
  rw [show (L + 1) * deg - 0.51 * deg = (L + 1 - 0.51) * deg by ring] at e3
  obtain ⟨t1, t2⟩ := tan_one_deg
  have d1 := deg_bounds.1
  have u := tan_half_deg
  generalize tan (L * deg) = a at *
  generalize tan ((L + 1) * deg) = b at *
  generalize tan ((L + 0.51) * deg) = m at *
  generalize tan ((L + 1 - 0.51) * deg) = n at *
  generalize tan deg = t at *
  generalize tan (0.51 * deg) = h at *
  have T1 : 0.017453 ≤ t := by linarith
  have hb : b - a = t * (1 + a * b) := by linarith
  have hm : m - a = h * (1 + m * a) := by linarith
  have hn : b - n = h * (1 + n * b) := by linarith
  have ab0 := mul_nonneg a0 b0
  have ma0 := mul_nonneg m0 a0
  have nb0 := mul_nonneg n0 b0
  have ab1 : a * b ≤ 1 := by nlinarith
  have hb' : b - a ≤ 0.017456 * (1 + a * b) := by rw [hb]; exact mul_le_mul_of_nonneg_right t2 (by linarith)
  have hm' : 0.0089 * (1 + m * a) ≤ m - a := by rw [hm]; exact mul_le_mul_of_nonneg_right u (by linarith)
  have hn' : 0.0089 * (1 + n * b) ≤ b - n := by rw [hn]; exact mul_le_mul_of_nonneg_right u (by linarith)
  constructor
  · have w1 : (a + 0.0089) * a ≤ m * a := mul_le_mul_of_nonneg_right (by linarith) a0
    have w2 : a * b ≤ a * (a + 0.034912) := mul_le_mul_of_nonneg_left (by linarith) a0
    nlinarith [sq_nonneg (a - 0.657)]
  · rcases le_total n a with hna | hna
    · have : 0.017453 * (1 + a * b) ≤ b - a := by rw [hb]; exact mul_le_mul_of_nonneg_right T1 (by linarith)
      linarith
    · have : a * b ≤ n * b := mul_le_mul_of_nonneg_right hna b0
      linarith

theorem tan_out (L : ℝ) (h0 : 0 ≤ L) (h1 : L ≤ 45) : tan (L * deg) + 4 / 10 ^ 6 ≤ tan ((L + 0.51) * deg) ∧ tan ((L - 0.51) * deg) ≤ tan (L * deg) - 4 / 10 ^ 6 := by
  have hc : ∀ x : ℝ, |x| ≤ 89 → cos (x * deg) ≠ 0 := fun x hx => (cos_pos_deg x hx).ne'
  have a0 := tan_nonneg_deg L h0 (by linarith)
  have a1 := tan_le_one L h0 (by linarith)
  have e2 := tan_add_mul (L * deg) (0.51 * deg) (hc _ (by rw [abs_le]; constructor <;> linarith)) (hc _ (by norm_num [abs_le]))
    (by rw [show L * deg + 0.51 * deg = (L + 0.51) * deg by ring]; exact hc _ (by rw [abs_le]; constructor <;> linarith))
  have e3 := tan_sub_mul (L * deg) (0.51 * deg) (hc _ (by rw [abs_le]; constructor <;> linarith)) (hc _ (by norm_num [abs_le]))
    (by rw [show L * deg - 0.51 * deg = (L - 0.51) * deg by ring]; exact hc _ (by rw [abs_le]; constructor <;> linarith))
  have m0 := tan_nonneg_deg (L + 0.51) (by linarith) (by linarith)
  rw [show L * deg + 0.51 * deg = (L + 0.51) * deg by ring] at e2
  rw [show L * deg - 0.51 * deg = (L - 0.51) * deg by ring] at e3
  have u := tan_half_deg
  generalize tan (L * deg) = a at *
  generalize tan ((L + 0.51) * deg) = m at *
  generalize tan ((L - 0.51) * deg) = n at *
  generalize tan (0.51 * deg) = h at *
  have hm : m - a = h * (1 + m * a) := by linarith
  have hn : a - n = h * (1 + n * a) := by linarith
  constructor
  · have ma0 := mul_nonneg m0 a0
    have : 0.0089 * (1 + m * a) ≤ m - a := by rw [hm]; exact mul_le_mul_of_nonneg_right u (by linarith)
    linarith
  · by_contra hc
    push Not at hc
    have : -(4 / 10 ^ 6) ≤ n * a := by nlinarith
    have : 0.0089 * (1 + n * a) ≤ a - n := by rw [hn]; exact mul_le_mul_of_nonneg_right u (by linarith)
    linarith

theorem arctan_between (q x w : ℝ) (hw : 0 ≤ w) (h1 : -89 ≤ x - w) (h2 : x + w ≤ 89) (h3 : tan ((x - w) * deg) ≤ q) (h4 : q ≤ tan ((x + w) * deg)) :
    |arctan q - x * deg| ≤ w * deg := by
  have := deg_pos
  have e : ∀ y : ℝ, -89 ≤ y → y ≤ 89 → arctan (tan (y * deg)) = y * deg := by
    intro y h h'
    apply arctan_tan <;> rw [pi_deg] <;> nlinarith
  have l := arctan_strictMono.monotone h3
  have r := arctan_strictMono.monotone h4
  rw [e _ (by linarith) (by linarith)] at l r
  rw [abs_le]
  constructor <;> linarith

section
variable {fl : Rat → Rat} (hfl : Rounds fl)
include hfl

theorem tanAt_range (k : Nat) (hk : k < 46) : 0 ≤ tanAt fl k ∧ tanAt fl k ≤ 1 := by
  obtain ⟨h1, h2⟩ := tan_small k hk
  unfold tanAt
  change 0 ≤ (table.getD k default).tan.getD 0 at h1
  change (table.getD k default).tan.getD 0 ≤ _ at h2
  generalize (table.getD k default).tan.getD 0 = t at *
  constructor
  · rw [← hfl.zero]
    apply hfl.mono
    have : (0 : Rat) ≤ t := by exact_mod_cast h1
    positivity
  · rw [← hfl.one]
    apply hfl.mono
    rw [div_le_one (by norm_num)]
    exact_mod_cast h2

/-- The reduced function gives an angle near the arctangent. -/
theorem reduced_close (q : Rat) (h0 : 0 ≤ q) (h1 : q ≤ 1) :
    ∃ t : Int, do_reduced_arctan fl (.num (fl q)) = .ok t ∧ 0 ≤ t ∧ t ≤ 45 ∧ |arctan q - t * deg| ≤ 0.51 * deg := by
  have s0 : 0 ≤ fl q := by rw [← hfl.zero]; exact hfl.mono _ _ h0
  have s1 : fl q ≤ 1 := by rw [← hfl.one]; exact hfl.mono _ _ h1
  obtain ⟨k, k1, k2, l, u, hk⟩ := reduced_spec hfl _ s0 s1
  have c0 := fl_close hfl q (by rw [abs_le]; constructor <;> linarith)
  have cu := tanAt_close hfl k (by omega)
  have cl := tanAt_close hfl (k - 1) (by omega)
  obtain ⟨ru0, ru1⟩ := tanAt_range hfl k (by omega)
  obtain ⟨rl0, rl1⟩ := tanAt_range hfl (k - 1) (by omega)
  have c1 := fl_close hfl (tanAt fl k - fl q) (by rw [abs_le]; constructor <;> linarith)
  have c2 := fl_close hfl (fl q - tanAt fl (k - 1)) (by rw [abs_le]; constructor <;> linarith)
  have hL : ((k - 1 : Nat) : ℝ) = (k : ℝ) - 1 := by rw [Nat.cast_sub k1]; simp
  have kr1 : (1 : ℝ) ≤ k := by exact_mod_cast k1
  have kr2 : (k : ℝ) ≤ 45 := by exact_mod_cast k2
  have l' : ((tanAt fl (k - 1) : Rat) : ℝ) ≤ ((fl q : Rat) : ℝ) := by exact_mod_cast l
  have u' : ((fl q : Rat) : ℝ) ≤ ((tanAt fl k : Rat) : ℝ) := by exact_mod_cast u
  obtain ⟨m1, m2⟩ := tan_mid ((k : ℝ) - 1) (by linarith) (by linarith)
  rw [show (k : ℝ) - 1 + 1 = k by ring] at m1 m2
  rw [hL] at cl
  push_cast at c1 c2
  obtain ⟨c01, c02⟩ := abs_le.mp c0
  obtain ⟨cu1, cu2⟩ := abs_le.mp cu
  obtain ⟨cl1, cl2⟩ := abs_le.mp cl
  obtain ⟨c11, c12⟩ := abs_le.mp c1
  obtain ⟨c21, c22⟩ := abs_le.mp c2
  rcases hk with ⟨hk, hc⟩ | ⟨hk, hc⟩
  · refine ⟨k, hk, by omega, by omega, ?_⟩
    have hc' : ((fl (tanAt fl k - fl q) : Rat) : ℝ) < ((fl (fl q - tanAt fl (k - 1)) : Rat) : ℝ) := by exact_mod_cast hc
    rw [Int.cast_natCast]
    apply arctan_between _ _ _ (by norm_num) (by linarith) (by linarith)
    · refine m2.trans ?_
      linarith
    · refine le_trans ?_ (tan_out k (by linarith) kr2).1
      linarith
  · refine ⟨((k - 1 : Nat) : Int), hk, by omega, by omega, ?_⟩
    have hc' : ((fl (fl q - tanAt fl (k - 1)) : Rat) : ℝ) ≤ ((fl (tanAt fl k - fl q) : Rat) : ℝ) := by exact_mod_cast hc
    rw [Int.cast_natCast, hL]
    apply arctan_between _ _ _ (by norm_num) (by linarith) (by linarith)
    · refine (tan_out ((k : ℝ) - 1) (by linarith) (by linarith)).2.trans ?_
      linarith
    · refine le_trans ?_ m1
      linarith

/-! ### The octants -/

end

theorem polar (u v : ℝ) (hu : 0 < u) : ∃ r, 0 < r ∧ u = r * cos (arctan (v / u)) ∧ v = r * sin (arctan (v / u)) := by
  have hs : 0 < √(1 + (v / u) ^ 2) := sqrt_pos.mpr (by positivity)
  refine ⟨u * √(1 + (v / u) ^ 2), by positivity, ?_, ?_⟩
  · rw [cos_arctan]; field_simp
  · rw [sin_arctan]; field_simp

/-- The point lies in a direction near an angle. -/
def Near (x y : ℝ) (d : Int) : Prop := ∃ r φ : ℝ, 0 < r ∧ x = r * cos φ ∧ y = r * sin φ ∧ |φ - d * deg| ≤ 0.51 * deg

theorem near_of (x y r φ : ℝ) (d : Int) (hr : 0 < r) (h1 : x = r * cos φ) (h2 : y = r * sin φ) (h : |φ - d * deg| ≤ 0.51 * deg) : Near x y d :=
  ⟨r, φ, hr, h1, h2, h⟩

section
variable {fl : Rat → Rat} (hfl : Rounds fl)
include hfl

theorem octant (u v : Rat) (hu : 0 < u) (hv : 0 ≤ v) (h : v ≤ u) : ∃ t : Int, do_reduced_arctan fl (.num (fl (v / u))) = .ok t ∧ 0 ≤ t ∧ t ≤ 45
    ∧ Near u v t ∧ Near v u (90 - t) ∧ Near (-v) u (90 + t) ∧ Near (-u) v (180 - t) ∧ Near (-u) (-v) (180 + t) ∧ Near (-v) (-u) (270 - t) ∧ Near v (-u) (270 + t)
    ∧ Near u (-v) (360 - t) := by
  obtain ⟨t, ht, h1, h2, h3⟩ := reduced_close hfl (v / u) (div_nonneg hv hu.le) ((div_le_one hu).mpr h)
  refine ⟨t, ht, h1, h2, ?_⟩
  obtain ⟨r, hr, a, b⟩ := polar (u : ℝ) (v : ℝ) (by exact_mod_cast hu)
  push_cast at h3
  generalize arctan ((v : ℝ) / u) = α at *
  have p : π = 180 * deg := pi_deg
  have e1 : cos (3 * π / 2 - α) = - sin α := by
    rw [show 3 * π / 2 - α = π + (π / 2 - α) by ring, cos_add, cos_pi, sin_pi, cos_pi_div_two_sub]; ring
  have e2 : sin (3 * π / 2 - α) = - cos α := by
    rw [show 3 * π / 2 - α = π + (π / 2 - α) by ring, sin_add, cos_pi, sin_pi, sin_pi_div_two_sub]; ring
  have e3 : cos (3 * π / 2 + α) = sin α := by
    rw [show 3 * π / 2 + α = π + (α + π / 2) by ring, cos_add, cos_pi, sin_pi, cos_add_pi_div_two]; ring
  have e4 : sin (3 * π / 2 + α) = - cos α := by
    rw [show 3 * π / 2 + α = π + (α + π / 2) by ring, sin_add, cos_pi, sin_pi, sin_add_pi_div_two]; ring
  rw [abs_le] at h3
  refine ⟨near_of _ _ r α _ hr a b ?_,
    near_of _ _ r (π / 2 - α) _ hr (by rw [cos_pi_div_two_sub]; exact b) (by rw [sin_pi_div_two_sub]; exact a) ?_,
    near_of _ _ r (α + π / 2) _ hr (by rw [cos_add_pi_div_two]; linarith) (by rw [sin_add_pi_div_two]; exact a) ?_,
    near_of _ _ r (π - α) _ hr (by rw [cos_pi_sub]; linarith) (by rw [sin_pi_sub]; exact b) ?_,
    near_of _ _ r (α + π) _ hr (by rw [cos_add_pi]; linarith) (by rw [sin_add_pi]; linarith) ?_,
    near_of _ _ r (3 * π / 2 - α) _ hr (by rw [e1]; linarith) (by rw [e2]; linarith) ?_,
    near_of _ _ r (3 * π / 2 + α) _ hr (by rw [e3]; linarith) (by rw [e4]; linarith) ?_,
    near_of _ _ r (2 * π - α) _ hr (by rw [cos_two_pi_sub]; exact a) (by rw [sin_two_pi_sub]; linarith) ?_⟩ <;>
  (push_cast; rw [abs_le]; constructor <;> linarith [h3.1, h3.2])

/-- The direction of every point but the origin. -/
theorem direction (y x : Rat) (h : ¬ (x = 0 ∧ y = 0)) : ∃ d : Int, do_arctan_degrees fl (.num y) (.num x) = .ok d ∧ 0 ≤ d ∧ d ≤ 360 ∧ Near x y d := by
  have axis : ∀ w : Rat, 0 < w → Near w 0 0 ∧ Near 0 w 90 ∧ Near (-w) 0 180 ∧ Near 0 (-w) 270 := by
    intro w hw
    have hw : (0 : ℝ) < w := by exact_mod_cast hw
    have z : ∀ n : ℝ, |n * deg - n * deg| ≤ 0.51 * deg := by intro n; rw [sub_self, abs_zero]; have := deg_pos; positivity
    have p : π = 180 * deg := pi_deg
    have e : (270 : ℝ) * deg = π + π / 2 := by rw [p]; ring
    have e' : (90 : ℝ) * deg = π / 2 := by rw [p]; ring
    refine ⟨near_of _ _ w ((0 : Int) * deg) _ hw (by simp) (by simp) (z _), near_of _ _ w ((90 : Int) * deg) _ hw ?_ ?_ (z _),
      near_of _ _ w ((180 : Int) * deg) _ hw ?_ ?_ (z _), near_of _ _ w ((270 : Int) * deg) _ hw ?_ ?_ (z _)⟩
    all_goals push_cast
    · rw [e', cos_pi_div_two]; simp
    · rw [e', sin_pi_div_two]; simp
    · rw [← p, cos_pi]; simp
    · rw [← p, sin_pi]; simp
    · rw [e, cos_add]; simp
    · rw [e, sin_add]; simp
  rcases lt_trichotomy x 0 with hx | hx | hx
  · have nx : ¬ x = 0 := by intro e; rw [e] at hx; exact lt_irrefl _ hx
    have nx' : ¬ 0 < x := by linarith
    rcases lt_trichotomy y 0 with hy | hy | hy
    · have ny : ¬ y = 0 := by intro e; rw [e] at hy; exact lt_irrefl _ hy
      have ny' : ¬ 0 < y := by linarith
      have n3 : ¬ -y < x := by linarith
      by_cases hxy : x < y
      · obtain ⟨t, a, b, c, o⟩ := octant hfl (-x) (-y) (by linarith) (by linarith) (by linarith)
        rw [neg_div_neg_eq] at a
        refine ⟨180 + t, ?_, by omega, by omega, by simpa using o.2.2.2.2.1⟩
        simp [do_arctan_degrees, F.eq, F.gt, F.neg, F.div, nx, nx', ny, ny', n3, hxy, a, Except.map]
      · obtain ⟨t, a, b, c, o⟩ := octant hfl (-y) (-x) (by linarith) (by linarith) (by linarith)
        rw [neg_div_neg_eq] at a
        refine ⟨270 - t, ?_, by omega, by omega, by simpa using o.2.2.2.2.2.1⟩
        simp [do_arctan_degrees, F.eq, F.gt, F.neg, F.div, nx, nx', ny, ny', n3, hxy, a, Except.map]
    · subst hy
      refine ⟨180, ?_, by omega, by omega, by simpa using (axis (-x) (by linarith)).2.2.1⟩
      simp [do_arctan_degrees, F.eq, F.gt, F.neg, F.div, nx, nx', hx]
    · have ny : ¬ y = 0 := by intro e; rw [e] at hy; exact lt_irrefl _ hy
      have n3 : x < y := by linarith
      by_cases hxy : -y < x
      · obtain ⟨t, a, b, c, o⟩ := octant hfl y (-x) (by linarith) (by linarith) (by linarith)
        rw [neg_div, ← div_neg] at a
        refine ⟨90 + t, ?_, by omega, by omega, by simpa using o.2.2.1⟩
        simp [do_arctan_degrees, F.eq, F.gt, F.neg, F.div, nx, nx', ny, hy, n3, hxy, a, Except.map]
      · obtain ⟨t, a, b, c, o⟩ := octant hfl (-x) y (by linarith) (by linarith) (by linarith)
        rw [div_neg, ← neg_div] at a
        refine ⟨180 - t, ?_, by omega, by omega, by simpa using o.2.2.2.1⟩
        simp [do_arctan_degrees, F.eq, F.gt, F.neg, F.div, nx, nx', ny, hy, n3, hxy, a, Except.map]
  · subst hx
    rcases lt_trichotomy y 0 with hy | hy | hy
    · have ny : ¬ y = 0 := by intro e; rw [e] at hy; exact lt_irrefl _ hy
      have ny' : ¬ 0 < y := by linarith
      refine ⟨270, ?_, by omega, by omega, by simpa using (axis (-y) (by linarith)).2.2.2⟩
      simp [do_arctan_degrees, F.eq, F.gt, F.neg, F.div, ny, ny']
    · exact absurd ⟨rfl, hy⟩ h
    · have ny : ¬ y = 0 := by intro e; rw [e] at hy; exact lt_irrefl _ hy
      refine ⟨90, ?_, by omega, by omega, by simpa using (axis y hy).2.1⟩
      simp [do_arctan_degrees, F.eq, F.gt, F.neg, F.div, ny, hy]
  · have nx : ¬ x = 0 := by intro e; rw [e] at hx; exact lt_irrefl _ hx
    rcases lt_trichotomy y 0 with hy | hy | hy
    · have ny : ¬ y = 0 := by intro e; rw [e] at hy; exact lt_irrefl _ hy
      have ny' : ¬ 0 < y := by linarith
      have n3 : ¬ x < y := by linarith
      by_cases hxy : -y < x
      · obtain ⟨t, a, b, c, o⟩ := octant hfl x (-y) (by linarith) (by linarith) (by linarith)
        refine ⟨360 - t, ?_, by omega, by omega, by simpa using o.2.2.2.2.2.2.2⟩
        simp [do_arctan_degrees, F.eq, F.gt, F.neg, F.div, nx, hx, ny, ny', n3, hxy, a, Except.map]
      · obtain ⟨t, a, b, c, o⟩ := octant hfl (-y) x (by linarith) (by linarith) (by linarith)
        refine ⟨270 + t, ?_, by omega, by omega, by simpa using o.2.2.2.2.2.2.1⟩
        simp [do_arctan_degrees, F.eq, F.gt, F.neg, F.div, nx, hx, ny, ny', n3, hxy, a, Except.map]
    · subst hy
      have n3 : ¬ x < 0 := by linarith
      refine ⟨0, ?_, by omega, by omega, by simpa using (axis x hx).1⟩
      simp [do_arctan_degrees, F.eq, F.gt, F.neg, F.div, nx, hx, n3]
    · have ny : ¬ y = 0 := by intro e; rw [e] at hy; exact lt_irrefl _ hy
      have n3 : -y < x := by linarith
      by_cases hxy : x < y
      · obtain ⟨t, a, b, c, o⟩ := octant hfl y x (by linarith) (by linarith) (by linarith)
        refine ⟨90 - t, ?_, by omega, by omega, o.2.1⟩
        simp [do_arctan_degrees, F.eq, F.gt, F.neg, F.div, nx, hx, ny, hy, n3, hxy, a, Except.map]
      · obtain ⟨t, a, b, c, o⟩ := octant hfl x y (by linarith) (by linarith) (by linarith)
        refine ⟨t, ?_, by omega, by omega, o.1⟩
        simp [do_arctan_degrees, F.eq, F.gt, F.neg, F.div, nx, hx, ny, hy, n3, hxy, a, Except.map]

end

/-! ### Recognizing an angle -/

theorem fine_whole : ∀ k < 360, k ≠ 0 → 17452 * 10 ^ 15 ≤ (fineAt k).s.natAbs ∨ (fineAt k).c < -(10 ^ 20) := by decide +kernel

/-- An integral angle with a small sine and a positive cosine is a whole number of turns. -/
theorem whole (n : Int) (h1 : |sin (n * deg)| ≤ 0.0174) (h2 : 0 < cos (n * deg)) : (360 : Int) ∣ n := by
  rw [sin_turn] at h1
  rw [cos_turn] at h2
  by_contra hn
  have hk : (n % 360).toNat < 360 := by omega
  have hk0 : (n % 360).toNat ≠ 0 := by omega
  obtain ⟨c3, c4⟩ := fine_close _ hk
  rcases fine_whole _ hk hk0 with h | h
  · have h' : (17452 * 10 ^ 15 : ℝ) ≤ |((fineAt (n % 360).toNat).s : ℝ)| := by
      have hc : ((fineAt (n % 360).toNat).s.natAbs : ℝ) = |((fineAt (n % 360).toNat).s : ℝ)| := by rw [← Int.cast_abs, Int.abs_eq_natAbs]; simp
      rw [← hc]; exact_mod_cast h
    have := abs_sub_abs_le_abs_sub (((fineAt (n % 360).toNat).s : ℝ) / 10 ^ 21) (sin ((n % 360).toNat * deg))
    rw [abs_sub_comm] at c4
    rw [abs_div, abs_of_pos (show (0 : ℝ) < 10 ^ 21 by norm_num)] at this
    have h5 : (17452 * 10 ^ 15 : ℝ) / 10 ^ 21 ≤ |((fineAt (n % 360).toNat).s : ℝ)| / 10 ^ 21 := by gcongr
    norm_num at *
    linarith
  · have h' : ((fineAt (n % 360).toNat).c : ℝ) < -(10 ^ 20) := by exact_mod_cast h
    have h5 : ((fineAt (n % 360).toNat).c : ℝ) / 10 ^ 21 < -(10 ^ 20) / 10 ^ 21 := by gcongr
    have := abs_le.mp c3
    norm_num at *
    linarith

theorem near_angle (x y ρ : ℝ) (θ d : Int) (hρ : 0 < ρ) (hx : |x - ρ * cos (θ * deg)| ≤ ρ / 1000) (hy : |y - ρ * sin (θ * deg)| ≤ ρ / 1000) (h : Near x y d) :
    (360 : Int) ∣ d - θ := by
  obtain ⟨r, φ, hr, e1, e2, he⟩ := h
  have dp := deg_pos
  have db := deg_bounds
  -- along and across the angle
  have A : r * cos (φ - θ * deg) - ρ = (x - ρ * cos (θ * deg)) * cos (θ * deg) + (y - ρ * sin (θ * deg)) * sin (θ * deg) := by
    rw [cos_sub, e1, e2]
    have := sin_sq_add_cos_sq (θ * deg : ℝ)
    linear_combination ρ * this
  have B : r * sin (φ - θ * deg) = (y - ρ * sin (θ * deg)) * cos (θ * deg) - (x - ρ * cos (θ * deg)) * sin (θ * deg) := by
    rw [sin_sub, e1, e2]
    ring
  have m : ∀ a b : ℝ, |a| ≤ ρ / 1000 → |b| ≤ 1 → |a * b| ≤ ρ / 1000 := by
    intro a b ha hb
    rw [abs_mul]
    calc |a| * |b| ≤ ρ / 1000 * 1 := mul_le_mul ha hb (abs_nonneg _) (by positivity)
      _ = ρ / 1000 := by ring
  have A' : |r * cos (φ - θ * deg) - ρ| ≤ ρ / 500 := by
    rw [A]
    refine (abs_add_le _ _).trans ?_
    have := m _ _ hx (abs_cos_le_one (θ * deg))
    have := m _ _ hy (abs_sin_le_one (θ * deg))
    linarith
  have B' : |r * sin (φ - θ * deg)| ≤ ρ / 500 := by
    rw [B]
    refine (abs_sub _ _).trans ?_
    have := m _ _ hy (abs_cos_le_one (θ * deg))
    have := m _ _ hx (abs_sin_le_one (θ * deg))
    linarith
  have hrl : 0.998 * ρ ≤ r := by
    have h1 : r * cos (φ - θ * deg) ≤ r := by nlinarith [cos_le_one (φ - θ * deg)]
    have := (abs_le.mp A').1
    linarith
  set ψ := φ - θ * deg
  set ε := φ - d * deg
  have hd : (((d - θ : Int) : ℝ)) * deg = ψ - ε := by push_cast; simp only [ψ, ε]; ring
  have hsε : |sin ε| ≤ 0.0089015 := by
    refine abs_sin_le_abs.trans (he.trans ?_)
    norm_num at *
    linarith
  have hcε : 0.99 ≤ cos ε := by
    have h1 := one_sub_sq_div_two_le_cos (x := ε)
    have h2 : ε ^ 2 ≤ (0.51 * deg) ^ 2 := sq_le_sq' (by linarith [(abs_le.mp he).1]) (abs_le.mp he).2
    nlinarith
  apply whole
  · rw [hd, sin_sub]
    have hs : |sin ψ| ≤ 0.00201 := by
      rw [abs_mul, abs_of_pos hr] at B'
      by_contra hc
      push Not at hc
      nlinarith
    refine (abs_sub _ _).trans ?_
    rw [abs_mul, abs_mul]
    have h1 : |sin ψ| * |cos ε| ≤ 0.00201 * 1 := mul_le_mul hs (abs_cos_le_one _) (abs_nonneg _) (by norm_num)
    have h2 : |cos ψ| * |sin ε| ≤ 1 * 0.0089015 := mul_le_mul (abs_cos_le_one _) hsε (abs_nonneg _) (by norm_num)
    linarith
  · rw [hd, cos_sub]
    have hs : r * |sin ψ| ≤ ρ / 500 := by rw [abs_mul, abs_of_pos hr] at B'; exact B'
    have hc : 0.998 * ρ ≤ r * cos ψ := by linarith [(abs_le.mp A').1]
    have h1 : 0.998 * ρ * 0.99 ≤ r * cos ψ * cos ε := mul_le_mul hc hcε (by norm_num) (by linarith)
    have h2 : |r * sin ψ * sin ε| ≤ ρ / 500 * 1 := by
      rw [abs_mul]
      exact mul_le_mul B' (abs_sin_le_one _) (abs_nonneg _) (by positivity)
    have h3 := (abs_le.mp h2).1
    have h4 : 0 < r * (cos ψ * cos ε + sin ψ * sin ε) := by
      have : r * (cos ψ * cos ε + sin ψ * sin ε) = r * cos ψ * cos ε + r * sin ψ * sin ε := by ring
      rw [this]
      linarith
    exact (mul_pos_iff_of_pos_left hr).mp h4

section
variable {fl : Rat → Rat} (hfl : Rounds fl)
include hfl

theorem direction_angle (x y : Rat) (ρ : ℝ) (θ : Int) (hρ : 0 < ρ) (hx : |(x : ℝ) - ρ * cos (θ * deg)| ≤ ρ / 1000)
    (hy : |(y : ℝ) - ρ * sin (θ * deg)| ≤ ρ / 1000) : ∃ d : Int, do_arctan_degrees fl (.num y) (.num x) = .ok d ∧ 0 ≤ d ∧ d ≤ 360 ∧ (360 : Int) ∣ d - θ := by
  have hne : ¬ (x = 0 ∧ y = 0) := by
    rintro ⟨rfl, rfl⟩
    rw [Rat.cast_zero, zero_sub, abs_neg, abs_mul, abs_of_pos hρ] at hx hy
    have h1 : |cos (θ * deg : ℝ)| ≤ 1 / 1000 := by
      by_contra hc; push Not at hc; nlinarith
    have h2 : |sin (θ * deg : ℝ)| ≤ 1 / 1000 := by
      by_contra hc; push Not at hc; nlinarith
    have := sin_sq_add_cos_sq (θ * deg : ℝ)
    rw [← sq_abs (sin (θ * deg : ℝ)), ← sq_abs (cos (θ * deg : ℝ))] at this
    nlinarith [abs_nonneg (sin (θ * deg : ℝ)), abs_nonneg (cos (θ * deg : ℝ))]
  obtain ⟨d, h1, h2, h3, h4⟩ := direction hfl y x hne
  exact ⟨d, h1, h2, h3, near_angle _ _ ρ θ d hρ hx hy h4⟩

theorem far_real (q : Rat) (h : |(q : ℝ)| ≤ 3 * 10 ^ 38) : |((fl q : Rat) : ℝ) - (q : ℝ)| ≤ |(q : ℝ)| / 10 ^ 6 + 1 / 10 ^ 37 := by
  have h' : |q| ≤ 3 * 10 ^ 38 := by
    have : ((|q| : Rat) : ℝ) ≤ ((3 * 10 ^ 38 : Rat) : ℝ) := by push_cast; exact h
    exact (Rat.cast_le (K := ℝ)).mp this
  have := (Rat.cast_le (K := ℝ)).mpr (hfl.far q h')
  push_cast at this
  exact this

/-- The sine and the cosine, rounded. -/
theorem sinOf_close (θ : Int) (h : -2147483160 ≤ θ) (h' : θ < 2147483648) : |((sinOf fl θ : Rat) : ℝ) - sin (θ * deg)| ≤ 1.1 / 10 ^ 6 := by
  unfold sinOf
  rw [trig_eq θ h h', sin_turn]
  have hc := (entry_close (θ % 360).toNat (by omega)).1
  have hs := abs_sin_le_one ((θ % 360).toNat * deg)
  generalize sin ((θ % 360).toNat * deg) = s at *
  generalize (entry (θ % 360).toNat).sin = e at *
  have e1 : (((e : Rat) / 10000000000 : Rat) : ℝ) = (e : ℝ) / 10 ^ 10 := by push_cast; norm_num
  have hb : |(((e : Rat) / 10000000000 : Rat) : ℝ)| ≤ 1.001 := by
    rw [e1]
    have := abs_sub_abs_le_abs_sub ((e : ℝ) / 10 ^ 10) s
    norm_num at *
    linarith
  have hf := far_real hfl ((e : Rat) / 10000000000) (by norm_num at *; linarith)
  have : |((fl ((e : Rat) / 10000000000) : Rat) : ℝ) - s| ≤ |((fl ((e : Rat) / 10000000000) : Rat) : ℝ) - (((e : Rat) / 10000000000 : Rat) : ℝ)| + |(((e : Rat) / 10000000000 : Rat) : ℝ) - s| :=
    abs_sub_le _ _ _
  rw [e1] at *
  generalize ((fl ((e : Rat) / 10000000000) : Rat) : ℝ) = f at *
  norm_num at *
  linarith

theorem cosOf_close (θ : Int) (h : -2147483160 ≤ θ) (h' : θ < 2147483648) : |((cosOf fl θ : Rat) : ℝ) - cos (θ * deg)| ≤ 1.1 / 10 ^ 6 := by
  unfold cosOf
  rw [trig_eq θ h h', cos_turn]
  have hc := (entry_close (θ % 360).toNat (by omega)).2
  have hs := abs_cos_le_one ((θ % 360).toNat * deg)
  generalize cos ((θ % 360).toNat * deg) = s at *
  generalize (entry (θ % 360).toNat).cos = e at *
  have e1 : (((e : Rat) / 10000000000 : Rat) : ℝ) = (e : ℝ) / 10 ^ 10 := by push_cast; norm_num
  have hb : |(((e : Rat) / 10000000000 : Rat) : ℝ)| ≤ 1.001 := by
    rw [e1]
    have := abs_sub_abs_le_abs_sub ((e : ℝ) / 10 ^ 10) s
    norm_num at *
    linarith
  have hf := far_real hfl ((e : Rat) / 10000000000) (by norm_num at *; linarith)
  have : |((fl ((e : Rat) / 10000000000) : Rat) : ℝ) - s| ≤ |((fl ((e : Rat) / 10000000000) : Rat) : ℝ) - (((e : Rat) / 10000000000 : Rat) : ℝ)| + |(((e : Rat) / 10000000000 : Rat) : ℝ) - s| :=
    abs_sub_le _ _ _
  rw [e1] at *
  generalize ((fl ((e : Rat) / 10000000000) : Rat) : ℝ) = f at *
  norm_num at *
  linarith

theorem prod_close (x c : Rat) (C : ℝ) (hx : |(x : ℝ)| ≤ 10 ^ 38) (hc : |(c : ℝ) - C| ≤ 1.1 / 10 ^ 6) (hC : |C| ≤ 1) :
    |((fl (x * c) : Rat) : ℝ) - x * C| ≤ |(x : ℝ)| * (2.2 / 10 ^ 6) + 1 / 10 ^ 37 := by
  have hx0 := abs_nonneg (x : ℝ)
  have c1 : |(c : ℝ)| ≤ 1.01 := by
    have := abs_sub_abs_le_abs_sub (c : ℝ) C
    norm_num at *
    linarith
  have e : |((x * c : Rat) : ℝ)| = |(x : ℝ)| * |(c : ℝ)| := by push_cast; rw [abs_mul]
  have h1 : |(x : ℝ)| * |(c : ℝ)| ≤ |(x : ℝ)| * 1.01 := mul_le_mul_of_nonneg_left c1 hx0
  have hf := far_real hfl (x * c) (by rw [e]; norm_num at *; linarith)
  rw [e] at hf
  have h2 : |((x * c : Rat) : ℝ) - x * C| ≤ |(x : ℝ)| * (1.1 / 10 ^ 6) := by
    push_cast
    rw [← mul_sub, abs_mul]
    exact mul_le_mul_of_nonneg_left hc hx0
  have h3 := abs_sub_le ((fl (x * c) : Rat) : ℝ) ((x * c : Rat) : ℝ) (x * C)
  norm_num at *
  linarith [abs_nonneg (x : ℝ)]

theorem sum_close (a b : Rat) (A B ea eb : ℝ) (ha : |(a : ℝ) - A| ≤ ea) (hb : |(b : ℝ) - B| ≤ eb) (hr : |A| + |B| + ea + eb ≤ 3 * 10 ^ 38) :
    |((fl (a + b) : Rat) : ℝ) - (A + B)| ≤ (|A| + |B|) / 10 ^ 6 + (ea + eb) * 1.000001 + 1 / 10 ^ 37 := by
  have e : ((a + b : Rat) : ℝ) = a + b := by push_cast; ring
  have h1 : |(a : ℝ) + b - (A + B)| ≤ ea + eb := by
    have : (a : ℝ) + b - (A + B) = (a - A) + (b - B) := by ring
    rw [this]
    exact (abs_add_le _ _).trans (by linarith)
  have h2 := abs_sub_abs_le_abs_sub ((a : ℝ) + b) (A + B)
  have h3 := abs_add_le A B
  have hf := far_real hfl (a + b) (by rw [e]; linarith)
  rw [e] at hf
  have h4 := abs_sub_le ((fl (a + b) : Rat) : ℝ) ((a : ℝ) + b) (A + B)
  have h5 : |(a : ℝ) + b| / 10 ^ 6 ≤ (|A| + |B| + ea + eb) / 10 ^ 6 := by gcongr; linarith
  norm_num at *
  linarith

theorem sub_close (a b : Rat) (A B ea eb : ℝ) (ha : |(a : ℝ) - A| ≤ ea) (hb : |(b : ℝ) - B| ≤ eb) (hr : |A| + |B| + ea + eb ≤ 3 * 10 ^ 38) :
    |((fl (a - b) : Rat) : ℝ) - (A - B)| ≤ (|A| + |B|) / 10 ^ 6 + (ea + eb) * 1.000001 + 1 / 10 ^ 37 := by
  have := sum_close hfl a (-b) A (-B) ea eb ha (by push_cast; rw [← abs_neg]; simpa [add_comm, sub_eq_add_neg] using hb) (by rwa [abs_neg])
  rw [abs_neg] at this
  simpa [sub_eq_add_neg] using this

/-- Rotation is close to the exact one. -/
theorem rotate_close (v : Vector2) (θ : Int) (h : -2147483160 ≤ θ) (h' : θ < 2147483648) (hx : |(v.x : ℝ)| ≤ 10 ^ 38) (hy : |(v.y : ℝ)| ≤ 10 ^ 38) :
    |(((v.rotate fl θ).x : Rat) : ℝ) - (v.x * cos (θ * deg) - v.y * sin (θ * deg))| ≤ (|(v.x : ℝ)| + |(v.y : ℝ)|) * (4 / 10 ^ 6) + 1 / 10 ^ 36
    ∧ |(((v.rotate fl θ).y : Rat) : ℝ) - (v.x * sin (θ * deg) + v.y * cos (θ * deg))| ≤ (|(v.x : ℝ)| + |(v.y : ℝ)|) * (4 / 10 ^ 6) + 1 / 10 ^ 36 := by
  have hc := cosOf_close hfl θ h h'
  have hs := sinOf_close hfl θ h h'
  have c1 := abs_cos_le_one (θ * deg : ℝ)
  have s1 := abs_sin_le_one (θ * deg : ℝ)
  have x0 := abs_nonneg (v.x : ℝ)
  have y0 := abs_nonneg (v.y : ℝ)
  have p1 := prod_close hfl v.x _ _ hx hc c1
  have p2 := prod_close hfl v.y _ _ hy hs s1
  have p3 := prod_close hfl v.x _ _ hx hs s1
  have p4 := prod_close hfl v.y _ _ hy hc c1
  have m1 : |(v.x : ℝ) * cos (θ * deg)| ≤ |(v.x : ℝ)| := by rw [abs_mul]; exact mul_le_of_le_one_right x0 c1
  have m2 : |(v.y : ℝ) * sin (θ * deg)| ≤ |(v.y : ℝ)| := by rw [abs_mul]; exact mul_le_of_le_one_right y0 s1
  have m3 : |(v.x : ℝ) * sin (θ * deg)| ≤ |(v.x : ℝ)| := by rw [abs_mul]; exact mul_le_of_le_one_right x0 s1
  have m4 : |(v.y : ℝ) * cos (θ * deg)| ≤ |(v.y : ℝ)| := by rw [abs_mul]; exact mul_le_of_le_one_right y0 c1
  constructor
  · have := sub_close hfl _ _ _ _ _ _ p1 p2 (by norm_num at *; linarith)
    refine this.trans ?_
    have u : (|(v.x : ℝ) * cos (θ * deg)| + |(v.y : ℝ) * sin (θ * deg)|) / 10 ^ 6 ≤ (|(v.x : ℝ)| + |(v.y : ℝ)|) / 10 ^ 6 := by gcongr
    refine (add_le_add_left (add_le_add_left u _) _).trans ?_
    norm_num at *
    linarith [abs_nonneg (v.x : ℝ), abs_nonneg (v.y : ℝ)]
  · have := sum_close hfl _ _ _ _ _ _ p3 p4 (by norm_num at *; linarith)
    refine this.trans ?_
    have u : (|(v.x : ℝ) * sin (θ * deg)| + |(v.y : ℝ) * cos (θ * deg)|) / 10 ^ 6 ≤ (|(v.x : ℝ)| + |(v.y : ℝ)|) / 10 ^ 6 := by gcongr
    refine (add_le_add_left (add_le_add_left u _) _).trans ?_
    norm_num at *
    linarith [abs_nonneg (v.x : ℝ), abs_nonneg (v.y : ℝ)]

/-- The direction of a vector that was made from an angle. -/
theorem ofPolar_direction (ρ : Rat) (θ : Int) (h : -2147483160 ≤ θ) (h' : θ < 2147483648) (h1 : (1 : Rat) / 10 ^ 33 ≤ ρ) (h2 : ρ ≤ 10 ^ 38) :
    ∃ d : Int, (ofPolar fl ρ θ).direction fl = .ok d ∧ 0 ≤ d ∧ d ≤ 360 ∧ (360 : Int) ∣ d - θ := by
  have r1 : (1 : ℝ) / 10 ^ 33 ≤ ρ := by
    have := (Rat.cast_le (K := ℝ)).mpr h1; push_cast at this; exact this
  have r2 : (ρ : ℝ) ≤ 10 ^ 38 := by
    have := (Rat.cast_le (K := ℝ)).mpr h2; push_cast at this; exact this
  have r0 : (0 : ℝ) < ρ := lt_of_lt_of_le (by positivity) r1
  have hr : |(ρ : ℝ)| ≤ 10 ^ 38 := by rw [abs_of_pos r0]; exact r2
  have p1 := prod_close hfl ρ _ _ hr (cosOf_close hfl θ h h') (abs_cos_le_one _)
  have p2 := prod_close hfl ρ _ _ hr (sinOf_close hfl θ h h') (abs_sin_le_one _)
  rw [abs_of_pos r0] at p1 p2
  apply direction_angle hfl _ _ ρ θ r0
  · refine p1.trans ?_; norm_num at *; linarith
  · refine p2.trans ?_; norm_num at *; linarith

end

theorem small_sq (x y n : ℝ) (hn : 0 < n) (h : x ^ 2 + y ^ 2 = n ^ 2) : |x| ≤ n := by
  apply abs_le_of_sq_le_sq _ hn.le
  nlinarith [sq_nonneg y]

section
variable {fl : Rat → Rat} (hfl : Rounds fl)
include hfl

theorem prod_close2 (x x' : Rat) (X n : ℝ) (hn0 : 1 / 10 ^ 12 ≤ n) (hn1 : n ≤ 10 ^ 18) (hx : |(x : ℝ)| ≤ n) (hX : |X| ≤ n) (hx' : |(x' : ℝ) - X| ≤ n / 10 ^ 5) :
    |((fl (x * x') : Rat) : ℝ) - x * X| ≤ n ^ 2 * (2 / 10 ^ 5) := by
  have hnp : 0 < n := lt_of_lt_of_le (by positivity) hn0
  have x0 := abs_nonneg (x : ℝ)
  have c1 : |(x' : ℝ)| ≤ 1.01 * n := by
    have := abs_sub_abs_le_abs_sub (x' : ℝ) X
    norm_num at *
    linarith
  have e : |((x * x' : Rat) : ℝ)| = |(x : ℝ)| * |(x' : ℝ)| := by push_cast; rw [abs_mul]
  have h1 : |(x : ℝ)| * |(x' : ℝ)| ≤ n * (1.01 * n) := mul_le_mul hx c1 (abs_nonneg _) hnp.le
  have n2 : n * n ≤ 10 ^ 18 * 10 ^ 18 := mul_le_mul hn1 hn1 hnp.le (by positivity)
  have n3 : 1 / 10 ^ 12 * (1 / 10 ^ 12) ≤ n * n := mul_le_mul hn0 hn0 (by positivity) hnp.le
  have hf := far_real hfl (x * x') (by rw [e]; norm_num at *; linarith)
  rw [e] at hf
  have h2 : |((x * x' : Rat) : ℝ) - x * X| ≤ n * (n / 10 ^ 5) := by
    push_cast
    rw [← mul_sub, abs_mul]
    exact mul_le_mul hx hx' (abs_nonneg _) hnp.le
  have h3 := abs_sub_le ((fl (x * x') : Rat) : ℝ) ((x * x' : Rat) : ℝ) (x * X)
  rw [show n ^ 2 = n * n by ring]
  norm_num at *
  linarith

/-- The angle to a rotated vector. -/
theorem rotate_angle (v : Vector2) (θ : Int) (h : -2147483160 ≤ θ) (h' : θ < 2147483648) (h1 : (1 : Rat) / 10 ^ 24 ≤ v.x ^ 2 + v.y ^ 2) (h2 : v.x ^ 2 + v.y ^ 2 ≤ 10 ^ 36) :
    ∃ d : Int, (v.rotate fl θ).angle_from fl v = .ok d ∧ 0 ≤ d ∧ d ≤ 360 ∧ (360 : Int) ∣ d - θ := by
  have q1 : (1 : ℝ) / 10 ^ 24 ≤ (v.x : ℝ) ^ 2 + (v.y : ℝ) ^ 2 := by
    have := (Rat.cast_le (K := ℝ)).mpr h1; push_cast at this; exact this
  have q2 : (v.x : ℝ) ^ 2 + (v.y : ℝ) ^ 2 ≤ 10 ^ 36 := by
    have := (Rat.cast_le (K := ℝ)).mpr h2; push_cast at this; exact this
  obtain ⟨n, hn⟩ : ∃ n : ℝ, n = √((v.x : ℝ) ^ 2 + (v.y : ℝ) ^ 2) := ⟨_, rfl⟩
  have hsq : n ^ 2 = (v.x : ℝ) ^ 2 + (v.y : ℝ) ^ 2 := by rw [hn]; exact sq_sqrt (by positivity)
  have hn0 : 0 ≤ n := by rw [hn]; exact sqrt_nonneg _
  have hn1 : 1 / 10 ^ 12 ≤ n := by
    by_contra hc; push Not at hc
    have : n ^ 2 < (1 / 10 ^ 12) ^ 2 := by gcongr
    norm_num at *; linarith
  have hn2 : n ≤ 10 ^ 18 := by
    by_contra hc; push Not at hc
    have : (10 ^ 18 : ℝ) ^ 2 < n ^ 2 := by gcongr
    norm_num at *; linarith
  have hnp : 0 < n := lt_of_lt_of_le (by positivity) hn1
  have hx := small_sq _ _ n hnp hsq.symm
  have hy := small_sq _ _ n hnp (show (v.y : ℝ) ^ 2 + (v.x : ℝ) ^ 2 = n ^ 2 by linarith)
  have sc := sin_sq_add_cos_sq (θ * deg : ℝ)
  obtain ⟨r1, r2⟩ := rotate_close hfl v θ h h' (by norm_num at *; linarith) (by norm_num at *; linarith)
  generalize hX : (v.x : ℝ) * cos (θ * deg) - v.y * sin (θ * deg) = X at *
  generalize hY : (v.x : ℝ) * sin (θ * deg) + v.y * cos (θ * deg) = Y at *
  have hXY : X ^ 2 + Y ^ 2 = n ^ 2 := by
    rw [← hX, ← hY, hsq]
    linear_combination ((v.x : ℝ) ^ 2 + (v.y : ℝ) ^ 2) * sc
  have hX1 := small_sq X Y n hnp hXY
  have hY1 := small_sq Y X n hnp (by linarith)
  have r1' : |(((v.rotate fl θ).x : Rat) : ℝ) - X| ≤ n / 10 ^ 5 := r1.trans (by norm_num at *; linarith)
  have r2' : |(((v.rotate fl θ).y : Rat) : ℝ) - Y| ≤ n / 10 ^ 5 := r2.trans (by norm_num at *; linarith)
  have p1 := prod_close2 hfl v.x _ X n hn1 hn2 hx hX1 r1'
  have p2 := prod_close2 hfl v.y _ Y n hn1 hn2 hy hY1 r2'
  have p3 := prod_close2 hfl v.x _ Y n hn1 hn2 hx hY1 r2'
  have p4 := prod_close2 hfl v.y _ X n hn1 hn2 hy hX1 r1'
  have m : ∀ a b : ℝ, |a| ≤ n → |b| ≤ n → |a * b| ≤ n ^ 2 := by
    intro a b ha hb
    rw [abs_mul, sq]
    exact mul_le_mul ha hb (abs_nonneg _) hnp.le
  have m1 := m _ _ hx hX1
  have m2 := m _ _ hy hY1
  have m3 := m _ _ hx hY1
  have m4 := m _ _ hy hX1
  have n2 : n ^ 2 ≤ 10 ^ 36 := by rw [hsq]; exact q2
  have n3 : 1 / 10 ^ 24 ≤ n ^ 2 := by rw [hsq]; exact q1
  have d1 := sum_close hfl _ _ _ _ _ _ p1 p2 (by norm_num at *; linarith)
  have d2 := sub_close hfl _ _ _ _ _ _ p3 p4 (by norm_num at *; linarith)
  have e1 : (v.x : ℝ) * X + v.y * Y = n ^ 2 * cos (θ * deg) := by rw [← hX, ← hY, hsq]; ring
  have e2 : (v.x : ℝ) * Y - v.y * X = n ^ 2 * sin (θ * deg) := by rw [← hX, ← hY, hsq]; ring
  rw [e1] at d1
  rw [e2] at d2
  apply direction_angle hfl _ _ (n ^ 2) θ (by positivity)
  · refine d1.trans ?_
    have : (|(v.x : ℝ) * X| + |(v.y : ℝ) * Y|) / 10 ^ 6 ≤ (n ^ 2 + n ^ 2) / 10 ^ 6 := by gcongr
    norm_num at *
    linarith
  · refine d2.trans ?_
    have : (|(v.x : ℝ) * Y| + |(v.y : ℝ) * X|) / 10 ^ 6 ≤ (n ^ 2 + n ^ 2) / 10 ^ 6 := by gcongr
    norm_num at *
    linarith

/-! ### Special values -/

theorem reduced_ok (s : Rat) (h0 : 0 ≤ s) (h1 : s ≤ 1) : ∃ t : Int, do_reduced_arctan fl (.num s) = .ok t ∧ 0 ≤ t ∧ t ≤ 45 := by
  obtain ⟨k, k1, k2, _, _, hk⟩ := reduced_spec hfl s h0 h1
  rcases hk with ⟨hk, _⟩ | ⟨hk, _⟩
  · exact ⟨_, hk, by omega, by omega⟩
  · exact ⟨_, hk, by omega, by omega⟩

/-- There is a result unless both elements are infinite. -/
theorem arctan_total (y x : F) (h : ¬ ((∃ a, x = .inf a) ∧ (∃ b, y = .inf b))) : ∃ d : Int, do_arctan_degrees fl y x = .ok d ∧ 0 ≤ d ∧ d ≤ 360 := by
  obtain ⟨t, ht, t0, t1⟩ := reduced_ok hfl 0 (le_refl _) (by norm_num)
  rcases x with _ | a | x
  · rcases y with _ | b | y
    · exact ⟨0, rfl, by omega, by omega⟩
    · cases b
      · exact ⟨90, rfl, by omega, by omega⟩
      · exact ⟨270, rfl, by omega, by omega⟩
    · rcases lt_trichotomy y 0 with hy | hy | hy
      · have ny : ¬ y = 0 := by intro e; rw [e] at hy; exact lt_irrefl _ hy
        have ny' : ¬ 0 < y := by linarith
        exact ⟨270, by simp [do_arctan_degrees, F.eq, F.gt, F.neg, ny, ny'], by omega, by omega⟩
      · subst hy
        exact ⟨90, by simp [do_arctan_degrees, F.eq, F.gt, F.neg], by omega, by omega⟩
      · have ny : ¬ y = 0 := by intro e; rw [e] at hy; exact lt_irrefl _ hy
        exact ⟨90, by simp [do_arctan_degrees, F.eq, F.gt, F.neg, ny, hy], by omega, by omega⟩
  · rcases y with _ | b | y
    · cases a
      · exact ⟨0, rfl, by omega, by omega⟩
      · exact ⟨180, rfl, by omega, by omega⟩
    · exact absurd ⟨⟨a, rfl⟩, ⟨b, rfl⟩⟩ h
    · rcases lt_trichotomy y 0 with hy | hy | hy
      · have ny : ¬ y = 0 := by intro e; rw [e] at hy; exact lt_irrefl _ hy
        have ny' : ¬ 0 < y := by linarith
        cases a
        · exact ⟨360 - t, by simp [do_arctan_degrees, F.eq, F.gt, F.neg, F.div, ny, ny', ht, Except.map], by omega, by omega⟩
        · exact ⟨180 + t, by simp [do_arctan_degrees, F.eq, F.gt, F.neg, F.div, ny, ny', ht, Except.map], by omega, by omega⟩
      · subst hy
        cases a
        · exact ⟨0, by simp [do_arctan_degrees, F.eq, F.gt, F.neg, F.div], by omega, by omega⟩
        · exact ⟨180, by simp [do_arctan_degrees, F.eq, F.gt, F.neg, F.div], by omega, by omega⟩
      · have ny : ¬ y = 0 := by intro e; rw [e] at hy; exact lt_irrefl _ hy
        cases a
        · exact ⟨t, by simp [do_arctan_degrees, F.eq, F.gt, F.neg, F.div, ny, hy, ht, Except.map], by omega, by omega⟩
        · exact ⟨180 - t, by simp [do_arctan_degrees, F.eq, F.gt, F.neg, F.div, ny, hy, ht, Except.map], by omega, by omega⟩
  · rcases y with _ | b | y
    · rcases lt_trichotomy x 0 with hx | hx | hx
      · have nx : ¬ x = 0 := by intro e; rw [e] at hx; exact lt_irrefl _ hx
        have nx' : ¬ 0 < x := by linarith
        exact ⟨180, by simp [do_arctan_degrees, F.eq, F.gt, F.neg, nx, nx'], by omega, by omega⟩
      · subst hx
        exact ⟨0, by simp [do_arctan_degrees, F.eq, F.gt, F.neg], by omega, by omega⟩
      · have nx : ¬ x = 0 := by intro e; rw [e] at hx; exact lt_irrefl _ hx
        exact ⟨0, by simp [do_arctan_degrees, F.eq, F.gt, F.neg, nx, hx], by omega, by omega⟩
    · rcases lt_trichotomy x 0 with hx | hx | hx
      · have nx : ¬ x = 0 := by intro e; rw [e] at hx; exact lt_irrefl _ hx
        have nx' : ¬ 0 < x := by linarith
        cases b
        · exact ⟨90 + t, by simp [do_arctan_degrees, F.eq, F.gt, F.neg, F.div, nx, nx', ht, Except.map], by omega, by omega⟩
        · exact ⟨270 - t, by simp [do_arctan_degrees, F.eq, F.gt, F.neg, F.div, nx, nx', ht, Except.map], by omega, by omega⟩
      · subst hx
        cases b
        · exact ⟨90, by simp [do_arctan_degrees, F.eq, F.gt, F.neg], by omega, by omega⟩
        · exact ⟨270, by simp [do_arctan_degrees, F.eq, F.gt, F.neg], by omega, by omega⟩
      · have nx : ¬ x = 0 := by intro e; rw [e] at hx; exact lt_irrefl _ hx
        cases b
        · exact ⟨90 - t, by simp [do_arctan_degrees, F.eq, F.gt, F.neg, F.div, nx, hx, ht, Except.map], by omega, by omega⟩
        · exact ⟨270 + t, by simp [do_arctan_degrees, F.eq, F.gt, F.neg, F.div, nx, hx, ht, Except.map], by omega, by omega⟩
    · by_cases h0 : x = 0 ∧ y = 0
      · obtain ⟨rfl, rfl⟩ := h0
        exact ⟨0, by simp [do_arctan_degrees, F.eq, F.gt, F.neg], by omega, by omega⟩
      · obtain ⟨d, h1, h2, h3, _⟩ := direction hfl y x h0
        exact ⟨d, h1, h2, h3⟩

end

end Verif.Geometry
