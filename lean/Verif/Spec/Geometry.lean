import Mathlib.Data.Rat.Defs
import Mathlib.Algebra.Order.Ring.Rat
/-! # Specification vocabulary for angles -/
namespace Verif.Spec

/-- What is assumed about the rounding of numbers to floating-point numbers: it keeps the order, it keeps zero and one, it changes small
numbers by at most 10⁻⁷, and it changes all numbers that do not overflow by at most a millionth of their size, or 10⁻³⁷ for tiny ones.
(Rounding to single-precision numbers does this, to the nearest or in any other direction.) -/
structure Rounds (fl : Rat → Rat) : Prop where
  mono : ∀ a b, a ≤ b → fl a ≤ fl b
  zero : fl 0 = 0
  one : fl 1 = 1
  close : ∀ a, |a| ≤ 1 → |fl a - a| ≤ 1 / 10 ^ 7
  far : ∀ a, |a| ≤ 3 * 10 ^ 38 → |fl a - a| ≤ |a| / 10 ^ 6 + 1 / 10 ^ 37

end Verif.Spec
