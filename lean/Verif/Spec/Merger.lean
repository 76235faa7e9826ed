import Mathlib.MeasureTheory.Integral.IntervalIntegral.Basic
import Mathlib.Analysis.SpecialFunctions.Pow.Real

/-!
# Peters' (1964) merger time, written without reference to the model
-/

namespace Legwork.Spec

/-- Merger time of a binary with separation `a`, eccentricity `e` and `β = 64/5 G³ m₁ m₂ (m₁ + m₂) / c⁵`: Peters
(1964) Eq. 5.10 for circular orbits and Eq. 5.14, with `c₀` from Eq. 5.11, for eccentric ones. -/
noncomputable def petersTime (a β e : ℝ) : ℝ :=
  if e = 0 then a ^ 4 / (4 * β)
  else
    let c₀ := a * (1 - e ^ 2) / (e ^ (12 / 19 : ℝ) * (1 + 121 / 304 * e ^ 2) ^ (870 / 2299 : ℝ))
    12 / 19 * c₀ ^ 4 / β * ∫ x in (0 : ℝ)..e,
      x ^ (29 / 19 : ℝ) * (1 + 121 / 304 * x ^ 2) ^ (1181 / 2299 : ℝ) / (1 - x ^ 2) ^ (3 / 2 : ℝ)

/-- `x` differs from `y` by at most the fraction `r` of `y`. -/
def Within (r x y : ℝ) : Prop := |x - y| ≤ r * y

end Legwork.Spec
