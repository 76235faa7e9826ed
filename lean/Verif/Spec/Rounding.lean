import Mathlib.Analysis.SpecialFunctions.Pow.Real

/-! # What it means for a computed number to be right up to rounding -/

namespace Legwork.Spec

/-- `computed` differs from `exact` by at most `k` machine epsilons (2^-52, about 2.2e-16), relative to `exact`. -/
def WithinUlps (k computed exact : ℝ) : Prop :=
  |computed - exact| ≤ k * 2 ^ (-52 : ℤ) * |exact|

/-- A number that the program may be given as a value in some units: positive and between 1e-40 and 1e40. -/
def Sensible (x : ℝ) : Prop := 1 / 10 ^ 40 ≤ x ∧ x ≤ 10 ^ 40

/-- `k` is the factor that the units library uses for a conversion whose exact factor is `exact`: it is right up to a few
roundings. -/
def Conversion (k exact : ℝ) : Prop := WithinUlps 4 k exact ∧ 1 / 10 ^ 95 ≤ exact ∧ exact ≤ 10 ^ 95

end Legwork.Spec
