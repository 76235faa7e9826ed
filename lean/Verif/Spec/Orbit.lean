import Verif.Model.Consts

/-!
# Orbital mechanics specifications, written without reference to the model
-/

namespace Legwork.Spec

open Real

/-- Kepler's third law for a binary with orbital frequency `f`, semi-major axis `a`, masses `m₁ m₂`. -/
def KeplerThird (K : Consts) (f a m₁ m₂ : ℝ) : Prop :=
  (2 * π * f) ^ 2 * a ^ 3 = K.G * (m₁ + m₂)

/-- Peters (1964) Eq. 5.11: the curve in the `(a, e)` plane followed by a binary with constant `c0`. -/
def Peters511 (a e c0 : ℝ) : Prop :=
  a * (1 - e ^ 2) = c0 * e ^ (12 / 19 : ℝ) * (1 + 121 / 304 * e ^ 2) ^ (870 / 2299 : ℝ)

end Legwork.Spec
