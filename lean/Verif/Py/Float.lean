import Mathlib.Analysis.SpecialFunctions.Pow.Real

/-!
# Arithmetic of python floats

Python's `float` and numpy's `float64` are IEEE 754 binary64 numbers. A sum, product or quotient of two of them is the
exact result rounded to a nearest binary64 number; `x**y` is computed by the C library, which is not required to round
correctly.
-/

namespace Legwork.fl

/-- The finite binary64 numbers: 53 bit significands, exponents from -1074 to 971. -/
def IsDouble (x : ℝ) : Prop :=
  ∃ m e : ℤ, |m| < 2 ^ 53 ∧ -1074 ≤ e ∧ e ≤ 971 ∧ x = m * (2 : ℝ) ^ e

/-- An implementation of floating point arithmetic.

* `rnd` rounds the exact result of an operation (or a literal of the program) to a nearest double; nothing is said about
  how ties are broken, and nothing about results of more than 2^1000 in magnitude, so a theorem for all `Arith` also
  shows that no intermediate result overflows.
* `pow x y` is `x**y` for non-negative `x`, assumed to be within four units in the last place of the exact result
  (glibc promises one, the vectorised routines used by numpy four), where 2^-1074 is the last place of the smallest
  results. Squares and square roots, which numpy computes without `pow`, are more accurate than that. -/
structure Arith where
  rnd : ℝ → ℝ
  pow : ℝ → ℝ → ℝ
  nearest : ∀ x, |x| ≤ 2 ^ 1000 → IsDouble (rnd x) ∧ ∀ y, IsDouble y → |rnd x - x| ≤ |y - x|
  pow_ulps : ∀ x y, 0 ≤ x → (0 < x ∨ 0 < y) → x ^ y ≤ 2 ^ 1000 →
    |pow x y - x ^ y| ≤ 2 ^ (-50 : ℤ) * x ^ y + 2 ^ (-1072 : ℤ)

/-- A cosine accurate to four units in the last place (of 1), for arguments for which argument reduction is exact
enough. -/
structure Cosine where
  cos : ℝ → ℝ
  err : ∀ x, |x| ≤ 2 ^ 20 → |cos x - Real.cos x| ≤ 2 ^ (-50 : ℤ)

/-- The Bessel functions that a circular orbit needs: `scipy.special.jv(k, 0)`. -/
structure BesselAtZero where
  jv : ℤ → ℝ → ℝ
  zero : jv 0 0 = 1
  pos : ∀ k, 0 < k → jv k 0 = 0

end Legwork.fl
