import Verif.Spec.ScCurve
import Verif.Model.Snr
import Mathlib.Analysis.SpecialFunctions.Pow.Real

/-!
# Vocabulary: slowly varying noise curves
-/

namespace Legwork.Spec

/-- On the band `[lo, hi]` the function `S` is positive and changes, between any two frequencies, by at most the `k`-th
power of their ratio. (On a log-log plot the slope is at most `k`, upwards or downwards.) -/
def SlopeAtMost (k : ℝ) (S : ℝ → ℝ) (lo hi : ℝ) : Prop :=
  (∀ f, lo ≤ f → f ≤ hi → 0 < S f) ∧
  ∀ f f', lo ≤ f → f ≤ f' → f' ≤ hi → S f' ≤ (f' / f) ^ k * S f ∧ S f ≤ (f' / f) ^ k * S f'

/-- `x` and `y` differ by at most the factor `q`. -/
def WithinFactor (q x y : ℝ) : Prop := x ≤ q * y ∧ y ≤ q * x

/-- The context of an SNR function without and with interpolation: `C` uses the exact curve, of slope at most `k` in the
band of the grid, and `C'` its interpolation. -/
structure Interpolated (C C' : snr.Ctx) (k : ℝ) (S : ℝ → ℝ) : Prop where
  exact_curve : C.interpolated_sc = none
  curve : ∃ sc, GridCurve (snr.noise C) sc ∧ C' = { C with interpolated_sc := some sc }
  t_obs : 0 ≤ C.t_obs
  k_nonneg : 0 ≤ k
  slope : SlopeAtMost k S 1e-7 2
  noise : ∀ f, 1e-7 ≤ f → f ≤ 2 → snr.noise C f = .ok (S f : ℝ)

end Legwork.Spec
