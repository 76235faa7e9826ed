import Mathlib.Analysis.SpecialFunctions.Pow.Real
import Mathlib.Analysis.SpecialFunctions.Log.Base
import Mathlib.Analysis.SpecialFunctions.Trigonometric.DerivHyp

/-!
# Specifications for noise curves, written without reference to the model
-/

namespace Legwork.Spec

open Real

/-- Entry `k` of the list of mission lengths is the one closest to `t`; ties go to the earliest entry. -/
def NearestMission (lengths : List ℝ) (t : ℝ) (k : ℕ) : Prop :=
  ∃ l, lengths[k]? = some l ∧ ∀ (j : ℕ) (l' : ℝ), lengths[j]? = some l' →
    |t - l| ≤ |t - l'| ∧ (j < k → |t - l| < |t - l'|)

/-- One column of Robson+19 Table 1. -/
structure RobsonFit where
  years : ℝ
  α : ℝ
  β : ℝ
  κ : ℝ
  γ : ℝ
  fk : ℝ

/-- Robson+19 Table 1, by mission length. -/
noncomputable def robsonTable : List RobsonFit :=
  [⟨0.5, 0.133, 243, 482, 917, 0.00258⟩, ⟨1, 0.171, 292, 1020, 1680, 0.00215⟩,
   ⟨2, 0.165, 299, 611, 1340, 0.00173⟩, ⟨4, 0.138, -221, 521, 1680, 0.00113⟩]

/-- Robson+19 Eq. 14. -/
noncomputable def RobsonFit.noise (r : RobsonFit) (f : ℝ) : ℝ :=
  9e-45 * f ^ (-(7 / 3) : ℝ) * exp (r.β * f * sin (r.κ * f) - f ^ r.α) * (1 + tanh (r.γ * (r.fk - f)))

/-- One column of Huang+20 Table II: mission length in years and polynomial coefficients of the logarithm of the
confusion amplitude. -/
structure HuangFit where
  years : ℝ
  a0 : ℝ
  a1 : ℝ
  a2 : ℝ
  a3 : ℝ
  a4 : ℝ
  a5 : ℝ
  a6 : ℝ

/-- Huang+20 Table II, by mission length. -/
noncomputable def huangTable : List HuangFit :=
  [⟨0.5, -18.6, -1.22, 0.009, -1.87, 0.65, 3.6, -4.6⟩, ⟨1, -18.6, -1.13, -0.945, -1.02, 4.05, -4.5, -0.5⟩,
   ⟨2, -18.6, -1.45, 0.315, -1.19, -4.48, 10.8, -9.4⟩, ⟨4, -18.6, -1.43, -0.687, 0.24, -0.15, -1.8, -3.2⟩,
   ⟨5, -18.6, -1.51, -0.71, -1.13, -0.83, 13.2, -19.1⟩]

open Classical in
/-- The confusion noise fitted by Huang+20 between 1e-4 and 1 Hz, zero elsewhere. -/
noncomputable def HuangFit.noise (h : HuangFit) (f : ℝ) : ℝ :=
  let x := log (f / 1e-3) / log 10
  if 1e-4 ≤ f ∧ f ≤ 1 then
    ((10 : ℝ) ^ (h.a0 + h.a1 * x + h.a2 * x ^ 2 + h.a3 * x ^ 3 + h.a4 * x ^ 4 + h.a5 * x ^ 5 + h.a6 * x ^ 6)) ^ 2
  else 0

end Legwork.Spec
