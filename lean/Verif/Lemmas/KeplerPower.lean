import Verif.Lemmas.KeplerBessel
import Mathlib.Analysis.SpecialFunctions.Trigonometric.ArctanDeriv

/-!
# The power radiated by an eccentric orbit

The third derivatives of the quadrupole moments of the orbit `(cos E - e, √(1-e²) sin E)`, the
average of the radiated power over one orbit, and its decomposition into harmonics.
-/

namespace Legwork.Kepler

open Real MeasureTheory Set Legwork.utils

section Moments

variable (e E : ℝ)

/-- First derivative (with respect to the eccentric anomaly) of the moment `x²`. -/
noncomputable def xx₁ : ℝ := (-1) * sin (((2 : ℤ) : ℝ) * E) + (2 * e) * sin (((1 : ℤ) : ℝ) * E)
/-- First derivative of the moment `y²`. -/
noncomputable def yy₁ : ℝ := (1 - e ^ 2) * sin (((2 : ℤ) : ℝ) * E) + 0 * sin (((1 : ℤ) : ℝ) * E)
/-- First derivative of the moment `x y`, without the factor `√(1-e²)`. -/
noncomputable def xy₁ : ℝ := 1 * cos (((2 : ℤ) : ℝ) * E) + (-e) * cos (((1 : ℤ) : ℝ) * E)

/-- Derivatives with respect to the mean anomaly. -/
noncomputable def xxv : ℝ := -2 * sin E * (cos E - e) / dist e E
noncomputable def yyv : ℝ := 2 * (1 - e ^ 2) * sin E * cos E / dist e E
noncomputable def xyv : ℝ := ((cos E - e) * cos E - sin E ^ 2) / dist e E

noncomputable def xxa : ℝ := 2 * sin E ^ 2 / dist e E ^ 2 - 2 * (cos E - e) ^ 2 / dist e E ^ 3
noncomputable def yya : ℝ := (1 - e ^ 2) * (2 * cos E ^ 2 / dist e E ^ 2 - 2 * sin E ^ 2 / dist e E ^ 3)
noncomputable def xya : ℝ := -2 * sin E * cos E / dist e E ^ 2 - 2 * (cos E - e) * sin E / dist e E ^ 3

noncomputable def xxj : ℝ := 8 * (cos E - e) * sin E / dist e E ^ 4 +
  6 * (cos E - e) ^ 2 * (e * sin E) / dist e E ^ 5
noncomputable def yyj : ℝ := (1 - e ^ 2) * (-8 * sin E * cos E / dist e E ^ 4 +
  6 * sin E ^ 2 * (e * sin E) / dist e E ^ 5)
noncomputable def xyj : ℝ := -4 * ((cos E - e) * cos E - sin E ^ 2) / dist e E ^ 4 +
  6 * (cos E - e) * sin E * (e * sin E) / dist e E ^ 5

end Moments

variable {e : ℝ}

theorem hasDerivAt_dist (e E : ℝ) : HasDerivAt (dist e) (e * sin E) E := by
  have := ((hasDerivAt_cos E).const_mul e).const_sub 1
  exact this.congr_deriv (by ring)

theorem xxv_mul (h0 : 0 ≤ e) (h1 : e < 1) (E : ℝ) : xxv e E * dist e E = xx₁ e E := by
  have := (dist_pos h0 h1 E).ne'
  unfold xxv xx₁
  push_cast
  rw [div_mul_cancel₀ _ this, sin_two_mul, one_mul]
  ring

theorem yyv_mul (h0 : 0 ≤ e) (h1 : e < 1) (E : ℝ) : yyv e E * dist e E = yy₁ e E := by
  have := (dist_pos h0 h1 E).ne'
  unfold yyv yy₁
  push_cast
  rw [div_mul_cancel₀ _ this, sin_two_mul]
  ring

theorem xyv_mul (h0 : 0 ≤ e) (h1 : e < 1) (E : ℝ) : xyv e E * dist e E = xy₁ e E := by
  have := (dist_pos h0 h1 E).ne'
  unfold xyv xy₁
  push_cast
  rw [div_mul_cancel₀ _ this, cos_two_mul, sin_sq]
  simp only [one_mul]
  ring

theorem xxv_deriv (h0 : 0 ≤ e) (h1 : e < 1) (E : ℝ) : HasDerivAt (xxv e) (xxa e E * dist e E) E := by
  have hp := (dist_pos h0 h1 E).ne'
  have := (((hasDerivAt_sin E).const_mul (-2)).mul ((hasDerivAt_cos E).sub_const e)).div (hasDerivAt_dist e E) hp
  refine this.congr_deriv ?_
  unfold xxa
  have hs : sin E ^ 2 = 1 - cos E ^ 2 := sin_sq E
  field_simp
  simp only [hs, dist, Pi.mul_apply]
  ring_nf
  simp only [hs]
  ring

theorem yyv_deriv (h0 : 0 ≤ e) (h1 : e < 1) (E : ℝ) : HasDerivAt (yyv e) (yya e E * dist e E) E := by
  have hp := (dist_pos h0 h1 E).ne'
  have := (((hasDerivAt_sin E).const_mul (2 * (1 - e ^ 2))).mul (hasDerivAt_cos E)).div (hasDerivAt_dist e E) hp
  refine this.congr_deriv ?_
  unfold yya
  have hs : sin E ^ 2 = 1 - cos E ^ 2 := sin_sq E
  field_simp
  simp only [hs, dist, Pi.mul_apply]
  ring_nf
  simp only [hs]
  ring

theorem xyv_deriv (h0 : 0 ≤ e) (h1 : e < 1) (E : ℝ) : HasDerivAt (xyv e) (xya e E * dist e E) E := by
  have hp := (dist_pos h0 h1 E).ne'
  have := ((((hasDerivAt_cos E).sub_const e).mul (hasDerivAt_cos E)).sub ((hasDerivAt_sin E).pow 2)).div
    (hasDerivAt_dist e E) hp
  refine this.congr_deriv ?_
  unfold xya
  have hs : sin E ^ 2 = 1 - cos E ^ 2 := sin_sq E
  field_simp
  simp only [dist, Pi.mul_apply, Pi.sub_apply, Pi.pow_apply]
  ring_nf
  have h3 : sin E ^ 3 = sin E * (1 - cos E ^ 2) := by rw [pow_succ, hs]; ring
  simp only [h3]
  ring

theorem xxa_deriv (h0 : 0 ≤ e) (h1 : e < 1) (E : ℝ) : HasDerivAt (xxa e) (xxj e E * dist e E) E := by
  have hp := (dist_pos h0 h1 E).ne'
  have := (((((hasDerivAt_sin E).pow 2).const_mul 2)).div ((hasDerivAt_dist e E).pow 2) (pow_ne_zero 2 hp)).sub
    ((((((hasDerivAt_cos E).sub_const e).pow 2).const_mul 2)).div ((hasDerivAt_dist e E).pow 3) (pow_ne_zero 3 hp))
  refine this.congr_deriv ?_
  unfold xxj
  have hs : sin E ^ 2 = 1 - cos E ^ 2 := sin_sq E
  have h3 : sin E ^ 3 = sin E * (1 - cos E ^ 2) := by rw [pow_succ, hs]; ring
  simp only [Pi.pow_apply, Nat.cast_ofNat, Nat.reduceSub, pow_one]
  field_simp
  simp only [dist]
  ring_nf
  simp only [h3]
  ring

theorem yya_deriv (h0 : 0 ≤ e) (h1 : e < 1) (E : ℝ) : HasDerivAt (yya e) (yyj e E * dist e E) E := by
  have hp := (dist_pos h0 h1 E).ne'
  have := ((((((hasDerivAt_cos E).pow 2).const_mul 2)).div ((hasDerivAt_dist e E).pow 2) (pow_ne_zero 2 hp)).sub
    (((((hasDerivAt_sin E).pow 2).const_mul 2)).div ((hasDerivAt_dist e E).pow 3) (pow_ne_zero 3 hp))).const_mul
      (1 - e ^ 2)
  refine this.congr_deriv ?_
  unfold yyj
  have hs : sin E ^ 2 = 1 - cos E ^ 2 := sin_sq E
  have h3 : sin E ^ 3 = sin E * (1 - cos E ^ 2) := by rw [pow_succ, hs]; ring
  simp only [Pi.pow_apply, Nat.cast_ofNat, Nat.reduceSub, pow_one]
  field_simp
  simp only [dist]
  ring_nf

theorem xya_deriv (h0 : 0 ≤ e) (h1 : e < 1) (E : ℝ) : HasDerivAt (xya e) (xyj e E * dist e E) E := by
  have hp := (dist_pos h0 h1 E).ne'
  have := ((((hasDerivAt_sin E).const_mul (-2)).mul (hasDerivAt_cos E)).div ((hasDerivAt_dist e E).pow 2)
    (pow_ne_zero 2 hp)).sub ((((((hasDerivAt_cos E).sub_const e).const_mul 2)).mul (hasDerivAt_sin E)).div
      ((hasDerivAt_dist e E).pow 3) (pow_ne_zero 3 hp))
  refine this.congr_deriv ?_
  unfold xyj
  have hs : sin E ^ 2 = 1 - cos E ^ 2 := sin_sq E
  simp only [Pi.pow_apply, Pi.mul_apply, Nat.cast_ofNat, Nat.reduceSub, pow_one]
  field_simp
  simp only [dist]
  ring_nf
  simp only [hs]
  ring

theorem continuous_moments (h0 : 0 ≤ e) (h1 : e < 1) :
    Continuous (xxa e) ∧ Continuous (yya e) ∧ Continuous (xya e) ∧
    Continuous (xxj e) ∧ Continuous (yyj e) ∧ Continuous (xyj e) := by
  have hp : ∀ (k : ℕ) (E : ℝ), dist e E ^ k ≠ 0 := fun k E => pow_ne_zero k (dist_pos h0 h1 E).ne'
  have hd := continuous_dist e
  unfold xxa yya xya xxj yyj xyj
  refine ⟨?_, ?_, ?_, ?_, ?_, ?_⟩ <;> fun_prop (disch := exact hp _)

/-- The power at one point of the orbit. -/
theorem power (h0 : 0 ≤ e) (h1 : e < 1) (E : ℝ) :
    (xxj e E ^ 2 + yyj e E ^ 2 + 2 * (1 - e ^ 2) * xyj e E ^ 2 - (1 / 3) * (xxj e E + yyj e E) ^ 2) * dist e E =
    (8 / 3) * (11 * (1 - e ^ 2) * (1 / dist e E ^ 5) + 2 * (1 / dist e E ^ 4) - 1 / dist e E ^ 3) := by
  have hp := (dist_pos h0 h1 E).ne'
  have hs : sin E ^ 2 = 1 - cos E ^ 2 := sin_sq E
  have hs4 : sin E ^ 4 = (1 - cos E ^ 2) ^ 2 := by rw [← hs]; ring
  have hs6 : sin E ^ 6 = (1 - cos E ^ 2) ^ 3 := by rw [← hs]; ring
  unfold xxj yyj xyj
  field_simp
  simp only [dist]
  ring_nf
  simp only [hs, hs4, hs6]
  ring

end Legwork.Kepler
