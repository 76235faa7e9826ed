import Verif.Model.Strain
import Mathlib.Analysis.SpecialFunctions.Trigonometric.Basic

/-!
# Helper lemmas on the detector response
-/

namespace Legwork.utils

open Real

theorem D_plus_poly (θ φ : ℝ) : D_plus_squared θ φ =
    3 / 2048 * (487 + 158 * cos θ ^ 2 + 7 * (cos θ ^ 2) ^ 2 - 162 * sin (2 * φ) ^ 2 * (1 + cos θ ^ 2) ^ 2) := by
  unfold D_plus_squared; ring

theorem D_cross_poly (θ φ : ℝ) : D_cross_squared θ φ =
    3 / 512 * (120 * (1 - cos θ ^ 2) + cos θ ^ 2 + 162 * sin (2 * φ) ^ 2 * cos θ ^ 2) := by
  unfold D_cross_squared; rw [sin_sq θ]

theorem D_plus_D_cross_sq (θ φ : ℝ) : D_plus_D_cross θ φ ^ 2 =
    (243 / 512) ^ 2 * cos θ ^ 2 * sin (2 * φ) ^ 2 * (1 - sin (2 * φ) ^ 2) * (1 + cos θ ^ 2) ^ 2 := by
  have h : (2 * cos φ ^ 2 - 1) ^ 2 = 1 - sin (2 * φ) ^ 2 := by
    rw [← cos_two_mul, cos_sq']
  unfold D_plus_D_cross
  simp only [mul_pow]
  rw [h]; ring

theorem cos_sq_le (θ : ℝ) : cos θ ^ 2 ≤ 1 := by nlinarith [sin_sq_add_cos_sq θ, sq_nonneg (sin θ)]
theorem sin_sq_le (θ : ℝ) : sin θ ^ 2 ≤ 1 := by nlinarith [sin_sq_add_cos_sq θ, sq_nonneg (cos θ)]

theorem D_plus_pos (θ φ : ℝ) : 0 < D_plus_squared θ φ := by
  rw [D_plus_poly]
  have hx0 := sq_nonneg (cos θ)
  have hx1 := cos_sq_le θ
  have hs0 := sq_nonneg (sin (2 * φ))
  have hs1 := sin_sq_le (2 * φ)
  generalize cos θ ^ 2 = x at *
  generalize sin (2 * φ) ^ 2 = s at *
  have : s * (1 + x) ^ 2 ≤ (1 + x) ^ 2 := by nlinarith [sq_nonneg (1 + x)]
  nlinarith

theorem D_cross_pos (θ φ : ℝ) : 0 < D_cross_squared θ φ := by
  rw [D_cross_poly]
  have hx0 := sq_nonneg (cos θ)
  have hx1 := cos_sq_le θ
  have hs0 := sq_nonneg (sin (2 * φ))
  generalize cos θ ^ 2 = x at *
  generalize sin (2 * φ) ^ 2 = s at *
  nlinarith [mul_nonneg hs0 hx0]

/-- The correlation is strictly dominated: `⟨D₊D×⟩² < ⟨D₊²⟩⟨D×²⟩`. -/
theorem D_gap (θ φ : ℝ) : D_plus_D_cross θ φ ^ 2 < D_plus_squared θ φ * D_cross_squared θ φ := by
  rw [D_plus_D_cross_sq, D_plus_poly, D_cross_poly]
  have hx0 := sq_nonneg (cos θ)
  have hx1 := cos_sq_le θ
  have hs0 := sq_nonneg (sin (2 * φ))
  have hs1 := sin_sq_le (2 * φ)
  generalize cos θ ^ 2 = x at *
  generalize sin (2 * φ) ^ 2 = s at *
  have key : 3 / 2048 * (487 + 158 * x + 7 * x ^ 2 - 162 * s * (1 + x) ^ 2)
      * (3 / 512 * (120 * (1 - x) + x + 162 * s * x))
      - (243 / 512) ^ 2 * x * s * (1 - s) * (1 + x) ^ 2
      = 9 / (2048 * 512) * ((1 - s) * ((487 + 158 * x + 7 * x ^ 2) * (120 - 119 * x))
        + s * ((120 + 43 * x) * (325 - 166 * x - 155 * x ^ 2))) := by ring
  have p0 : 487 ≤ (487 + 158 * x + 7 * x ^ 2) * (120 - 119 * x) := by
    have h1 : 487 ≤ 487 + 158 * x + 7 * x ^ 2 := by nlinarith
    have h2 : 1 ≤ 120 - 119 * x := by linarith
    nlinarith
  have p1 : 480 ≤ (120 + 43 * x) * (325 - 166 * x - 155 * x ^ 2) := by
    have h1 : 120 ≤ 120 + 43 * x := by nlinarith
    have h2 : 4 ≤ 325 - 166 * x - 155 * x ^ 2 := by nlinarith
    nlinarith
  have h1s : 0 ≤ 1 - s := by linarith
  have : 0 < (1 - s) * ((487 + 158 * x + 7 * x ^ 2) * (120 - 119 * x))
        + s * ((120 + 43 * x) * (325 - 166 * x - 155 * x ^ 2)) := by
    nlinarith [mul_le_mul_of_nonneg_left p0 h1s, mul_le_mul_of_nonneg_left p1 hs0]
  nlinarith

theorem F_plus_quadratic (θ φ ψ : ℝ) : F_plus_squared θ φ ψ = 1 / 4 * (D_plus_squared θ φ * cos (2 * ψ) ^ 2
    - 2 * D_plus_D_cross θ φ * (cos (2 * ψ) * sin (2 * ψ)) + D_cross_squared θ φ * sin (2 * ψ) ^ 2) := by
  unfold F_plus_squared
  rw [show 4 * ψ = 2 * (2 * ψ) by ring, sin_two_mul]; ring

theorem F_cross_quadratic (θ φ ψ : ℝ) : F_cross_squared θ φ ψ = 1 / 4 * (D_cross_squared θ φ * cos (2 * ψ) ^ 2
    + 2 * D_plus_D_cross θ φ * (cos (2 * ψ) * sin (2 * ψ)) + D_plus_squared θ φ * sin (2 * ψ) ^ 2) := by
  unfold F_cross_squared
  rw [show 4 * ψ = 2 * (2 * ψ) by ring, sin_two_mul]; ring

/-- A binary quadratic form with positive leading coefficients and negative discriminant is positive on the
unit circle. -/
theorem quad_form_pos {A B C c s : ℝ} (hA : 0 < A) (hAB : C ^ 2 < A * B) (hcs : c ^ 2 + s ^ 2 = 1) :
    0 < A * c ^ 2 + 2 * C * (c * s) + B * s ^ 2 := by
  have h : A * (A * c ^ 2 + 2 * C * (c * s) + B * s ^ 2) = (A * c + C * s) ^ 2 + (A * B - C ^ 2) * s ^ 2 := by ring
  have hpos : 0 < (A * c + C * s) ^ 2 + (A * B - C ^ 2) * s ^ 2 := by
    by_cases hs : s = 0
    · subst hs
      have hc : c ^ 2 = 1 := by linarith
      nlinarith [mul_pos hA hA]
    · have : 0 < s ^ 2 := by positivity
      nlinarith [sq_nonneg (A * c + C * s), mul_pos (sub_pos.2 hAB) this]
  rw [← h] at hpos
  exact pos_of_mul_pos_right hpos hA.le

theorem F_plus_pos (θ φ ψ : ℝ) : 0 < F_plus_squared θ φ ψ := by
  rw [F_plus_quadratic]
  have := quad_form_pos (C := -D_plus_D_cross θ φ) (c := cos (2 * ψ)) (s := sin (2 * ψ)) (D_plus_pos θ φ)
    (by rw [neg_sq]; exact D_gap θ φ) (cos_sq_add_sin_sq _)
  linarith

theorem F_cross_pos (θ φ ψ : ℝ) : 0 < F_cross_squared θ φ ψ := by
  rw [F_cross_quadratic]
  have := quad_form_pos (C := D_plus_D_cross θ φ) (c := cos (2 * ψ)) (s := sin (2 * ψ)) (D_cross_pos θ φ)
    (by rw [mul_comm]; exact D_gap θ φ) (cos_sq_add_sin_sq _)
  linarith

theorem F_sum (θ φ ψ : ℝ) :
    F_plus_squared θ φ ψ + F_cross_squared θ φ ψ = 1 / 4 * (D_plus_squared θ φ + D_cross_squared θ φ) := by
  rw [F_plus_quadratic, F_cross_quadratic]
  linear_combination (1 / 4) * (D_plus_squared θ φ + D_cross_squared θ φ) * cos_sq_add_sin_sq (2 * ψ)

theorem D_sum_le (θ φ : ℝ) : D_plus_squared θ φ + D_cross_squared θ φ ≤ 3 / 2048 * 967 := by
  rw [D_plus_poly, D_cross_poly]
  have hx0 := sq_nonneg (cos θ)
  have hx1 := cos_sq_le θ
  have hs0 := sq_nonneg (sin (2 * φ))
  generalize cos θ ^ 2 = x at *
  generalize sin (2 * φ) ^ 2 = s at *
  nlinarith [mul_nonneg hs0 (sq_nonneg (1 - x))]

end Legwork.utils
