import Verif.Lemmas.Response
import Verif.Spec.Response

/-!
# Integrals of the detector response over the sphere
-/

namespace Legwork.utils

open Real Legwork.Spec intervalIntegral

theorem int_cos_sq_pi : ∫ ψ in (0 : ℝ)..π, cos (2 * ψ) ^ 2 = π / 2 := by
  rw [intervalIntegral.integral_comp_mul_left (fun x => cos x ^ 2) two_ne_zero, integral_cos_sq]
  simp [sin_two_pi]
  ring

theorem int_sin_sq_pi : ∫ ψ in (0 : ℝ)..π, sin (2 * ψ) ^ 2 = π / 2 := by
  rw [intervalIntegral.integral_comp_mul_left (fun x => sin x ^ 2) two_ne_zero, integral_sin_sq]
  simp [sin_two_pi]
  ring

theorem int_sin_sq_2pi : ∫ φ in (0 : ℝ)..(2 * π), sin (2 * φ) ^ 2 = π := by
  rw [intervalIntegral.integral_comp_mul_left (fun x => sin x ^ 2) two_ne_zero, integral_sin_sq]
  rw [show 2 * (2 * π) = (2 : ℕ) * (2 * π) by push_cast; ring, cos_nat_mul_two_pi]
  simp
  rw [show 2 * (2 * π) = (4 : ℕ) * π by push_cast; ring, sin_nat_mul_pi]
  ring

theorem int_cos_pow_sin (m : ℕ) : ∫ θ in (0 : ℝ)..π, cos θ ^ m * sin θ = (1 - (-1) ^ (m + 1)) / (m + 1) := by
  have h := integral_sin_pow_odd_mul_cos_pow (a := 0) (b := π) 0 m
  simp at h
  rw [show (fun θ => cos θ ^ m * sin θ) = fun θ => sin θ * cos θ ^ m by ext; ring, h]

/-- Integral over co-latitude of a quartic in `cos θ`. -/
theorem int_quartic (a₀ a₁ a₂ a₃ a₄ : ℝ) :
    ∫ θ in (0 : ℝ)..π, (a₀ + a₁ * cos θ + a₂ * cos θ ^ 2 + a₃ * cos θ ^ 3 + a₄ * cos θ ^ 4) * sin θ
      = 2 * a₀ + 2 / 3 * a₂ + 2 / 5 * a₄ := by
  have e : (fun θ => (a₀ + a₁ * cos θ + a₂ * cos θ ^ 2 + a₃ * cos θ ^ 3 + a₄ * cos θ ^ 4) * sin θ)
      = fun θ => a₀ * (cos θ ^ 0 * sin θ) + a₁ * (cos θ ^ 1 * sin θ) + a₂ * (cos θ ^ 2 * sin θ)
        + a₃ * (cos θ ^ 3 * sin θ) + a₄ * (cos θ ^ 4 * sin θ) := by ext; ring
  rw [e]
  have hi : ∀ (a : ℝ) (m : ℕ), IntervalIntegrable (fun θ => a * (cos θ ^ m * sin θ)) MeasureTheory.volume 0 π :=
    fun a m => Continuous.intervalIntegrable (by fun_prop) _ _
  rw [integral_add ((((hi _ _).add (hi _ _)).add (hi _ _)).add (hi _ _)) (hi _ _),
    integral_add (((hi _ _).add (hi _ _)).add (hi _ _)) (hi _ _),
    integral_add ((hi _ _).add (hi _ _)) (hi _ _), integral_add (hi _ _) (hi _ _)]
  simp only [integral_const_mul, int_cos_pow_sin]
  norm_num
  ring

/-- Weighted responses: the integral over co-latitude. -/
theorem int_theta (p q φ ψ : ℝ) :
    ∫ θ in (0 : ℝ)..π, (p * F_plus_squared θ φ ψ + q * F_cross_squared θ φ ψ) * sin θ
      = (p * cos (2 * ψ) ^ 2 + q * sin (2 * ψ) ^ 2) * (3 / 8192) * (16232 / 15 - 3024 / 5 * sin (2 * φ) ^ 2)
      + (p * sin (2 * ψ) ^ 2 + q * cos (2 * ψ) ^ 2) * (3 / 2048) * (482 / 3 + 108 * sin (2 * φ) ^ 2) := by
  set u := p * cos (2 * ψ) ^ 2 + q * sin (2 * ψ) ^ 2 with hu
  set v := p * sin (2 * ψ) ^ 2 + q * cos (2 * ψ) ^ 2 with hv
  set w := (q - p) * sin (4 * ψ) * (1 / 4) * (243 / 512) * sin (2 * φ) * (2 * cos φ ^ 2 - 1) with hw
  set s := sin (2 * φ) ^ 2 with hs
  have e : (fun θ => (p * F_plus_squared θ φ ψ + q * F_cross_squared θ φ ψ) * sin θ) = fun θ =>
      ((u * (3 / 8192) * (487 - 162 * s) + v * (3 / 2048) * 120) + w * cos θ
        + (u * (3 / 8192) * (158 - 324 * s) + v * (3 / 2048) * (-119 + 162 * s)) * cos θ ^ 2 + w * cos θ ^ 3
        + (u * (3 / 8192) * (7 - 162 * s)) * cos θ ^ 4) * sin θ := by
    ext θ
    unfold F_plus_squared F_cross_squared
    rw [D_plus_poly, D_cross_poly]
    unfold D_plus_D_cross
    rw [hu, hv, hw, hs]
    ring
  rw [e, int_quartic]
  ring

theorem int_phi (a b : ℝ) : ∫ φ in (0 : ℝ)..(2 * π), (a + b * sin (2 * φ) ^ 2) = 2 * π * a + π * b := by
  rw [integral_add (by simp) (Continuous.intervalIntegrable (by fun_prop) _ _), integral_const_mul, int_sin_sq_2pi]
  simp; ring

theorem int_psi (a b : ℝ) :
    ∫ ψ in (0 : ℝ)..π, (a * cos (2 * ψ) ^ 2 + b * sin (2 * ψ) ^ 2) = π / 2 * (a + b) := by
  rw [integral_add (Continuous.intervalIntegrable (by fun_prop) _ _)
    (Continuous.intervalIntegrable (by fun_prop) _ _), integral_const_mul, integral_const_mul, int_sin_sq_pi,
    int_cos_sq_pi]
  ring

theorem skyAverage_weighted (p q : ℝ) :
    skyAverage (fun θ φ ψ => p * F_plus_squared θ φ ψ + q * F_cross_squared θ φ ψ) = 3 / 20 * (p + q) := by
  unfold skyAverage
  have e1 : ∀ ψ, (∫ φ in (0 : ℝ)..(2 * π), ∫ θ in (0 : ℝ)..π,
      (p * F_plus_squared θ φ ψ + q * F_cross_squared θ φ ψ) * sin θ)
      = (π * (731 / 1280 * p + 161 / 256 * q)) * cos (2 * ψ) ^ 2
        + (π * (161 / 256 * p + 731 / 1280 * q)) * sin (2 * ψ) ^ 2 := by
    intro ψ
    simp only [int_theta]
    rw [show (fun φ : ℝ => (p * cos (2 * ψ) ^ 2 + q * sin (2 * ψ) ^ 2) * (3 / 8192)
          * (16232 / 15 - 3024 / 5 * sin (2 * φ) ^ 2)
        + (p * sin (2 * ψ) ^ 2 + q * cos (2 * ψ) ^ 2) * (3 / 2048) * (482 / 3 + 108 * sin (2 * φ) ^ 2))
      = fun φ : ℝ => ((p * cos (2 * ψ) ^ 2 + q * sin (2 * ψ) ^ 2) * (3 / 8192) * (16232 / 15)
          + (p * sin (2 * ψ) ^ 2 + q * cos (2 * ψ) ^ 2) * (3 / 2048) * (482 / 3))
        + ((p * cos (2 * ψ) ^ 2 + q * sin (2 * ψ) ^ 2) * (3 / 8192) * (-(3024 / 5))
          + (p * sin (2 * ψ) ^ 2 + q * cos (2 * ψ) ^ 2) * (3 / 2048) * 108) * sin (2 * φ) ^ 2 by ext; ring]
    rw [int_phi]
    ring
  simp only [e1]
  rw [int_psi]
  have := Real.pi_pos.ne'
  field_simp
  ring

theorem skyAverage_F_plus : skyAverage F_plus_squared = 3 / 20 := by
  have := skyAverage_weighted 1 0
  simpa using this

theorem skyAverage_F_cross : skyAverage F_cross_squared = 3 / 20 := by
  have := skyAverage_weighted 0 1
  simpa using this

theorem skyAverage_F_sum : skyAverage (fun θ φ ψ => F_plus_squared θ φ ψ + F_cross_squared θ φ ψ) = 3 / 10 := by
  have := skyAverage_weighted 1 1
  simp only [one_mul] at this
  rw [this]; norm_num

theorem inclinationAverage_weights :
    inclinationAverage (fun ι => 3 / 20 * (((1 + cos ι ^ 2) / 2) ^ 2 + cos ι ^ 2)) = 12 / 100 := by
  unfold inclinationAverage
  rw [show (fun ι : ℝ => 3 / 20 * (((1 + cos ι ^ 2) / 2) ^ 2 + cos ι ^ 2) * sin ι) = fun ι : ℝ =>
    (3 / 80 + 0 * cos ι + 18 / 80 * cos ι ^ 2 + 0 * cos ι ^ 3 + 3 / 80 * cos ι ^ 4) * sin ι by ext; ring, int_quartic]
  norm_num

end Legwork.utils
