import Verif.Lemmas.KeplerMap
import Verif.Model.Utils

/-!
# Bessel functions as Fourier coefficients of the orbit
-/

namespace Legwork.Kepler

open Real MeasureTheory Set Legwork.utils

theorem integral_even {f : ℝ → ℝ} (hf : Continuous f) (h : ∀ x, f (-x) = f x) :
    ∫ x in (-π)..π, f x = 2 * ∫ x in (0 : ℝ)..π, f x := by
  rw [← intervalIntegral.integral_add_adjacent_intervals (hf.intervalIntegrable (-π) 0)
    (hf.intervalIntegrable 0 π)]
  have := intervalIntegral.integral_comp_neg (a := 0) (b := π) f
  simp only [h, neg_zero] at this
  rw [← this]; ring

theorem integral_odd {f : ℝ → ℝ} (h : ∀ x, f (-x) = -f x) : ∫ x in (-π)..π, f x = 0 := by
  have := intervalIntegral.integral_comp_neg (a := -π) (b := π) f
  simp only [h, neg_neg, intervalIntegral.integral_neg] at this
  linarith

/-- Bessel's integral over a whole period. -/
theorem jv_full (k : ℤ) (z : ℝ) :
    (1 / (2 * π)) * ∫ E in (-π)..π, cos (k * E - z * sin E) = jv k z := by
  have hpi := pi_pos.ne'
  rw [integral_even (by fun_prop) fun x => by
    rw [sin_neg, show k * -x - z * -sin x = -(k * x - z * sin x) by ring, cos_neg]]
  unfold jv
  field_simp

/-- The recurrence between neighbouring Bessel functions. -/
theorem jv_recurrence (k : ℤ) (z : ℝ) : z * (jv (k - 1) z + jv (k + 1) z) = 2 * k * jv k z := by
  have hd : ∀ E : ℝ, HasDerivAt (fun E => sin (k * E - z * sin E))
      (cos (k * E - z * sin E) * (k * 1 - z * cos E)) E := fun E =>
    (((hasDerivAt_id E).const_mul (k : ℝ)).sub ((hasDerivAt_sin E).const_mul z)).sin
  have h0 := intervalIntegral.integral_eq_sub_of_hasDerivAt (a := -π) (b := π) (fun E _ => hd E)
    (Continuous.intervalIntegrable (by fun_prop) _ _)
  rw [sin_pi, sin_neg, sin_pi, neg_zero, mul_zero, sub_zero, sub_zero, sin_int_mul_pi, mul_neg, sin_neg,
    sin_int_mul_pi, neg_zero, sub_zero] at h0
  have e1 : ∀ E : ℝ, cos (k * E - z * sin E) * (k * 1 - z * cos E) = k * cos (k * E - z * sin E) -
      (z / 2) * (cos (((k - 1 : ℤ) : ℝ) * E - z * sin E) + cos (((k + 1 : ℤ) : ℝ) * E - z * sin E)) := by
    intro E
    have h1 : ((k - 1 : ℤ) : ℝ) * E - z * sin E = (k * E - z * sin E) - E := by push_cast; ring
    have h2 : ((k + 1 : ℤ) : ℝ) * E - z * sin E = (k * E - z * sin E) + E := by push_cast; ring
    rw [h1, h2, cos_sub _ E, cos_add _ E]
    ring
  simp only [e1] at h0
  have hint : ∀ m : ℤ, IntervalIntegrable (fun E : ℝ => cos (m * E - z * sin E)) volume (-π) π :=
    fun m => Continuous.intervalIntegrable (by fun_prop) _ _
  rw [intervalIntegral.integral_sub ((hint k).const_mul _) (((hint _).add (hint _)).const_mul _),
    intervalIntegral.integral_const_mul, intervalIntegral.integral_const_mul,
    intervalIntegral.integral_add (hint _) (hint _)] at h0
  rw [← jv_full, ← jv_full, ← jv_full]
  have := congrArg (fun t => (1 / π) * t) h0
  simp only [mul_zero] at this
  linear_combination -this

theorem jv_neg_neg (k : ℤ) (z : ℝ) : jv (-k) (-z) = jv k z := by
  unfold jv
  congr 1
  refine intervalIntegral.integral_congr fun τ _ => ?_
  push_cast
  rw [show -(k : ℝ) * τ - -z * sin τ = -(k * τ - z * sin τ) by ring, cos_neg]

variable (e : ℝ) (n k : ℤ)

theorem cosInt_cos : cosInt e n (fun E => cos (k * E)) = (jv (n - k) (n * e) + jv (n + k) (n * e)) / 2 := by
  rw [← jv_full, ← jv_full, ← mul_add, ← intervalIntegral.integral_add
    (Continuous.intervalIntegrable (by fun_prop) _ _) (Continuous.intervalIntegrable (by fun_prop) _ _),
    mul_div_assoc, ← intervalIntegral.integral_div]
  unfold cosInt
  congr 1
  refine intervalIntegral.integral_congr fun E _ => ?_
  have h1 : ((n - k : ℤ) : ℝ) * E - n * e * sin E = n * mean e E - k * E := by unfold mean; push_cast; ring
  have h2 : ((n + k : ℤ) : ℝ) * E - n * e * sin E = n * mean e E + k * E := by unfold mean; push_cast; ring
  simp only
  rw [h1, h2, cos_sub, cos_add]
  ring

theorem sinInt_sin : sinInt e n (fun E => sin (k * E)) = (jv (n - k) (n * e) - jv (n + k) (n * e)) / 2 := by
  rw [← jv_full, ← jv_full, ← mul_sub, ← intervalIntegral.integral_sub
    (Continuous.intervalIntegrable (by fun_prop) _ _) (Continuous.intervalIntegrable (by fun_prop) _ _),
    mul_div_assoc, ← intervalIntegral.integral_div]
  unfold sinInt
  congr 1
  refine intervalIntegral.integral_congr fun E _ => ?_
  have h1 : ((n - k : ℤ) : ℝ) * E - n * e * sin E = n * mean e E - k * E := by unfold mean; push_cast; ring
  have h2 : ((n + k : ℤ) : ℝ) * E - n * e * sin E = n * mean e E + k * E := by unfold mean; push_cast; ring
  simp only
  rw [h1, h2, cos_sub, cos_add]
  ring

theorem mean_neg (E : ℝ) : mean e (-E) = -mean e E := by unfold mean; rw [sin_neg]; ring

theorem cosInt_odd {F : ℝ → ℝ} (h : ∀ E, F (-E) = -F E) : cosInt e n F = 0 := by
  unfold cosInt
  rw [integral_odd fun E => by rw [h, mean_neg, mul_neg, cos_neg]; ring, mul_zero]

theorem sinInt_even {F : ℝ → ℝ} (h : ∀ E, F (-E) = F E) : sinInt e n F = 0 := by
  unfold sinInt
  rw [integral_odd fun E => by rw [h, mean_neg, mul_neg, sin_neg]; ring, mul_zero]

theorem cosInt_lin (a b : ℝ) {F G : ℝ → ℝ} (hF : Continuous F) (hG : Continuous G) :
    cosInt e n (fun E => a * F E + b * G E) = a * cosInt e n F + b * cosInt e n G := by
  have hm := continuous_mean e
  unfold cosInt
  have : ∀ E, (a * F E + b * G E) * cos (n * mean e E) =
    a * (F E * cos (n * mean e E)) + b * (G E * cos (n * mean e E)) := fun E => by ring
  simp only [this]
  rw [intervalIntegral.integral_add (Continuous.intervalIntegrable (by fun_prop) _ _)
    (Continuous.intervalIntegrable (by fun_prop) _ _), intervalIntegral.integral_const_mul,
    intervalIntegral.integral_const_mul]
  ring

theorem sinInt_lin (a b : ℝ) {F G : ℝ → ℝ} (hF : Continuous F) (hG : Continuous G) :
    sinInt e n (fun E => a * F E + b * G E) = a * sinInt e n F + b * sinInt e n G := by
  have hm := continuous_mean e
  unfold sinInt
  have : ∀ E, (a * F E + b * G E) * sin (n * mean e E) =
    a * (F E * sin (n * mean e E)) + b * (G E * sin (n * mean e E)) := fun E => by ring
  simp only [this]
  rw [intervalIntegral.integral_add (Continuous.intervalIntegrable (by fun_prop) _ _)
    (Continuous.intervalIntegrable (by fun_prop) _ _), intervalIntegral.integral_const_mul,
    intervalIntegral.integral_const_mul]
  ring

end Legwork.Kepler
