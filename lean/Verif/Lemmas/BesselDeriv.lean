import Mathlib.Analysis.Calculus.ParametricIntervalIntegral
import Mathlib.Analysis.Calculus.Deriv.MeanValue
import Mathlib.Analysis.SpecialFunctions.Trigonometric.Deriv
import Verif.Lemmas.BesselSmall
import Verif.Lemmas.KeplerStrain

/-!
# The derivative of the Bessel functions

The power in the second harmonic falls with the eccentricity up to `e = 0.35`, and beyond it is not more than 55% of the total.
-/

namespace Legwork.utils

open Real Legwork.Props Set

/-- `J_k' = (J_{k-1} - J_{k+1}) / 2`. -/
theorem hasDerivAt_jv (k : ℤ) (x : ℝ) : HasDerivAt (jv k) ((jv (k - 1) x - jv (k + 1) x) / 2) x := by
  have hint : ∀ (m : ℤ) (y : ℝ), IntervalIntegrable (fun τ : ℝ => cos (m * τ - y * sin τ)) MeasureTheory.volume 0 π :=
    fun m y => (by fun_prop : Continuous fun τ : ℝ => cos (m * τ - y * sin τ)).intervalIntegrable _ _
  have h := (intervalIntegral.hasDerivAt_integral_of_dominated_loc_of_deriv_le (μ := MeasureTheory.volume)
    (a := 0) (b := π) (F := fun y τ => cos (k * τ - y * sin τ))
    (F' := fun y τ => sin (k * τ - y * sin τ) * sin τ) (x₀ := x) (s := univ) (bound := fun _ => 1) Filter.univ_mem
    (Filter.Eventually.of_forall fun y =>
      (by fun_prop : Continuous fun τ : ℝ => cos (k * τ - y * sin τ)).aestronglyMeasurable)
    (hint k x) (by fun_prop : Continuous fun τ : ℝ => sin (k * τ - x * sin τ) * sin τ).aestronglyMeasurable
    (Filter.Eventually.of_forall fun τ _ y _ => by
      rw [Real.norm_eq_abs, abs_mul]
      exact mul_le_one₀ (abs_sin_le_one _) (abs_nonneg _) (abs_sin_le_one _))
    intervalIntegrable_const
    (Filter.Eventually.of_forall fun τ _ y _ => by
      have h1 : HasDerivAt (fun y : ℝ => k * τ - y * sin τ) (-(1 * sin τ)) y :=
        ((hasDerivAt_id y).mul_const (sin τ)).const_sub _
      exact h1.cos.congr_deriv (by ring))).2
  have h2 := h.const_mul (1 / π)
  have e : (jv (k - 1) x - jv (k + 1) x) / 2 = 1 / π * ∫ τ in (0 : ℝ)..π, sin (k * τ - x * sin τ) * sin τ := by
    unfold jv
    have e1 : ∀ τ : ℝ, sin (k * τ - x * sin τ) * sin τ =
        (1 / 2) * (cos (((k - 1 : ℤ) : ℝ) * τ - x * sin τ) - cos (((k + 1 : ℤ) : ℝ) * τ - x * sin τ)) := by
      intro τ
      have a1 : ((k - 1 : ℤ) : ℝ) * τ - x * sin τ = (k * τ - x * sin τ) - τ := by push_cast; ring
      have a2 : ((k + 1 : ℤ) : ℝ) * τ - x * sin τ = (k * τ - x * sin τ) + τ := by push_cast; ring
      rw [a1, a2, cos_sub (k * τ - x * sin τ) τ, cos_add (k * τ - x * sin τ) τ]
      ring
    simp only [e1]
    rw [intervalIntegral.integral_const_mul, intervalIntegral.integral_sub (hint _ x) (hint _ x)]
    ring
  rw [e]
  exact h2

/-- The derivative of a Bessel function at twice the eccentricity. -/
theorem hasDerivAt_jv_two (k : ℤ) (e : ℝ) :
    HasDerivAt (fun e : ℝ => jv k (2 * e)) (jv (k - 1) (2 * e) - jv (k + 1) (2 * e)) e := by
  have h1 : HasDerivAt (fun e : ℝ => 2 * e) (2 * 1) e := (hasDerivAt_id e).const_mul 2
  exact ((hasDerivAt_jv k (2 * e)).comp e h1).congr_deriv (by ring)

theorem jv_two_bound {k : ℤ} {e : ℝ} (h0 : 0 ≤ e) (h1 : e ≤ 0.2) :
    |jv k (2 * e) - ((1 - e ^ 2) * jv k 0 + e ^ 2 / 2 * (jv (k - 2) 0 + jv (k + 2) 0) +
      e * (jv (k - 1) 0 - jv (k + 1) 0))| ≤ 0.061 * e := by
  have := jv_expansion k (by linarith : (0 : ℝ) ≤ 2 * e) (by linarith)
  have a : (2 * e) ^ 4 * (5 / 96) + (2 * e) ^ 3 / 6 + (2 * e) ^ 5 / 100 ≤ 0.061 * e := by
    have h2 : e ^ 2 ≤ 0.04 := by nlinarith
    have h3 : e ^ 3 ≤ 0.008 := by nlinarith [pow_nonneg h0 2]
    have h4 : e ^ 4 ≤ 0.0016 := by nlinarith [pow_nonneg h0 2]
    nlinarith
  refine le_trans (le_of_eq ?_) (this.trans a)
  congr 1
  ring

theorem jv_two_bound_wide {k : ℤ} {e : ℝ} (h0 : 0 ≤ e) (h1 : e ≤ 0.35) :
    |jv k (2 * e) - ((1 - e ^ 2) * jv k 0 + e ^ 2 / 2 * (jv (k - 2) 0 + jv (k + 2) 0) +
      e * (jv (k - 1) 0 - jv (k + 1) 0))| ≤ 0.205 * e := by
  have := jv_expansion k (by linarith : (0 : ℝ) ≤ 2 * e) (by norm_num at h1; linarith)
  have a : (2 * e) ^ 4 * (5 / 96) + (2 * e) ^ 3 / 6 + (2 * e) ^ 5 / 100 ≤ 0.205 * e := by
    have h2 : e ^ 2 ≤ 0.35 ^ 2 := pow_le_pow_left₀ h0 h1 2
    have h3 : e ^ 3 ≤ 0.35 ^ 3 := pow_le_pow_left₀ h0 h1 3
    have h4 : e ^ 4 ≤ 0.35 ^ 4 := pow_le_pow_left₀ h0 h1 4
    have : (2 * e) ^ 4 * (5 / 96) + (2 * e) ^ 3 / 6 + (2 * e) ^ 5 / 100 =
      (5 / 6 * e ^ 3 + 4 / 3 * e ^ 2 + 8 / 25 * e ^ 4) * e := by ring
    rw [this]
    refine mul_le_mul_of_nonneg_right ?_ h0
    norm_num at h2 h3 h4 ⊢
    linarith
  refine le_trans (le_of_eq ?_) (this.trans a)
  congr 1
  ring

/-- The derivative of the power in the second harmonic, written with the Bessel functions at `2 e`. -/
theorem deriv_sign {e jm j0 j1 j2 j3 j4 j5 : ℝ} (h0 : 0 ≤ e) (h1 : e ≤ 0.35)
    (hm : |jm + e| ≤ 0.205 * e) (hj0 : |j0 - (1 - e ^ 2)| ≤ 0.205 * e) (hj1 : |j1 - e| ≤ 0.205 * e)
    (hj2 : |j2 - e ^ 2 / 2| ≤ 0.205 * e) (hj3 : |j3| ≤ 0.205 * e) (hj4 : |j4| ≤ 0.205 * e)
    (hj5 : |j5| ≤ 0.205 * e) :
    (j0 - 2 * e * j1 + j2 + 2 * e * j3 - j4) *
        ((jm - j1) - (2 * j1 + 2 * e * (j0 - j2)) + (j1 - j3) + (2 * j3 + 2 * e * (j2 - j4)) - (j3 - j5)) +
      (1 - e ^ 2) * ((j0 - 2 * j2 + j4) * ((jm - j1) - 2 * (j1 - j3) + (j3 - j5))) - e * (j0 - 2 * j2 + j4) ^ 2 +
      1 / 3 * (j2 * (j1 - j3)) ≤ 0 := by
  obtain ⟨-, hm⟩ := abs_le.1 hm
  obtain ⟨hj0, -⟩ := abs_le.1 hj0
  obtain ⟨hj1, hj1'⟩ := abs_le.1 hj1
  obtain ⟨hj2, hj2'⟩ := abs_le.1 hj2
  obtain ⟨hj3, hj3'⟩ := abs_le.1 hj3
  obtain ⟨hj4, hj4'⟩ := abs_le.1 hj4
  obtain ⟨hj5, hj5'⟩ := abs_le.1 hj5
  norm_num at h1 hm hj0 hj1 hj1' hj2 hj2' hj3 hj3' hj4 hj4' hj5 hj5' ⊢
  have he2 : e ^ 2 ≤ 7 / 20 * e := by rw [sq]; exact mul_le_mul_of_nonneg_right h1 h0
  have he2' : 0 ≤ e ^ 2 := sq_nonneg e
  have p0 : 3 / 5 ≤ j0 - j2 := by linarith
  have p1 : j2 - j4 ≤ 1 / 4 := by linarith
  have q0 : e * (3 / 5) ≤ e * (j0 - j2) := mul_le_mul_of_nonneg_left p0 h0
  have q1 : e * (j2 - j4) ≤ e * (1 / 4) := mul_le_mul_of_nonneg_left p1 h0
  have q2 : e * j1 ≤ e * (43 / 100) := mul_le_mul_of_nonneg_left (by linarith) h0
  have q3 : e * (-(1 / 10)) ≤ e * j3 := mul_le_mul_of_nonneg_left (by linarith) h0
  have hb1 : 1 / 4 ≤ j0 - 2 * e * j1 + j2 + 2 * e * j3 - j4 := by linarith
  have hb1' : (jm - j1) - (2 * j1 + 2 * e * (j0 - j2)) + (j1 - j3) + (2 * j3 + 2 * e * (j2 - j4)) - (j3 - j5) ≤
      -2 * e := by linarith
  have hb2 : 1 / 4 ≤ j0 - 2 * j2 + j4 := by linarith
  have hb2' : (jm - j1) - 2 * (j1 - j3) + (j3 - j5) ≤ 0 := by linarith
  have hb3 : j2 ≤ 1 / 5 := by linarith
  have hb3' : j1 - j3 ≤ 3 / 2 * e := by linarith
  have hb3'' : 0 ≤ j1 - j3 := by linarith
  clear hm hj0 hj1 hj1' hj2 hj2' hj3 hj3' hj4 hj4' hj5 hj5' q0 q1 q2 q3 p0 p1
  generalize j0 - 2 * e * j1 + j2 + 2 * e * j3 - j4 = b1 at *
  generalize (jm - j1) - (2 * j1 + 2 * e * (j0 - j2)) + (j1 - j3) + (2 * j3 + 2 * e * (j2 - j4)) - (j3 - j5) = d1 at *
  generalize (jm - j1) - 2 * (j1 - j3) + (j3 - j5) = d2 at *
  generalize j0 - 2 * j2 + j4 = b2 at *
  generalize j1 - j3 = d3 at *
  have t1 : b1 * d1 ≤ -(1 / 2 * e) := by
    have h1 : b1 * d1 ≤ b1 * (-2 * e) := mul_le_mul_of_nonneg_left hb1' (by linarith)
    have h2 : 1 / 4 * e ≤ b1 * e := mul_le_mul_of_nonneg_right hb1 h0
    linarith
  have t2 : (1 - e ^ 2) * (b2 * d2) ≤ 0 :=
    mul_nonpos_of_nonneg_of_nonpos (by linarith) (mul_nonpos_of_nonneg_of_nonpos (by linarith) hb2')
  have t3 : 0 ≤ e * b2 ^ 2 := mul_nonneg h0 (sq_nonneg _)
  have t4 : j2 * d3 ≤ 1 / 5 * (3 / 2 * e) := by
    have h1 : j2 * d3 ≤ 1 / 5 * d3 := mul_le_mul_of_nonneg_right hb3 hb3''
    linarith
  linarith

/-- The same expression is not below -3. -/
theorem deriv_low {e jm j0 j1 j2 j3 j4 j5 : ℝ} (h0 : 0 ≤ e) (h1 : e ≤ 0.2)
    (hm : |jm + e| ≤ 0.061 * e) (hj0 : |j0 - (1 - e ^ 2)| ≤ 0.061 * e) (hj1 : |j1 - e| ≤ 0.061 * e)
    (hj2 : |j2 - e ^ 2 / 2| ≤ 0.061 * e) (hj3 : |j3| ≤ 0.061 * e) (hj4 : |j4| ≤ 0.061 * e)
    (hj5 : |j5| ≤ 0.061 * e) :
    -3 ≤ (j0 - 2 * e * j1 + j2 + 2 * e * j3 - j4) *
        ((jm - j1) - (2 * j1 + 2 * e * (j0 - j2)) + (j1 - j3) + (2 * j3 + 2 * e * (j2 - j4)) - (j3 - j5)) +
      (1 - e ^ 2) * ((j0 - 2 * j2 + j4) * ((jm - j1) - 2 * (j1 - j3) + (j3 - j5))) - e * (j0 - 2 * j2 + j4) ^ 2 +
      1 / 3 * (j2 * (j1 - j3)) := by
  obtain ⟨hm, hm'⟩ := abs_le.1 hm
  obtain ⟨hj0, hj0'⟩ := abs_le.1 hj0
  obtain ⟨hj1, hj1'⟩ := abs_le.1 hj1
  obtain ⟨hj2, hj2'⟩ := abs_le.1 hj2
  obtain ⟨hj3, hj3'⟩ := abs_le.1 hj3
  obtain ⟨hj4, hj4'⟩ := abs_le.1 hj4
  obtain ⟨hj5, hj5'⟩ := abs_le.1 hj5
  norm_num at h1 hm hm' hj0 hj0' hj1 hj1' hj2 hj2' hj3 hj3' hj4 hj4' hj5 hj5' ⊢
  have he2 : e ^ 2 ≤ 1 / 5 * e := by rw [sq]; exact mul_le_mul_of_nonneg_right h1 h0
  have he2' : 0 ≤ e ^ 2 := sq_nonneg e
  have q0 : e * (j0 - j2) ≤ e * (11 / 10) := mul_le_mul_of_nonneg_left (by linarith) h0
  have q1 : e * (-(1 / 20)) ≤ e * (j2 - j4) := mul_le_mul_of_nonneg_left (by linarith) h0
  have q2 : e * 0 ≤ e * j1 := mul_le_mul_of_nonneg_left (by linarith) h0
  have q2' : e * j1 ≤ e * (3 / 10) := mul_le_mul_of_nonneg_left (by linarith) h0
  have q3 : e * j3 ≤ e * (1 / 10) := mul_le_mul_of_nonneg_left (by linarith) h0
  have q3' : e * (-(1 / 10)) ≤ e * j3 := mul_le_mul_of_nonneg_left (by linarith) h0
  have hb1 : 0 ≤ j0 - 2 * e * j1 + j2 + 2 * e * j3 - j4 := by linarith
  have hb1' : j0 - 2 * e * j1 + j2 + 2 * e * j3 - j4 ≤ 11 / 10 := by linarith
  have hd1 : -(6 / 5) ≤
      (jm - j1) - (2 * j1 + 2 * e * (j0 - j2)) + (j1 - j3) + (2 * j3 + 2 * e * (j2 - j4)) - (j3 - j5) := by linarith
  have hb2 : 0 ≤ j0 - 2 * j2 + j4 := by linarith
  have hb2' : j0 - 2 * j2 + j4 ≤ 11 / 10 := by linarith
  have hd2 : -(19 / 20) ≤ (jm - j1) - 2 * (j1 - j3) + (j3 - j5) := by linarith
  have hb3 : -(1 / 20) ≤ j2 := by linarith
  have hd3 : 0 ≤ j1 - j3 := by linarith
  have hd3' : j1 - j3 ≤ 1 / 2 := by linarith
  clear hm hm' hj0 hj0' hj1 hj1' hj2 hj2' hj3 hj3' hj4 hj4' hj5 hj5' q0 q1 q2 q2' q3 q3'
  generalize j0 - 2 * e * j1 + j2 + 2 * e * j3 - j4 = b1 at *
  generalize (jm - j1) - (2 * j1 + 2 * e * (j0 - j2)) + (j1 - j3) + (2 * j3 + 2 * e * (j2 - j4)) - (j3 - j5) = d1 at *
  generalize (jm - j1) - 2 * (j1 - j3) + (j3 - j5) = d2 at *
  generalize j0 - 2 * j2 + j4 = b2 at *
  generalize j1 - j3 = d3 at *
  have t1 : -(66 / 50) ≤ b1 * d1 := by
    have h1 : b1 * (-(6 / 5)) ≤ b1 * d1 := mul_le_mul_of_nonneg_left hd1 hb1
    linarith
  have t2 : -(209 / 200) ≤ (1 - e ^ 2) * (b2 * d2) := by
    have h1 : b2 * (-(19 / 20)) ≤ b2 * d2 := mul_le_mul_of_nonneg_left hd2 hb2
    have h2 : (1 - e ^ 2) * (-(209 / 200)) ≤ (1 - e ^ 2) * (b2 * d2) :=
      mul_le_mul_of_nonneg_left (by linarith) (by linarith)
    linarith
  have t3 : e * b2 ^ 2 ≤ 1 / 5 * (121 / 100) := by
    have h2 : b2 ^ 2 ≤ (11 / 10) ^ 2 := pow_le_pow_left₀ hb2 hb2' 2
    norm_num at h2
    exact mul_le_mul h1 h2 (sq_nonneg _) (by norm_num)
  have t4 : -(1 / 40) ≤ j2 * d3 := by
    have h1 : -(1 / 20) * d3 ≤ j2 * d3 := mul_le_mul_of_nonneg_right hb3 hd3
    linarith
  linarith

/-- The derivative of the power in the second harmonic. -/
noncomputable def petersGTwoDeriv (e : ℝ) : ℝ :=
  (jv 0 (2 * e) - 2 * e * jv 1 (2 * e) + jv 2 (2 * e) + 2 * e * jv 3 (2 * e) -
        jv 4 (2 * e)) * ((jv (-1) (2 * e) - jv 1 (2 * e)) - (2 * jv 1 (2 * e) + 2 * e * (jv 0 (2 * e) - jv 2 (2 * e))) +
        (jv 1 (2 * e) - jv 3 (2 * e)) + (2 * jv 3 (2 * e) + 2 * e * (jv 2 (2 * e) - jv 4 (2 * e))) -
        (jv 3 (2 * e) - jv 5 (2 * e))) +
      (1 - e ^ 2) * ((jv 0 (2 * e) - 2 * jv 2 (2 * e) + jv 4 (2 * e)) * ((jv (-1) (2 * e) - jv 1 (2 * e)) -
        2 * (jv 1 (2 * e) - jv 3 (2 * e)) + (jv 3 (2 * e) - jv 5 (2 * e)))) -
      e * (jv 0 (2 * e) - 2 * jv 2 (2 * e) + jv 4 (2 * e)) ^ 2 +
      1 / 3 * (jv 2 (2 * e) * (jv 1 (2 * e) - jv 3 (2 * e)))

theorem hasDerivAt_peters_g_two (e : ℝ) : HasDerivAt (peters_g 2) (petersGTwoDeriv e) e := by
  have hg : ∀ e : ℝ, peters_g 2 e = 1 / 2 * ((jv 0 (2 * e) - 2 * e * jv 1 (2 * e) + jv 2 (2 * e) + 2 * e * jv 3 (2 * e) -
      jv 4 (2 * e)) ^ 2 + (1 - e ^ 2) * (jv 0 (2 * e) - 2 * jv 2 (2 * e) + jv 4 (2 * e)) ^ 2 +
      1 / 3 * jv 2 (2 * e) ^ 2) := by
    intro e
    unfold peters_g
    norm_num
  unfold petersGTwoDeriv
  have a := hasDerivAt_jv_two 0 e
  have b := hasDerivAt_jv_two 1 e
  have c := hasDerivAt_jv_two 2 e
  have d := hasDerivAt_jv_two 3 e
  have f := hasDerivAt_jv_two 4 e
  have i : HasDerivAt (fun e : ℝ => 2 * e) (2 * 1) e := (hasDerivAt_id e).const_mul 2
  have q : HasDerivAt (fun e : ℝ => 1 - e ^ 2) (-(2 * e)) e := by
    exact ((hasDerivAt_pow 2 e).const_sub 1).congr_deriv (by norm_num)
  have B1 := (((a.sub (i.mul b)).add c).add (i.mul d)).sub f
  have B2 := (a.sub (c.const_mul 2)).add f
  have := (((B1.pow 2).add (q.mul (B2.pow 2))).add ((c.pow 2).const_mul (1 / 3))).const_mul (1 / 2)
  refine (this.congr_of_eventuallyEq (Filter.Eventually.of_forall fun e => hg e)).congr_deriv ?_
  simp
  norm_num
  ring

theorem petersGTwoDeriv_low {e : ℝ} (h0 : 0 ≤ e) (h1 : e ≤ 0.2) : -3 ≤ petersGTwoDeriv e := by
  have key := fun k : ℤ => jv_two_bound (k := k) h0 h1
  have km := key (-1)
  have k0 := key 0
  have k1 := key 1
  have k2 := key 2
  have k3 := key 3
  have k4 := key 4
  have k5 := key 5
  simp only [jv_zero] at km k0 k1 k2 k3 k4 k5
  norm_num at km k0 k1 k2 k3 k4 k5
  exact deriv_low h0 h1 (by norm_num; exact km) (by norm_num; exact k0) (by norm_num; exact k1)
    (by norm_num; exact k2) (by norm_num; exact k3) (by norm_num; exact k4) (by norm_num; exact k5)

theorem petersGTwoDeriv_nonpos {e : ℝ} (h0 : 0 ≤ e) (h1 : e ≤ 0.35) : petersGTwoDeriv e ≤ 0 := by
  have key := fun k : ℤ => jv_two_bound_wide (k := k) h0 h1
  have km := key (-1)
  have k0 := key 0
  have k1 := key 1
  have k2 := key 2
  have k3 := key 3
  have k4 := key 4
  have k5 := key 5
  simp only [jv_zero] at km k0 k1 k2 k3 k4 k5
  norm_num at km k0 k1 k2 k3 k4 k5
  exact deriv_sign h0 h1 (by norm_num; exact km) (by norm_num; exact k0) (by norm_num; exact k1)
    (by norm_num; exact k2) (by norm_num; exact k3) (by norm_num; exact k4) (by norm_num; exact k5)

/-- The power in the second harmonic falls with the eccentricity. -/
theorem peters_g_two_antitone : AntitoneOn (peters_g 2) (Icc 0 0.35) := by
  refine antitoneOn_of_deriv_nonpos (convex_Icc 0 0.35)
    (fun e _ => (hasDerivAt_peters_g_two e).continuousAt.continuousWithinAt)
    (fun e _ => (hasDerivAt_peters_g_two e).differentiableAt.differentiableWithinAt) ?_
  intro e he
  rw [interior_Icc] at he
  rw [(hasDerivAt_peters_g_two e).deriv]
  exact petersGTwoDeriv_nonpos he.1.le he.2.le

/-- The power in the second harmonic falls by at most three times the difference of the eccentricities. -/
theorem peters_g_two_slope {x y : ℝ} (h0 : 0 ≤ y) (hxy : y ≤ x) (h1 : x ≤ 0.2) :
    peters_g 2 y - 3 * (x - y) ≤ peters_g 2 x := by
  have hm : MonotoneOn (fun e => peters_g 2 e + 3 * e) (Icc 0 0.2) := by
    have hd : ∀ e : ℝ, HasDerivAt (fun e => peters_g 2 e + 3 * e) (petersGTwoDeriv e + 3 * 1) e := fun e =>
      (hasDerivAt_peters_g_two e).add ((hasDerivAt_id e).const_mul 3)
    refine monotoneOn_of_deriv_nonneg (convex_Icc 0 0.2) (fun e _ => (hd e).continuousAt.continuousWithinAt)
      (fun e _ => (hd e).differentiableAt.differentiableWithinAt) ?_
    intro e he
    rw [interior_Icc] at he
    rw [(hd e).deriv]
    linarith [petersGTwoDeriv_low he.1.le he.2.le]
  have := hm ⟨h0, hxy.trans h1⟩ ⟨h0.trans hxy, h1⟩ hxy
  simp only at this
  linarith

/-- The derivative of the enhancement factor. -/
theorem hasDerivAt_peters_f_small {e : ℝ} (h0 : 0 ≤ e) (h1 : e ≤ 0.2) :
    ∃ d, d ≤ 4 ∧ HasDerivAt peters_f d e := by
  have h1' : e ≤ 1 / 5 := by norm_num at h1 ⊢; exact h1
  have hq : e ^ 2 ≤ 1 / 25 := by nlinarith
  have hq1 : 0 < 1 - e ^ 2 := by linarith
  have hN : HasDerivAt (fun e : ℝ => 1 + (73 / 24) * e ^ 2 + (37 / 96) * e ^ 4) (73 / 12 * e + 37 / 24 * e ^ 3) e := by
    have := (((hasDerivAt_pow 2 e).const_mul (73 / 24)).const_add 1).add ((hasDerivAt_pow 4 e).const_mul (37 / 96))
    exact this.congr_deriv (by norm_num; ring)
  have hq' : HasDerivAt (fun e : ℝ => 1 - e ^ 2) (-(2 * e)) e :=
    ((hasDerivAt_pow 2 e).const_sub 1).congr_deriv (by norm_num)
  have hD := hq'.rpow_const (p := 7 / 2) (Or.inl hq1.ne')
  have hpos : 0 < (1 - e ^ 2) ^ (7 / 2 : ℝ) := Real.rpow_pos_of_pos hq1 _
  refine ⟨_, ?_, hN.div hD hpos.ne'⟩
  have hsplit : (1 - e ^ 2) ^ (7 / 2 : ℝ) = (1 - e ^ 2) ^ (7 / 2 - 1 : ℝ) * (1 - e ^ 2) := by
    conv_rhs => rw [← Real.rpow_one (1 - e ^ 2), ← Real.rpow_mul hq1.le, ← Real.rpow_add hq1]
    norm_num
  have hlow : 4 / 5 ≤ (1 - e ^ 2) ^ (7 / 2 : ℝ) := by
    have a : (1 - e ^ 2) ^ (4 : ℝ) ≤ (1 - e ^ 2) ^ (7 / 2 : ℝ) :=
      Real.rpow_le_rpow_of_exponent_ge hq1 (by linarith [sq_nonneg e]) (by norm_num)
    have b : (1 - e ^ 2) ^ (4 : ℝ) = (1 - e ^ 2) ^ 4 := by
      have := Real.rpow_natCast (1 - e ^ 2) 4
      rwa [show ((4 : ℕ) : ℝ) = 4 by norm_num] at this
    have c : (24 / 25 : ℝ) ^ 4 ≤ (1 - e ^ 2) ^ 4 := pow_le_pow_left₀ (by norm_num) (by linarith) 4
    rw [b] at a
    norm_num at c
    linarith
  rw [div_le_iff₀ (by positivity)]
  have he3 : e ^ 3 ≤ 1 / 125 := by
    have := pow_le_pow_left₀ h0 h1' 3
    norm_num at this
    linarith
  have he4 : e ^ 4 ≤ 1 / 625 := by
    have := pow_le_pow_left₀ h0 h1' 4
    norm_num at this
    linarith
  have hA : 73 / 12 * e + 37 / 24 * e ^ 3 ≤ 5 / 4 := by linarith
  have hB : 1 + 73 / 24 * e ^ 2 + 37 / 96 * e ^ 4 ≤ 23 / 20 := by linarith
  have hB0 : 0 ≤ 1 + 73 / 24 * e ^ 2 + 37 / 96 * e ^ 4 := by positivity
  set D := (1 - e ^ 2) ^ (7 / 2 : ℝ) with hDdef
  have hE : (1 - e ^ 2) ^ (7 / 2 - 1 : ℝ) ≤ 25 / 24 * D := by
    rw [hsplit]
    have : 0 < (1 - e ^ 2) ^ (7 / 2 - 1 : ℝ) := Real.rpow_pos_of_pos hq1 _
    nlinarith
  have hE0 : 0 < (1 - e ^ 2) ^ (7 / 2 - 1 : ℝ) := Real.rpow_pos_of_pos hq1 _
  generalize (1 - e ^ 2) ^ (7 / 2 - 1 : ℝ) = E at *
  generalize 1 + 73 / 24 * e ^ 2 + 37 / 96 * e ^ 4 = B at *
  have u1 : (73 / 12 * e + 37 / 24 * e ^ 3) * D ≤ 5 / 4 * D := mul_le_mul_of_nonneg_right hA hpos.le
  have u2 : B * (e * E) ≤ 23 / 20 * (1 / 5 * (25 / 24 * D)) :=
    mul_le_mul hB (mul_le_mul h1' hE hE0.le (by norm_num)) (by positivity) (by norm_num)
  nlinarith

/-- The enhancement factor grows by at most four times the difference of the eccentricities. -/
theorem peters_f_slope {x y : ℝ} (h0 : 0 ≤ y) (hxy : y ≤ x) (h1 : x ≤ 0.2) : peters_f x ≤ peters_f y + 4 * (x - y) := by
  have hm : MonotoneOn (fun e => 4 * e - peters_f e) (Icc 0 0.2) := by
    have hd : ∀ e ∈ Icc (0 : ℝ) 0.2, ∃ d, 0 ≤ d ∧ HasDerivAt (fun e => 4 * e - peters_f e) d e := by
      intro e he
      obtain ⟨d, hd, h⟩ := hasDerivAt_peters_f_small he.1 he.2
      exact ⟨4 * 1 - d, by linarith, ((hasDerivAt_id e).const_mul 4).sub h⟩
    refine monotoneOn_of_deriv_nonneg (convex_Icc 0 0.2) ?_ ?_ ?_
    · intro e he
      obtain ⟨d, -, h⟩ := hd e he
      exact h.continuousAt.continuousWithinAt
    · intro e he
      obtain ⟨d, -, h⟩ := hd e (interior_subset he)
      exact h.differentiableAt.differentiableWithinAt
    · intro e he
      obtain ⟨d, h2, h⟩ := hd e (interior_subset he)
      rwa [h.deriv]
  have := hm ⟨h0, hxy.trans h1⟩ ⟨h0.trans hxy, h1⟩ hxy
  simp only at this
  linarith

/-- At `e = 0.2`, where the grid of eccentricities ends, the second harmonic carries more than 55% of the power. -/
theorem peters_g_two_end : 0.55 * peters_f 0.2 < peters_g 2 0.2 := by
  have key : ∀ k : ℤ, |jv k 0.4 - (0.96 * jv k 0 + 0.02 * (jv (k - 2) 0 + jv (k + 2) 0) +
      0.2 * (jv (k - 1) 0 - jv (k + 1) 0))| ≤ 0.0132 := by
    intro k
    have := jv_expansion k (by norm_num : (0 : ℝ) ≤ 0.4) (by norm_num)
    refine le_trans (le_of_eq ?_) (this.trans (by norm_num))
    norm_num
  have h0 := abs_le.1 (key 0)
  have h1 := abs_le.1 (key 1)
  have h2 := abs_le.1 (key 2)
  have h3 := abs_le.1 (key 3)
  have h4 := abs_le.1 (key 4)
  simp only [jv_zero] at h0 h1 h2 h3 h4
  norm_num at h0 h1 h2 h3 h4
  have hf : peters_f 0.2 ≤ 1.3 := by
    unfold peters_f
    simp only
    have hpos : 0 < (1 - (0.2 : ℝ) ^ 2) ^ (7 / 2 : ℝ) := Real.rpow_pos_of_pos (by norm_num) _
    have hsq : ((1 - (0.2 : ℝ) ^ 2) ^ (7 / 2 : ℝ)) ^ 2 = (1 - (0.2 : ℝ) ^ 2) ^ 7 := by
      rw [← Real.rpow_natCast, ← Real.rpow_mul (by norm_num)]
      have : (7 / 2 : ℝ) * ((2 : ℕ) : ℝ) = ((7 : ℕ) : ℝ) := by norm_num
      rw [this, Real.rpow_natCast]
    rw [div_le_iff₀ hpos]
    have hle : 0.8665 ≤ (1 - (0.2 : ℝ) ^ 2) ^ (7 / 2 : ℝ) := by
      refine le_of_sq_le_sq ?_ hpos.le
      rw [hsq]
      norm_num
    norm_num at hle ⊢
    linarith
  have hg : 0.72 ≤ peters_g 2 0.2 := by
    unfold peters_g
    simp only
    norm_num
    generalize jv 0 (2 / 5) = j0 at *
    generalize jv 1 (2 / 5) = j1 at *
    generalize jv 2 (2 / 5) = j2 at *
    generalize jv 3 (2 / 5) = j3 at *
    generalize jv 4 (2 / 5) = j4 at *
    have b1 : 0.849 ≤ j0 - 2 / 5 * j1 + j2 + 2 / 5 * j3 - j4 := by norm_num; linarith
    have b2 : 0.867 ≤ j0 - 2 * j2 + j4 := by norm_num; linarith
    have c1 : (0.849 : ℝ) ^ 2 ≤ (j0 - 2 / 5 * j1 + j2 + 2 / 5 * j3 - j4) ^ 2 := pow_le_pow_left₀ (by norm_num) b1 2
    have c2 : (0.867 : ℝ) ^ 2 ≤ (j0 - 2 * j2 + j4) ^ 2 := pow_le_pow_left₀ (by norm_num) b2 2
    have c3 : 0 ≤ j2 ^ 2 := sq_nonneg _
    norm_num at c1 c2
    linarith
  norm_num at hf hg ⊢
  linarith

/-- Beyond `e = 0.35` the second harmonic carries less than 55% of the power, because the squared strains of all harmonics
together are known. -/
theorem peters_g_two_far {e : ℝ} (h0 : 0.35 ≤ e) (h1 : e < 1) : peters_g 2 e < 0.55 * peters_f e := by
  have he0 : 0 ≤ e := le_trans (by norm_num) h0
  have hq : 0.35 ^ 2 ≤ e ^ 2 := pow_le_pow_left₀ (by norm_num) h0 2
  have hpos : 0 < 1 - e ^ 2 := by nlinarith
  have hw7 : (1 - e ^ 2) ^ (7 / 2 : ℝ) = (1 - e ^ 2) ^ 3 * √(1 - e ^ 2) := by
    rw [show (7 / 2 : ℝ) = (3 : ℕ) + 1 / 2 by norm_num, rpow_add hpos, rpow_natCast, sqrt_eq_rpow]
  have hs := Kepler.hasSum_strain he0 h1
  have hle := hs.summable.sum_le_tsum {1} (fun k _ => div_nonneg (C05_nonneg _ he0 h1.le) (sq_nonneg _))
  rw [hs.tsum_eq, Finset.sum_singleton] at hle
  have hle' : peters_g 2 e ≤ 4 * (1 / (3 * √(1 - e ^ 2)) - 1 / 12) := by
    norm_num at hle ⊢
    linarith
  refine hle'.trans_lt ?_
  unfold peters_f
  simp only
  rw [hw7]
  have hs2 : √(1 - e ^ 2) ^ 2 = 1 - e ^ 2 := sq_sqrt hpos.le
  rw [← hs2]
  have hsp : 0 < √(1 - e ^ 2) := sqrt_pos.2 hpos
  have hsle : √(1 - e ^ 2) ≤ 0.937 := by
    rw [sqrt_le_left (by norm_num)]
    norm_num at hq ⊢
    linarith
  set s := √(1 - e ^ 2)
  have hN : 1.372 ≤ 1 + 73 / 24 * e ^ 2 + 37 / 96 * e ^ 4 := by
    have : 0 ≤ e ^ 4 := by positivity
    norm_num at hq ⊢
    linarith
  have hss : √(s ^ 2) = s := sqrt_sq hsp.le
  rw [hss, mul_div_assoc', lt_div_iff₀ (by positivity)]
  have e1 : 4 * (1 / (3 * s) - 1 / 12) * ((s ^ 2) ^ 3 * s) = s ^ 5 * (s * (4 - s)) / 3 := by
    field_simp
    ring
  rw [e1]
  have h5 : s ^ 5 ≤ 0.937 ^ 5 := pow_le_pow_left₀ hsp.le hsle 5
  have h6 : s * (4 - s) ≤ 0.937 * (4 - 0.937) := by
    norm_num at hsle ⊢
    nlinarith
  have h7 : s ^ 5 * (s * (4 - s)) ≤ 0.937 ^ 5 * (0.937 * (4 - 0.937)) :=
    mul_le_mul h5 h6 (mul_nonneg hsp.le (by norm_num at hsle; linarith)) (by norm_num)
  have h8 : (0.937 : ℝ) ^ 5 * (0.937 * (4 - 0.937)) / 3 < 0.55 * 1.372 := by norm_num
  calc s ^ 5 * (s * (4 - s)) / 3 ≤ 0.937 ^ 5 * (0.937 * (4 - 0.937)) / 3 := by gcongr
    _ < 0.55 * 1.372 := h8
    _ ≤ _ := mul_le_mul_of_nonneg_left hN (by norm_num)

end Legwork.utils
