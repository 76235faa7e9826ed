import Verif.Props.PetersG
import Verif.Props.Harmonics

/-!
# Bessel functions for small arguments

Enough to show that the default tolerance of `Source` has an eccentric transition.
-/

namespace Legwork.utils

open Real Legwork.Props

/-- The second order expansion of a Bessel function. -/
theorem jv_expansion (k : ℤ) {x : ℝ} (h0 : 0 ≤ x) (h1 : x ≤ 1) :
    |jv k x - ((1 - x ^ 2 / 4) * jv k 0 + x ^ 2 / 8 * (jv (k - 2) 0 + jv (k + 2) 0) +
      x / 2 * (jv (k - 1) 0 - jv (k + 1) 0))| ≤ x ^ 4 * (5 / 96) + x ^ 3 / 6 + x ^ 5 / 100 := by
  have hint : ∀ (m : ℤ) (y : ℝ), IntervalIntegrable (fun τ : ℝ => cos (m * τ - y * sin τ)) MeasureTheory.volume 0 π :=
    fun m y => (by fun_prop : Continuous fun τ : ℝ => cos (m * τ - y * sin τ)).intervalIntegrable _ _
  have hcomb : (1 - x ^ 2 / 4) * jv k 0 + x ^ 2 / 8 * (jv (k - 2) 0 + jv (k + 2) 0) +
      x / 2 * (jv (k - 1) 0 - jv (k + 1) 0) = (1 / π) * ∫ τ in (0 : ℝ)..π,
        (cos (k * τ) * (1 - (x * sin τ) ^ 2 / 2) + sin (k * τ) * (x * sin τ)) := by
    unfold jv
    have e : ∀ τ : ℝ, cos (k * τ) * (1 - (x * sin τ) ^ 2 / 2) + sin (k * τ) * (x * sin τ) =
        (1 - x ^ 2 / 4) * cos (k * τ - 0 * sin τ) + x ^ 2 / 8 * (cos (((k - 2 : ℤ) : ℝ) * τ - 0 * sin τ) +
          cos (((k + 2 : ℤ) : ℝ) * τ - 0 * sin τ)) + x / 2 * (cos (((k - 1 : ℤ) : ℝ) * τ - 0 * sin τ) -
          cos (((k + 1 : ℤ) : ℝ) * τ - 0 * sin τ)) := by
      intro τ
      push_cast
      simp only [zero_mul, sub_zero, sub_mul, add_mul, one_mul, cos_sub, cos_add]
      rw [cos_two_mul, sin_two_mul]
      have hs := sin_sq_add_cos_sq τ
      have hc : cos τ ^ 2 = 1 - sin τ ^ 2 := by linarith
      rw [hc]
      ring
    simp only [e]
    rw [intervalIntegral.integral_add, intervalIntegral.integral_add]
    · simp only [intervalIntegral.integral_const_mul]
      rw [intervalIntegral.integral_add (hint _ 0) (hint _ 0), intervalIntegral.integral_sub (hint _ 0) (hint _ 0)]
      ring
    · exact (hint k 0).const_mul _
    · exact ((hint _ 0).add (hint _ 0)).const_mul _
    · exact ((hint k 0).const_mul _).add (((hint _ 0).add (hint _ 0)).const_mul _)
    · exact ((hint _ 0).sub (hint _ 0)).const_mul _
  rw [hcomb]
  unfold jv
  have hc2 : IntervalIntegrable (fun τ : ℝ => cos (k * τ) * (1 - (x * sin τ) ^ 2 / 2) + sin (k * τ) * (x * sin τ))
      MeasureTheory.volume 0 π :=
    (by fun_prop : Continuous fun τ : ℝ => cos (k * τ) * (1 - (x * sin τ) ^ 2 / 2) +
      sin (k * τ) * (x * sin τ)).intervalIntegrable _ _
  rw [← mul_sub, ← intervalIntegral.integral_sub (hint k x) hc2, abs_mul, abs_of_pos (by positivity : 0 < 1 / π)]
  have hpi := Real.pi_pos
  have hb : ‖∫ τ in (0 : ℝ)..π, (cos (k * τ - x * sin τ) - (cos (k * τ) * (1 - (x * sin τ) ^ 2 / 2) +
      sin (k * τ) * (x * sin τ)))‖ ≤ (x ^ 4 * (5 / 96) + x ^ 3 / 6 + x ^ 5 / 100) * |π - 0| := by
    apply intervalIntegral.norm_integral_le_of_norm_le_const
    intro τ _
    set u := x * sin τ with hu
    have hux : |u| ≤ x := by
      rw [hu, abs_mul, abs_of_nonneg h0]
      exact mul_le_of_le_one_right h0 (abs_sin_le_one τ)
    have hu1 : |u| ≤ 1 := hux.trans h1
    have hcu := Real.cos_bound hu1
    have hsu := Real.sin_bound hu1
    have e : cos (k * τ - u) - (cos (k * τ) * (1 - u ^ 2 / 2) + sin (k * τ) * u) =
        cos (k * τ) * (cos u - (1 - u ^ 2 / 2)) + sin (k * τ) * (sin u - (u - u ^ 3 / 6) - u ^ 3 / 6) := by
      rw [cos_sub]; ring
    rw [e, Real.norm_eq_abs]
    have ha : |u| ^ 4 ≤ x ^ 4 := pow_le_pow_left₀ (abs_nonneg u) hux 4
    have hb : |u| ^ 3 ≤ x ^ 3 := pow_le_pow_left₀ (abs_nonneg u) hux 3
    have hc : |u| ^ 5 ≤ x ^ 5 := pow_le_pow_left₀ (abs_nonneg u) hux 5
    have t1 : |cos (k * τ) * (cos u - (1 - u ^ 2 / 2))| ≤ x ^ 4 * (5 / 96) := by
      rw [abs_mul]
      calc |cos (k * τ)| * |cos u - (1 - u ^ 2 / 2)| ≤ 1 * (|u| ^ 4 * (5 / 96)) :=
            mul_le_mul (abs_cos_le_one _) hcu (abs_nonneg _) zero_le_one
        _ ≤ x ^ 4 * (5 / 96) := by linarith
    have t2 : |sin (k * τ) * (sin u - (u - u ^ 3 / 6) - u ^ 3 / 6)| ≤ x ^ 3 / 6 + x ^ 5 / 100 := by
      rw [abs_mul]
      have : |sin u - (u - u ^ 3 / 6) - u ^ 3 / 6| ≤ x ^ 3 / 6 + x ^ 5 / 100 := by
        refine (abs_sub _ _).trans ?_
        have : |u ^ 3 / 6| ≤ x ^ 3 / 6 := by
          rw [abs_div, abs_pow]
          norm_num
          linarith
        linarith
      calc |sin (k * τ)| * |sin u - (u - u ^ 3 / 6) - u ^ 3 / 6| ≤ 1 * (x ^ 3 / 6 + x ^ 5 / 100) :=
            mul_le_mul (abs_sin_le_one _) this (abs_nonneg _) zero_le_one
        _ = _ := by ring
    refine (abs_add_le _ _).trans ?_
    linarith
  rw [Real.norm_eq_abs, sub_zero, abs_of_pos hpi] at hb
  calc 1 / π * _ ≤ 1 / π * ((x ^ 4 * (5 / 96) + x ^ 3 / 6 + x ^ 5 / 100) * π) :=
        mul_le_mul_of_nonneg_left hb (by positivity)
    _ = _ := by field_simp

/-- At `e = 0.2` the second harmonic carries less than 95% of the power. -/
theorem peters_g_two_lt : peters_g 2 0.2 < (1 - 0.05) * peters_f 0.2 := by
  have key : ∀ k : ℤ, |jv k 0.4 - (0.96 * jv k 0 + 0.02 * (jv (k - 2) 0 + jv (k + 2) 0) +
      0.2 * (jv (k - 1) 0 - jv (k + 1) 0))| ≤ 0.0132 := by
    intro k
    have := jv_expansion k (by norm_num : (0 : ℝ) ≤ 0.4) (by norm_num)
    refine le_trans (le_of_eq ?_) (this.trans (by norm_num))
    norm_num
  have h0 := abs_le.1 (key 0)
  have h1 := abs_le.1 (key 1)
  have h2 := abs_le.1 (key 2)
  have h3 := abs_le.1 (key 3)
  have h4 := abs_le.1 (key 4)
  simp only [jv_zero] at h0 h1 h2 h3 h4
  norm_num at h0 h1 h2 h3 h4
  have hf : 1.28 ≤ peters_f 0.2 := by
    unfold peters_f
    simp only
    have hpos : 0 < (1 - (0.2 : ℝ) ^ 2) ^ (7 / 2 : ℝ) := Real.rpow_pos_of_pos (by norm_num) _
    have hsq : ((1 - (0.2 : ℝ) ^ 2) ^ (7 / 2 : ℝ)) ^ 2 = (1 - (0.2 : ℝ) ^ 2) ^ 7 := by
      rw [← Real.rpow_natCast, ← Real.rpow_mul (by norm_num)]
      have : (7 / 2 : ℝ) * ((2 : ℕ) : ℝ) = ((7 : ℕ) : ℝ) := by norm_num
      rw [this, Real.rpow_natCast]
    rw [le_div_iff₀ hpos]
    have hle : (1 - (0.2 : ℝ) ^ 2) ^ (7 / 2 : ℝ) ≤ 0.87 := by
      refine le_of_sq_le_sq ?_ (by norm_num)
      rw [hsq]
      norm_num
    nlinarith
  have hg : peters_g 2 0.2 ≤ 1.1 := by
    unfold peters_g
    simp only
    norm_num
    generalize jv 0 (2 / 5) = j0 at *
    generalize jv 1 (2 / 5) = j1 at *
    generalize jv 2 (2 / 5) = j2 at *
    generalize jv 3 (2 / 5) = j3 at *
    generalize jv 4 (2 / 5) = j4 at *
    have b1 : |j0 - 2 / 5 * j1 + j2 + 2 / 5 * j3 - j4| ≤ 1 := by
      rw [abs_le]; constructor <;> linarith
    have b2 : |j0 - 2 * j2 + j4| ≤ 1 := by
      rw [abs_le]; constructor <;> linarith
    have b3 : |j2| ≤ 1 / 10 := by
      rw [abs_le]; constructor <;> linarith
    have s1 := sq_le_sq' (abs_le.1 b1).1 (abs_le.1 b1).2
    have s2 := sq_le_sq' (abs_le.1 b2).1 (abs_le.1 b2).2
    have s3 := sq_le_sq' (abs_le.1 b3).1 (abs_le.1 b3).2
    nlinarith
  linarith

/-- With the default tolerance the eccentric transition exists. -/
theorem find_eccentric_transition_default : ∃ e, source.find_eccentric_transition 0.05 = .ok e := by
  refine (C33_found_iff 0.05).1.2 ⟨0.2, ?_, peters_g_two_lt⟩
  unfold np.linspace
  exact List.mem_map.2 ⟨9999, by simp, by norm_num⟩

end Legwork.utils
