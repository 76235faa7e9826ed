import Verif.Lemmas.BranchAccuracy

/-!
# How the merger time depends on the eccentricity
-/

namespace Legwork.evol

open Real Legwork.utils Legwork.Spec MeasureTheory

/-- Part of the merger time that falls with the eccentricity; what is left falls too. -/
noncomputable def decay (e : ℝ) : ℝ := (1 - e ^ 2) ^ (5 / 2 : ℝ) / (1 + 121 / 304 * e ^ 2)

/-- The rest of Peters' integrand after substituting `x = e u`. -/
noncomputable def rest (e u : ℝ) : ℝ :=
  ((1 - e ^ 2) / (1 - (e * u) ^ 2)) ^ (3 / 2 : ℝ) *
    ((1 + 121 / 304 * (e * u) ^ 2) / (1 + 121 / 304 * e ^ 2)) ^ (1181 / 2299 : ℝ)

variable {e e' u : ℝ}

theorem one_sub_mul_sq_pos (h0 : 0 ≤ e) (h1 : e < 1) (u0 : 0 ≤ u) (u1 : u ≤ 1) : 0 < 1 - (e * u) ^ 2 := by
  have hu : e * u < 1 := by nlinarith
  have := mul_nonneg h0 u0
  nlinarith

theorem rest_nonneg (h0 : 0 ≤ e) (h1 : e < 1) (u0 : 0 ≤ u) (u1 : u ≤ 1) : 0 ≤ rest e u := by
  have hs := one_sub_sq_pos' h0 h1
  have hu := one_sub_mul_sq_pos h0 h1 u0 u1
  unfold rest
  positivity

theorem rest_anti (h0 : 0 ≤ e) (h : e ≤ e') (h1 : e' < 1) (u0 : 0 ≤ u) (u1 : u ≤ 1) : rest e' u ≤ rest e u := by
  have h0' := h0.trans h
  have hs := one_sub_sq_pos' h0 (h.trans_lt h1)
  have hs' := one_sub_sq_pos' h0' h1
  have hu := one_sub_mul_sq_pos h0 (h.trans_lt h1) u0 u1
  have hu' := one_sub_mul_sq_pos h0' h1 u0 u1
  have hee : e ^ 2 ≤ e' ^ 2 := pow_le_pow_left₀ h0 h 2
  have huu : u ^ 2 ≤ 1 := pow_le_one₀ u0 u1
  have key : 0 ≤ (e' ^ 2 - e ^ 2) * (1 - u ^ 2) := mul_nonneg (by linarith) (by linarith)
  unfold rest
  apply mul_le_mul
  · apply rpow_le_rpow (by positivity) _ (by norm_num)
    rw [div_le_div_iff₀ hu' hu]
    nlinarith
  · apply rpow_le_rpow (by positivity) _ (by norm_num)
    rw [div_le_div_iff₀ (by positivity) (by positivity)]
    nlinarith
  · positivity
  · positivity

theorem continuous_rest (h0 : 0 ≤ e) (h1 : e < 1) : ContinuousOn (fun u => u ^ (29 / 19 : ℝ) * rest e u) (Set.Icc 0 1) := by
  have hs := one_sub_sq_pos' h0 h1
  have hk : 1 + 121 / 304 * e ^ 2 ≠ 0 := by positivity
  unfold rest
  intro u hu
  have hu' := one_sub_mul_sq_pos h0 h1 hu.1 hu.2
  apply ContinuousAt.continuousWithinAt
  have c1 : ContinuousAt (fun u : ℝ => u ^ (29 / 19 : ℝ)) u := continuousAt_rpow_const _ _ (Or.inr (by norm_num))
  have c2 : ContinuousAt (fun u : ℝ => (1 - e ^ 2) / (1 - (e * u) ^ 2)) u := by
    have := hu'.ne'
    fun_prop (disch := assumption)
  have c3 : ContinuousAt (fun u : ℝ => (1 + 121 / 304 * (e * u) ^ 2) / (1 + 121 / 304 * e ^ 2)) u := by
    fun_prop (disch := assumption)
  exact c1.mul ((c2.rpow_const (Or.inr (by norm_num))).mul (c3.rpow_const (Or.inr (by norm_num))))

/-- What is left of Peters' merger time besides `decay`. -/
noncomputable def core (e : ℝ) : ℝ := 48 / 19 * ∫ u in (0 : ℝ)..1, u ^ (29 / 19 : ℝ) * rest e u

theorem rest_int (h0 : 0 ≤ e) (h1 : e < 1) :
    IntervalIntegrable (fun u => u ^ (29 / 19 : ℝ) * rest e u) volume 0 1 := by
  apply ContinuousOn.intervalIntegrable
  rw [Set.uIcc_of_le zero_le_one]
  exact continuous_rest h0 h1

theorem core_anti (h0 : 0 ≤ e) (h : e ≤ e') (h1 : e' < 1) : core e' ≤ core e := by
  unfold core
  apply mul_le_mul_of_nonneg_left _ (by norm_num)
  refine intervalIntegral.integral_mono_on zero_le_one (rest_int (h0.trans h) h1) (rest_int h0 (h.trans_lt h1)) ?_
  intro u hu
  exact mul_le_mul_of_nonneg_left (rest_anti h0 h h1 hu.1 hu.2) (rpow_nonneg hu.1 _)

theorem core_zero : core 0 = 1 := by
  unfold core rest
  have : ∀ u : ℝ, u ^ (29 / 19 : ℝ) * (((1 - (0 : ℝ) ^ 2) / (1 - (0 * u) ^ 2)) ^ (3 / 2 : ℝ) *
      ((1 + 121 / 304 * (0 * u) ^ 2) / (1 + 121 / 304 * (0 : ℝ) ^ 2)) ^ (1181 / 2299 : ℝ)) = u ^ (29 / 19 : ℝ) := by
    intro u
    norm_num
  simp only [this]
  rw [integral_rpow (Or.inl (by norm_num)), zero_rpow (by norm_num)]
  norm_num

theorem decay_pos (h0 : 0 ≤ e) (h1 : e < 1) : 0 < decay e := by
  have hs := one_sub_sq_pos' h0 h1
  unfold decay
  positivity

theorem decay_lt (h0 : 0 ≤ e) (h : e < e') (h1 : e' < 1) : decay e' < decay e := by
  have hs' := one_sub_sq_pos' (h0.trans h.le) h1
  have hee : e ^ 2 < e' ^ 2 := pow_lt_pow_left₀ h h0 (by norm_num)
  unfold decay
  have hs := one_sub_sq_pos' h0 (h.trans h1)
  exact div_lt_div₀ (rpow_lt_rpow hs'.le (by linarith) (by norm_num)) (by linarith) (rpow_nonneg hs.le _) (by positivity)

/-- Peters' merger time as a product of two factors that fall with the eccentricity. -/
theorem petersTime_factors {a β : ℝ} (h0 : 0 ≤ e) (h1 : e < 1) :
    petersTime a β e = a ^ 4 / (4 * β) * (decay e * core e) := by
  rcases h0.eq_or_lt with rfl | hp
  · unfold petersTime
    rw [if_pos rfl, core_zero]
    simp [decay]
  have hs := one_sub_sq_pos' h0 h1
  have hk : 0 < 1 + 121 / 304 * e ^ 2 := by positivity
  rw [petersTime_eq hp, t_exact_eq]
  have hsub : I514 e = e ^ (48 / 19 : ℝ) * ∫ u in (0 : ℝ)..1, u ^ (29 / 19 : ℝ) *
      ((1 + 121 / 304 * (e * u) ^ 2) ^ (1181 / 2299 : ℝ) / (1 - (e * u) ^ 2) ^ (3 / 2 : ℝ)) := by
    unfold I514
    have := intervalIntegral.mul_integral_comp_mul_left (f := peters_5_14) (a := 0) (b := 1) e
    rw [mul_zero, mul_one] at this
    rw [← this, ← intervalIntegral.integral_const_mul, ← intervalIntegral.integral_const_mul]
    refine intervalIntegral.integral_congr fun u hu => ?_
    rw [Set.uIcc_of_le zero_le_one] at hu
    unfold peters_5_14
    rw [mul_rpow h0 hu.1, show (48 / 19 : ℝ) = 29 / 19 + 1 by norm_num, rpow_add_one hp.ne']
    ring
  have hcore : decay e * core e = 48 / 19 * ((1 - e ^ 2) ^ 4 / (1 + 121 / 304 * e ^ 2) ^ (3480 / 2299 : ℝ) *
      ∫ u in (0 : ℝ)..1, u ^ (29 / 19 : ℝ) *
        ((1 + 121 / 304 * (e * u) ^ 2) ^ (1181 / 2299 : ℝ) / (1 - (e * u) ^ 2) ^ (3 / 2 : ℝ))) := by
    unfold core
    rw [mul_left_comm]
    congr 1
    rw [← intervalIntegral.integral_const_mul, ← intervalIntegral.integral_const_mul]
    refine intervalIntegral.integral_congr fun u hu => ?_
    rw [Set.uIcc_of_le zero_le_one] at hu
    have hu' := one_sub_mul_sq_pos h0 h1 hu.1 hu.2
    have e1 : (1 - e ^ 2) ^ 4 = (1 - e ^ 2) ^ (5 / 2 : ℝ) * (1 - e ^ 2) ^ (3 / 2 : ℝ) := by
      rw [← rpow_add hs, ← rpow_natCast]; norm_num
    have e2 : (1 + 121 / 304 * e ^ 2) ^ (3480 / 2299 : ℝ) =
        (1 + 121 / 304 * e ^ 2) ^ (1181 / 2299 : ℝ) * (1 + 121 / 304 * e ^ 2) := by
      rw [← rpow_add_one hk.ne']; norm_num
    unfold decay rest
    rw [div_rpow hs.le hu'.le, div_rpow (by positivity) hk.le, e1, e2]
    have n1 : (1 - (e * u) ^ 2) ^ (3 / 2 : ℝ) ≠ 0 := (rpow_pos_of_pos hu' _).ne'
    have n2 : (1 + 121 / 304 * e ^ 2) ^ (1181 / 2299 : ℝ) ≠ 0 := (rpow_pos_of_pos hk _).ne'
    generalize (1 - (e * u) ^ 2) ^ (3 / 2 : ℝ) = x at *
    generalize (1 + 121 / 304 * e ^ 2) ^ (1181 / 2299 : ℝ) = y at *
    generalize (1 + 121 / 304 * (e * u) ^ 2) ^ (1181 / 2299 : ℝ) = z at *
    generalize (1 - e ^ 2) ^ (5 / 2 : ℝ) = v at *
    generalize (1 - e ^ 2) ^ (3 / 2 : ℝ) = w at *
    have n3 := hk.ne'
    field_simp
  rw [hcore, hsub]
  have h4 := c_0_pow_four (a := a) hp h1
  have n2 : 0 < (1 + 121 / 304 * e ^ 2) ^ (3480 / 2299 : ℝ) := rpow_pos_of_pos hk _
  have hc : c_0 a e ^ 4 * e ^ (48 / 19 : ℝ) = a ^ 4 * (1 - e ^ 2) ^ 4 / (1 + 121 / 304 * e ^ 2) ^ (3480 / 2299 : ℝ) := by
    rw [eq_div_iff n2.ne']; exact h4
  generalize (∫ u in (0 : ℝ)..1, u ^ (29 / 19 : ℝ) *
        ((1 + 121 / 304 * (e * u) ^ 2) ^ (1181 / 2299 : ℝ) / (1 - (e * u) ^ 2) ^ (3 / 2 : ℝ))) = J
  calc 48 / 19 * c_0 a e ^ 4 * (e ^ (48 / 19 : ℝ) * J) / (4 * β)
      = 48 / 19 * (c_0 a e ^ 4 * e ^ (48 / 19 : ℝ)) * J / (4 * β) := by ring
    _ = _ := by rw [hc]; ring

/-- Peters' merger time falls at least as fast as `decay`. -/
theorem petersTime_ratio {a β : ℝ} (hβ : 0 < β) (h0 : 0 ≤ e) (h : e ≤ e') (h1 : e' < 1) :
    petersTime a β e' * decay e ≤ petersTime a β e * decay e' := by
  rw [petersTime_factors h0 (h.trans_lt h1), petersTime_factors (h0.trans h) h1]
  have hT : 0 ≤ a ^ 4 / (4 * β) := by positivity
  have := mul_le_mul_of_nonneg_left (core_anti h0 h h1)
    (mul_nonneg hT (mul_nonneg (decay_pos h0 (h.trans_lt h1)).le (decay_pos (h0.trans h) h1).le))
  linarith

end Legwork.evol
