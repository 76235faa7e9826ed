import Mathlib.Analysis.SpecialFunctions.Integrals.Basic
import Mathlib.Analysis.Convex.SpecificFunctions.Basic
import Verif.Lemmas.FitAccuracy
import Verif.Lemmas.MergeTime
import Verif.Spec.Merger

/-!
# Accuracy of the branches of the merger time
-/

namespace Legwork.evol

open Real Legwork.utils Legwork.PolyCheck Legwork.Spec

theorem petersTime_eq {a β e : ℝ} (h0 : 0 < e) : petersTime a β e = t_exact (c_0 a e) β e := by
  unfold petersTime t_exact peters_5_14 c_0
  rw [if_neg h0.ne']
  have e1 : e ^ (-12 / 19 : ℝ) = (e ^ (12 / 19 : ℝ))⁻¹ := by rw [← rpow_neg h0.le]; norm_num
  have e2 : (1 + 121 / 304 * e ^ 2) ^ (-870 / 2299 : ℝ) = ((1 + 121 / 304 * e ^ 2) ^ (870 / 2299 : ℝ))⁻¹ := by
    rw [← rpow_neg (by positivity)]; norm_num
  rw [e1, e2]
  congr 4
  rw [div_eq_mul_inv, mul_inv]; ring

theorem t_exact_eq (a β e : ℝ) : t_exact (c_0 a e) β e = 48 / 19 * c_0 a e ^ 4 * I514 e / (4 * β) := by
  unfold t_exact I514; ring

theorem pow7 {e : ℝ} (h0 : 0 < e) (h1 : e < 1) : (1 - e ^ 2) ^ (7 / 2 : ℝ) = √(1 - e ^ 2) ^ 7 := by
  rw [sqrt_pow_rpow (one_sub_sq_pos' h0.le h1).le]; norm_num

/-- The exact merger time lies between two polynomials in `√(1 - e²)` times the circular one. -/
theorem t_exact_between {a β e : ℝ} (hβ : 0 < β) (h0 : 0 < e) (h1 : e < 1) :
    a ^ 4 / (4 * β) * (1 - e ^ 2) ^ (7 / 2 : ℝ) * ev lower √(1 - e ^ 2) ≤ t_exact (c_0 a e) β e ∧
    t_exact (c_0 a e) β e ≤ a ^ 4 / (4 * β) * (1 - e ^ 2) ^ (7 / 2 : ℝ) * ev upper √(1 - e ^ 2) := by
  obtain ⟨hl, hu⟩ := I514_between (c_0 a e) h0 h1
  rw [Props.C02_a_roundtrip h0 h1] at hl hu
  rw [t_exact_eq, pow7 h0 h1]
  have hr : ∀ y : ℝ, a ^ 4 / (4 * β) * √(1 - e ^ 2) ^ 7 * y = y * √(1 - e ^ 2) ^ 7 * a ^ 4 / (4 * β) :=
    fun y => by ring
  rw [hr, hr]
  exact ⟨div_le_div_of_nonneg_right hl (by positivity), div_le_div_of_nonneg_right hu (by positivity)⟩

theorem large_check : checks (resid [768 / 425]) 0 [1] = true := by decide +kernel

theorem t_exact_le_large {a β e : ℝ} (hβ : 0 < β) (h0 : 0 < e) (h1 : e < 1) :
    t_exact (c_0 a e) β e ≤ t_large (c_0 a e) β e := by
  have := gap_nonneg (p := [768 / 425]) (fun s hs0 hs1 =>
    checks_sound large_check (x := s) (by simpa using hs0.le) (by simpa using hs1)) (c_0 a e) h0 h1
  unfold gap at this
  rw [Props.C02_a_roundtrip h0 h1, ev_cons, ev_nil] at this
  rw [t_exact_eq, t_large_eq h0 h1, pow7 h0 h1,
    show a ^ 4 / (4 * β) * (768 / 425 * √(1 - e ^ 2) ^ 7) = 768 / 425 * √(1 - e ^ 2) ^ 7 * a ^ 4 / (4 * β) by ring]
  apply div_le_div_of_nonneg_right _ (by positivity)
  push_cast at this
  linarith

theorem large_poly : check (add (smul 1.021 lower) [-768 / 425]) 0 (1415 / 100000) = true := by decide +kernel

theorem t_large_le {a β e : ℝ} (hβ : 0 < β) (h0 : 1 - 1e-4 < e) (h1 : e < 1) :
    t_large (c_0 a e) β e ≤ 1.021 * t_exact (c_0 a e) β e := by
  have hp : 0 < e := by linarith
  have hs := one_sub_sq_pos' hp.le h1
  have hS := sqrt_mem hp h1
  have hs2 : √(1 - e ^ 2) < ((1415 / 100000 : ℚ) : ℝ) := by
    rw [sqrt_lt' (by norm_num)]; norm_num; nlinarith
  have h := check_sound large_poly (x := √(1 - e ^ 2)) (by simp) hs2
  rw [ev_add, ev_smul, ev_cons, ev_nil] at h
  push_cast at h
  have hl := (t_exact_between (a := a) hβ hp h1).1
  rw [t_large_eq hp h1]
  have hX : 0 ≤ a ^ 4 / (4 * β) * (1 - e ^ 2) ^ (7 / 2 : ℝ) := by positivity
  nlinarith

theorem rpow_le_I514 {e : ℝ} (h0 : 0 < e) (h1 : e < 1) : e ^ (48 / 19 : ℝ) ≤ 48 / 19 * I514 e := by
  have h : ∫ x in (0 : ℝ)..e, x ^ (29 / 19 : ℝ) = e ^ (48 / 19 : ℝ) / (48 / 19) := by
    rw [integral_rpow (Or.inl (by norm_num)), zero_rpow (by norm_num)]; norm_num
  have hle : ∫ x in (0 : ℝ)..e, x ^ (29 / 19 : ℝ) ≤ I514 e := by
    unfold I514
    apply intervalIntegral.integral_mono_on h0.le
    · exact intervalIntegral.intervalIntegrable_rpow' (by norm_num)
    · exact intervalIntegrable_peters_5_14 h0.le h1
    · intro x hx
      have hs := one_sub_sq_pos' hx.1 (lt_of_le_of_lt hx.2 h1)
      have hx0 : 0 ≤ x ^ (29 / 19 : ℝ) := rpow_nonneg hx.1 _
      have hA : 1 ≤ (1 + 121 / 304 * x ^ 2) ^ (1181 / 2299 : ℝ) :=
        one_le_rpow (by nlinarith [sq_nonneg x]) (by norm_num)
      have hB : (1 - x ^ 2) ^ (3 / 2 : ℝ) ≤ 1 := rpow_le_one hs.le (by nlinarith [sq_nonneg x]) (by norm_num)
      unfold peters_5_14
      rw [le_div_iff₀ (by positivity)]
      calc x ^ (29 / 19 : ℝ) * (1 - x ^ 2) ^ (3 / 2 : ℝ) ≤ x ^ (29 / 19 : ℝ) * 1 := by gcongr
        _ ≤ _ := by gcongr
  rw [h, div_le_iff₀ (by norm_num)] at hle
  linarith

theorem t_small_le_exact {a β e : ℝ} (hβ : 0 < β) (h0 : 0 < e) (h1 : e < 1) :
    t_small (c_0 a e) β e ≤ t_exact (c_0 a e) β e := by
  rw [t_exact_eq]
  unfold t_small
  rw [div_mul_eq_mul_div]
  apply div_le_div_of_nonneg_right _ (by positivity)
  have := rpow_le_I514 h0 h1
  have hc : 0 ≤ c_0 a e ^ 4 := by positivity
  nlinarith

/-- `1.022 s - B(s) (1 + q u) (1 + p q u)` with `u = 1 - s²`. -/
def smallPoly : List ℚ :=
  add [0, 1.022] (smul (-1) (mul upper (mul (add [1] (smul (121 / 304) uPoly))
    (add [1] (smul (1181 / 2299 * (121 / 304)) uPoly)))))

theorem small_poly : check smallPoly (98868 / 100000) 1 = true := by decide +kernel

theorem ev_upper_nonneg_poly : check upper 0 1 = true := by decide +kernel

theorem t_exact_le_small {a β e : ℝ} (hβ : 0 < β) (h0 : 0 < e) (h1 : e < 0.15) :
    t_exact (c_0 a e) β e ≤ 1.022 * t_small (c_0 a e) β e := by
  have hl : e < 1 := by linarith
  have hs := one_sub_sq_pos' h0.le hl
  obtain ⟨hS0, hS1⟩ := sqrt_mem h0 hl
  have hk : 0 < 1 + 121 / 304 * e ^ 2 := by positivity
  have hlow : ((98868 / 100000 : ℚ) : ℝ) ≤ √(1 - e ^ 2) := by
    apply le_sqrt_of_sq_le; norm_num; nlinarith
  have h := check_sound small_poly hlow (by simpa using hS1)
  have hB := check_sound ev_upper_nonneg_poly (x := √(1 - e ^ 2)) (by simpa using hS0.le) (by simpa using hS1)
  have hu : 1 - √(1 - e ^ 2) ^ 2 = e ^ 2 := by rw [sq_sqrt hs.le]; ring
  simp only [smallPoly, uPoly, ev_add, ev_smul, ev_mul, ev_cons, ev_nil] at h
  push_cast at h
  have hrp : (1 + 121 / 304 * e ^ 2) ^ (3480 / 2299 : ℝ)
      ≤ (1 + 121 / 304 * e ^ 2) * (1 + 1181 / 2299 * (121 / 304) * e ^ 2) := by
    rw [show (3480 / 2299 : ℝ) = 1181 / 2299 + 1 by norm_num, rpow_add_one hk.ne', mul_comm]
    apply mul_le_mul_of_nonneg_left _ hk.le
    have := rpow_one_add_le_one_add_mul_self (s := 121 / 304 * e ^ 2) (p := 1181 / 2299)
      (by nlinarith [sq_nonneg e]) (by norm_num) (by norm_num)
    linarith
  have hup := (t_exact_between (a := a) hβ h0 hl).2
  refine hup.trans ?_
  have h4 := c_0_pow_four (a := a) h0 hl
  have e8 : (1 - e ^ 2) ^ 4 = √(1 - e ^ 2) ^ 8 := by
    rw [show (8 : ℕ) = 2 * 4 by norm_num, pow_mul, sq_sqrt hs.le]
  rw [pow7 h0 hl]
  rw [e8] at h4
  unfold t_small
  have hsmall : c_0 a e ^ 4 / (4 * β) * e ^ (48 / 19 : ℝ)
      = a ^ 4 / (4 * β) * √(1 - e ^ 2) ^ 7 * (√(1 - e ^ 2) / (1 + 121 / 304 * e ^ 2) ^ (3480 / 2299 : ℝ)) := by
    have hc : c_0 a e ^ 4 * e ^ (48 / 19 : ℝ)
        = a ^ 4 * √(1 - e ^ 2) ^ 8 / (1 + 121 / 304 * e ^ 2) ^ (3480 / 2299 : ℝ) := by
      rw [eq_div_iff (by positivity)]; exact h4
    rw [div_mul_eq_mul_div, hc]; ring
  rw [hsmall, ← mul_assoc, mul_comm (1.022 : ℝ), mul_assoc (_ * _)]
  apply mul_le_mul_of_nonneg_left _ (by positivity)
  rw [← mul_div_assoc, le_div_iff₀ (by positivity)]
  generalize √(1 - e ^ 2) = s at *
  generalize ev upper s = B at *
  calc B * (1 + 121 / 304 * e ^ 2) ^ (3480 / 2299 : ℝ)
      ≤ B * ((1 + 121 / 304 * e ^ 2) * (1 + 1181 / 2299 * (121 / 304) * e ^ 2)) := by gcongr
    _ ≤ 1.022 * s := by rw [← hu]; linarith

/-- The fit compared with the exact merger time, from a comparison with the polynomial bounds. -/
theorem t_fit_of_num {a β e k : ℝ} (hβ : 0 < β) (h0 : 0.15 ≤ e) (h1 : e < 1) :
    (k * corr e * ev upper √(1 - e ^ 2) ≤ fitNum e → 0 ≤ k → k * t_exact (c_0 a e) β e ≤ t_fit a β e) ∧
    (fitNum e ≤ k * corr e * ev lower √(1 - e ^ 2) → 0 ≤ k → t_fit a β e ≤ k * t_exact (c_0 a e) β e) := by
  have hp : 0 < e := by linarith
  have hs := one_sub_sq_pos' hp.le h1
  have hc : 0 < corr e := lt_of_lt_of_le (by norm_num) (corr_ge h0 h1.le)
  obtain ⟨hl, hu⟩ := t_exact_between (a := a) hβ hp h1
  have hX : 0 ≤ a ^ 4 / (4 * β) * (1 - e ^ 2) ^ (7 / 2 : ℝ) := by positivity
  have hfit : t_fit a β e = a ^ 4 / (4 * β) * (1 - e ^ 2) ^ (7 / 2 : ℝ) * (fitNum e / corr e) := by
    unfold t_fit; rw [t_merge_mandel_fit_eq]; unfold fitNum; ring
  rw [hfit]
  generalize a ^ 4 / (4 * β) * (1 - e ^ 2) ^ (7 / 2 : ℝ) = X at *
  constructor
  · intro h hk
    have h' : k * ev upper √(1 - e ^ 2) ≤ fitNum e / corr e := by rw [le_div_iff₀ hc]; linarith
    nlinarith
  · intro h hk
    have h' : fitNum e / corr e ≤ k * ev lower √(1 - e ^ 2) := by rw [div_le_iff₀ hc]; linarith
    nlinarith

end Legwork.evol
