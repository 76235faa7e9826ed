import Verif.Lemmas.KarnesisSlope

/-!
# The noise of LISA far above and far below its best frequencies
-/

namespace Legwork.psd

open Real Legwork.Spec

variable {f : ℝ}

theorem lisa_J_split (fs f : ℝ) :
    lisa_J 2.5e9 fs f = 1.6e-19 * (10 / 3) * lisa_M fs f * (1 + 0.6 * (f / fs) ^ 2) := by
  unfold lisa_J approximate_response_function
  rw [div_div_eq_mul_div, show (1 / 2.5e9 ^ 2 : ℝ) = 1.6e-19 by norm_num]
  ring

/-- A curve that rises with frequency and is close to the noise of LISA above 6 mHz. -/
noncomputable def lisaRise (fs f : ℝ) : ℝ := 1.2e-40 * (1 + 0.6 * (f / fs) ^ 2)

theorem lisa_high {fs t : ℝ} (hfs : 0.019 ≤ fs) (ht : 0.25 * yr ≤ t) (hf : 6e-3 ≤ f) :
    lisaRise fs f ≤ lisa_J 2.5e9 fs f + get_confusion_noise_karnesis21 f t ∧
      lisa_J 2.5e9 fs f + get_confusion_noise_karnesis21 f t ≤ 1.45 * lisaRise fs f := by
  have hf0 : 0 < f := lt_of_lt_of_le (by norm_num) hf
  have hQ0 := (slope_Q hf0).pos
  have hr : 1 ≤ 1 + 0.6 * (f / fs) ^ 2 := by
    have : 0 ≤ 0.6 * (f / fs) ^ 2 := by positivity
    linarith
  have hP : 2.25e-22 ≤ lisa_Poms f := by
    unfold lisa_Poms
    have : (0 : ℝ) ≤ (2e-3 / f) ^ 4 := by positivity
    norm_num at this ⊢
    nlinarith
  have hcos : cos (f / fs) ^ 2 ≤ 1 := cos_sq_le_one _
  have hMlo : 2.25e-22 ≤ lisa_M fs f := by
    unfold lisa_M
    have : 0 ≤ 2 * (1 + cos (f / fs) ^ 2) * lisa_Q f := by positivity
    linarith
  have hMhi : lisa_M fs f ≤ 2.52e-22 := by
    have hpi : (1558 : ℝ) ≤ (2 * π) ^ 4 := by
      calc (1558 : ℝ) ≤ (2 * 3.1415) ^ 4 := by norm_num
        _ ≤ _ := by
          have := pi_gt_d4
          gcongr
    have a : lisa_Poms f ≤ 1.5e-11 ^ 2 * (1 + (2e-3 / 6e-3) ^ 4) := by
      unfold lisa_Poms
      gcongr
    have b : lisa_Q f ≤ 3e-15 ^ 2 * (1 + (0.4e-3 / 6e-3) ^ 2) * ((1 / 6e-3) ^ 4 + (1 / 8e-3) ^ 4) / 1558 := by
      have e : lisa_Q f = 3e-15 ^ 2 * (1 + (0.4e-3 / f) ^ 2) * ((1 / f) ^ 4 + (1 / 8e-3) ^ 4) / (2 * π) ^ 4 := by
        unfold lisa_Q lisa_Pacc
        have := pi_pos.ne'
        field_simp
      rw [e]
      gcongr
    have c : 2 * (1 + cos (f / fs) ^ 2) * lisa_Q f ≤ 4 * lisa_Q f := mul_le_mul_of_nonneg_right (by linarith) hQ0.le
    unfold lisa_M
    norm_num at a b ⊢
    linarith
  have hk := karnesis_mid ht le_rfl hf (c := 1.54e5) (by norm_num) (by norm_num)
  have hk0 := karnesis_pos hf0 t
  rw [lisa_J_split]
  unfold lisaRise
  generalize 1 + 0.6 * (f / fs) ^ 2 = r at *
  generalize lisa_M fs f = M at *
  constructor
  · norm_num at hMlo ⊢
    nlinarith
  · norm_num at hMhi hk ⊢
    nlinarith

theorem lisaRise_mono {fs : ℝ} (hfs : 0 < fs) {g : ℝ} (hg : 0 ≤ g) (h : g ≤ f) : lisaRise fs g ≤ lisaRise fs f := by
  unfold lisaRise
  gcongr

/-- The confusion noise is below a power of the frequency. -/
theorem karnesis_le (hf : 0 < f) {t : ℝ} (ht : 0 < t) : get_confusion_noise_karnesis21 f t ≤ 1.15e-44 * f ^ (-7 / 3 : ℝ) := by
  unfold get_confusion_noise_karnesis21
  simp only
  have hy := yr_pos
  set f₁ := (t / yr) ^ (-0.15 : ℝ) * (10 : ℝ) ^ (-2.72 : ℝ) with hf₁
  have hf10 : 0 < f₁ := by positivity
  have e2 : exp (-(f / f₁) ^ (1.56 : ℝ)) ≤ 1 := exp_le_one_iff.2 (neg_nonpos.2 (by positivity))
  have e3 := abs_tanh_le (((t / yr) ^ (-0.37 : ℝ) * (10 : ℝ) ^ (-2.49 : ℝ) - f) / 0.00067)
  calc _ ≤ (1.15e-44 / 2 * f ^ (-7 / 3 : ℝ) * 1 * (1 + 1) : ℝ) := by
        gcongr
        · linarith [e3.1]
        · exact e3.2
    _ = _ := by ring

/-- Below 0.02 mHz the noise falls by more than a factor of 11 from the second to the third harmonic. -/
theorem lisa_low {fs t : ℝ} (hfs : 0.019 ≤ fs) (ht : 0 < t) (hf : 0 < f) (hf1 : f ≤ 1e-5) :
    11 * (lisa_J 2.5e9 fs (3 * f) + get_confusion_noise_karnesis21 (3 * f) t) ≤
      lisa_J 2.5e9 fs (2 * f) + get_confusion_noise_karnesis21 (2 * f) t := by
  have hfs0 : 0 < fs := lt_of_lt_of_le (by norm_num) hfs
  have hu : f / fs ≤ 1e-3 := by
    rw [div_le_iff₀ hfs0]
    norm_num at hf1 hfs ⊢
    linarith
  have hu0 : 0 < f / fs := by positivity
  have hpi : (1558 : ℝ) ≤ (2 * π) ^ 4 ∧ (2 * π) ^ 4 ≤ 1559 := by
    constructor
    · calc (1558 : ℝ) ≤ (2 * 3.1415) ^ 4 := by norm_num
        _ ≤ _ := by
          have := pi_gt_d4
          gcongr
    · calc (2 * π) ^ 4 ≤ (2 * 3.1416) ^ 4 := by
            have := pi_lt_d4
            gcongr
        _ ≤ _ := by norm_num
  -- in units of the acceleration noise at low frequency
  set q : ℝ := 9e-30 / (2 * π * f) ^ 4 with hq
  set a : ℝ := (0.4e-3 / f) ^ 2 with ha
  have hq0 : 0 < q := by positivity
  have ha1 : 1600 ≤ a := by
    rw [ha]
    have : (40 : ℝ) ≤ 0.4e-3 / f := by
      rw [le_div_iff₀ hf]
      norm_num at hf1 ⊢
      linarith
    calc (1600 : ℝ) = 40 ^ 2 := by norm_num
      _ ≤ _ := by gcongr
  have hqf : 5.77e-33 / f ^ 4 ≤ q := by
    rw [hq, mul_pow, ← div_div]
    gcongr
    rw [le_div_iff₀ (by positivity)]
    norm_num at hpi ⊢
    linarith [hpi.2]
  have hf4 : (1e20 : ℝ) ≤ 1 / f ^ 4 := by
    rw [le_div_iff₀ (by positivity)]
    have : f ^ 4 ≤ 1e-5 ^ 4 := by gcongr
    norm_num at this ⊢
    linarith
  have hQ3 : lisa_Q (3 * f) ≤ q * (1 + a / 9) * 1.00001 / 81 := by
    have e : lisa_Q (3 * f) = q * (1 + a / 9) * (1 + (3 * f / 8e-3) ^ 4) / 81 := by
      rw [hq, ha]
      unfold lisa_Q lisa_Pacc
      have := pi_pos.ne'
      field_simp
      norm_num
      try ring
    rw [e]
    have : (3 * f / 8e-3) ^ 4 ≤ (3 * 1e-5 / 8e-3) ^ 4 := by gcongr
    have h2 : 1 + (3 * f / 8e-3) ^ 4 ≤ 1.00001 := by
      norm_num at this ⊢
      linarith
    gcongr
  have hQ2 : q * (1 + a / 4) / 16 ≤ lisa_Q (2 * f) := by
    have e : lisa_Q (2 * f) = q * (1 + a / 4) * (1 + (2 * f / 8e-3) ^ 4) / 16 := by
      rw [hq, ha]
      unfold lisa_Q lisa_Pacc
      have := pi_pos.ne'
      field_simp
      norm_num
      try ring
    rw [e]
    have h2 : 1 ≤ 1 + (2 * f / 8e-3) ^ 4 := by
      have : 0 ≤ (2 * f / 8e-3) ^ 4 := by positivity
      linarith
    have := mul_nonneg hq0.le (by linarith : 0 ≤ 1 + a / 4)
    exact div_le_div_of_nonneg_right (le_mul_of_one_le_right this h2) (by norm_num)
  have hP3 : lisa_Poms (3 * f) ≤ 0.01 * q := by
    have e : lisa_Poms (3 * f) = 2.25e-22 + 3.6e-33 / 81 * (1 / f ^ 4) := by
      unfold lisa_Poms
      field_simp
      norm_num
      try ring
    rw [e]
    rw [div_eq_mul_one_div] at hqf
    norm_num at hf4 hqf ⊢
    linarith
  have hP2 : 0 ≤ lisa_Poms (2 * f) := by
    unfold lisa_Poms
    positivity
  have hk : get_confusion_noise_karnesis21 (3 * f) t ≤ 1.6e-19 * (10 / 3) * (0.04 * q) := by
    refine (karnesis_le (by positivity) ht).trans ?_
    have h1 : (3 * f) ^ (-7 / 3 : ℝ) ≤ f ^ (-7 / 3 : ℝ) := rpow_le_rpow_of_nonpos hf (by linarith) (by norm_num)
    have h2 : f ^ (-7 / 3 : ℝ) = f ^ (5 / 3 : ℝ) * (1 / f ^ 4) := by
      rw [one_div, ← rpow_natCast, ← rpow_neg hf.le, ← rpow_add hf]
      norm_num
    have h3 : f ^ (5 / 3 : ℝ) ≤ 1e-8 := by
      calc f ^ (5 / 3 : ℝ) ≤ (1e-5 : ℝ) ^ (5 / 3 : ℝ) := rpow_le_rpow hf.le hf1 (by norm_num)
        _ = ((1e-5 : ℝ) ^ (5 : ℕ)) ^ (1 / 3 : ℝ) := by
            rw [← rpow_natCast, ← rpow_mul (by norm_num)]
            norm_num
        _ ≤ ((1e-8 : ℝ) ^ (3 : ℕ)) ^ (1 / 3 : ℝ) := rpow_le_rpow (by positivity) (by norm_num) (by norm_num)
        _ = 1e-8 := by
            rw [← rpow_natCast, ← rpow_mul (by norm_num)]
            norm_num
    have h4 : f ^ (-7 / 3 : ℝ) ≤ 1e-8 * (1 / f ^ 4) := by
      rw [h2]
      gcongr
    rw [div_eq_mul_one_div] at hqf
    have : (0 : ℝ) < 1 / f ^ 4 := by positivity
    generalize 1 / f ^ 4 = y at *
    generalize f ^ (-7 / 3 : ℝ) = z at *
    norm_num at h4 hqf ⊢
    linarith
  have hk2 := karnesis_pos (by positivity : 0 < 2 * f) t
  have hcos : 1.999 ≤ 1 + cos (2 * f / fs) ^ 2 := by
    have h1 : (2 * f / fs) ^ 2 ≤ (2 * 1e-3) ^ 2 := by
      have : 2 * f / fs ≤ 2 * 1e-3 := by rw [mul_div_assoc]; linarith
      gcongr
    have h2 := sin_sq_add_cos_sq (2 * f / fs)
    have h3 : sin (2 * f / fs) ^ 2 ≤ (2 * f / fs) ^ 2 := sin_sq_le_sq
    norm_num at h1 ⊢
    linarith
  have hcos3 : cos (3 * f / fs) ^ 2 ≤ 1 := cos_sq_le_one _
  have hr3 : 1 + 0.6 * (3 * f / fs) ^ 2 ≤ 1.0001 := by
    have h1 : (3 * f / fs) ^ 2 ≤ (3 * 1e-3) ^ 2 := by
      have : 3 * f / fs ≤ 3 * 1e-3 := by rw [mul_div_assoc]; linarith
      gcongr
    norm_num at h1 ⊢
    linarith
  have hM3 : lisa_M fs (3 * f) ≤ 0.01 * q + 4 * (q * (1 + a / 9) * 1.00001 / 81) := by
    unfold lisa_M
    have hQ0 := (slope_Q (by positivity : 0 < 3 * f)).pos
    have : 2 * (1 + cos (3 * f / fs) ^ 2) * lisa_Q (3 * f) ≤ 4 * lisa_Q (3 * f) :=
      mul_le_mul_of_nonneg_right (by linarith) hQ0.le
    linarith
  have hM2 : 3.998 * (q * (1 + a / 4) / 16) ≤ lisa_M fs (2 * f) := by
    unfold lisa_M
    have : 3.998 * (q * (1 + a / 4) / 16) ≤ 2 * (1 + cos (2 * f / fs) ^ 2) * lisa_Q (2 * f) :=
      mul_le_mul (by linarith) hQ2 (by positivity) (by linarith)
    linarith
  have hM20 : 0 ≤ lisa_M fs (2 * f) := le_trans (by positivity) hM2
  rw [lisa_J_split, lisa_J_split]
  have hJ3 : lisa_M fs (3 * f) * (1 + 0.6 * (3 * f / fs) ^ 2) ≤ (0.01 * q + 4 * (q * (1 + a / 9) * 1.00001 / 81)) * 1.0001 :=
    mul_le_mul hM3 hr3 (by positivity) (by positivity)
  have hJ2 : lisa_M fs (2 * f) ≤ lisa_M fs (2 * f) * (1 + 0.6 * (2 * f / fs) ^ 2) := by
    have : 0 ≤ 0.6 * (2 * f / fs) ^ 2 := by positivity
    nlinarith
  have key : 11 * ((0.01 * q + 4 * (q * (1 + a / 9) * 1.00001 / 81)) * 1.0001 + 0.04 * q) ≤ 3.998 * (q * (1 + a / 4) / 16) := by
    have : 11 * ((0.01 + 4 * ((1 + a / 9) * 1.00001 / 81)) * 1.0001 + 0.04) ≤ 3.998 * ((1 + a / 4) / 16) := by
      norm_num
      linarith
    calc _ = q * (11 * ((0.01 + 4 * ((1 + a / 9) * 1.00001 / 81)) * 1.0001 + 0.04)) := by ring
      _ ≤ q * (3.998 * ((1 + a / 4) / 16)) := mul_le_mul_of_nonneg_left this hq0.le
      _ = _ := by ring
  calc _ ≤ 11 * (1.6e-19 * (10 / 3) * ((0.01 * q + 4 * (q * (1 + a / 9) * 1.00001 / 81)) * 1.0001)
          + 1.6e-19 * (10 / 3) * (0.04 * q)) := by
        rw [mul_assoc (1.6e-19 * (10 / 3) : ℝ)]
        gcongr
    _ = 1.6e-19 * (10 / 3) * (11 * ((0.01 * q + 4 * (q * (1 + a / 9) * 1.00001 / 81)) * 1.0001 + 0.04 * q)) := by ring
    _ ≤ 1.6e-19 * (10 / 3) * (lisa_M fs (2 * f) * (1 + 0.6 * (2 * f / fs) ^ 2)) :=
        mul_le_mul_of_nonneg_left (key.trans (hM2.trans hJ2)) (by norm_num)
    _ ≤ _ := by linarith

end Legwork.psd
