import Verif.Lemmas.Slope
import Verif.Lemmas.Psd
import Mathlib.Analysis.SpecialFunctions.Trigonometric.Deriv
import Mathlib.Analysis.Real.Pi.Bounds

/-!
# Slopes of the noise curves
-/

namespace Legwork.psd

open Real Legwork.Spec Set HasSlope

variable {f : ℝ}

theorem slope_ratio (hf : 0 < f) {c : ℝ} (hc : 0 < c) : HasSlope (fun f => f / c) f 1 1 :=
  ((HasSlope.id hf).div (.const hc f)).weaken (by norm_num) (by norm_num)

theorem slope_inv_ratio (hf : 0 < f) {c : ℝ} (hc : 0 < c) : HasSlope (fun f => c / f) f (-1) (-1) :=
  ((HasSlope.const hc f).div (.id hf)).weaken (by norm_num) (by norm_num)

theorem slope_Poms (hf : 0 < f) : HasSlope lisa_Poms f (-4) 0 := by
  have h := (HasSlope.const (c := 1.5e-11 ^ 2) (by norm_num) f).mul
    (((HasSlope.const one_pos f).weaken (l' := -4) (by norm_num) le_rfl).add
      (((slope_inv_ratio hf (c := 2e-3) (by norm_num)).pow 4).weaken (by norm_num) (by norm_num)))
  exact h.weaken (by norm_num) (by norm_num)

/-- Acceleration noise as a displacement. -/
noncomputable def lisa_Q (f : ℝ) : ℝ := lisa_Pacc f / (2 * π * f) ^ 4

theorem slope_Q (hf : 0 < f) : HasSlope lisa_Q f (-6) 0 := by
  have h1 := (((HasSlope.const one_pos f).weaken (l' := -2) (by norm_num) le_rfl).add
      (((slope_inv_ratio hf (c := 0.4e-3) (by norm_num)).pow 2).weaken (by norm_num) (by norm_num)))
  have h2 := (((HasSlope.const one_pos f).weaken (u' := 4) le_rfl (by norm_num)).add
      (((slope_ratio hf (c := 8e-3) (by norm_num)).pow 4).weaken (by norm_num) (by norm_num)))
  have h3 := (((HasSlope.const (c := 3e-15 ^ 2) (by norm_num) f).mul h1).mul h2).div
    (((HasSlope.const (c := 2 * π) (by positivity) f).mul (.id hf)).pow 4)
  exact h3.weaken (by norm_num) (by norm_num)

/-- Noise of LISA as a displacement, before the response. -/
noncomputable def lisa_M (fs f : ℝ) : ℝ := lisa_Poms f + 2 * (1 + cos (f / fs) ^ 2) * lisa_Q f

/-- The oscillation of the response changes the noise slowly: its fast part is at frequencies where acceleration noise
does not matter. -/
theorem cos_part {fs : ℝ} (hfs : 0.019 ≤ fs) (hf : 0 < f) (hf2 : f ≤ 2) :
    |2 * lisa_Q f * (f / fs) * sin (2 * (f / fs))| ≤ 2 * lisa_M fs f := by
  have hQ := (slope_Q hf).pos
  have hP := (slope_Poms hf).pos
  have hx : 0 < f / fs := div_pos hf (by linarith)
  have hs := abs_sin_le_one (2 * (f / fs))
  have hM : lisa_Poms f + 2 * lisa_Q f ≤ lisa_M fs f := by
    unfold lisa_M
    nlinarith [mul_nonneg hQ.le (sq_nonneg (cos (f / fs)))]
  rw [abs_mul, abs_of_pos (by positivity : 0 < 2 * lisa_Q f * (f / fs))]
  have h1 : 2 * lisa_Q f * (f / fs) * |sin (2 * (f / fs))| ≤ 2 * lisa_Q f * (f / fs) :=
    mul_le_of_le_one_right (by positivity) hs
  rcases le_or_gt (f / fs) 2 with h | h
  · nlinarith [mul_le_mul_of_nonneg_left h (by positivity : 0 ≤ 2 * lisa_Q f)]
  · have hlow : 0.038 < f := by
      rw [lt_div_iff₀ (by linarith)] at h
      linarith
    have hPl : 2.25e-22 ≤ lisa_Poms f := by
      unfold lisa_Poms
      have : 0 ≤ (2e-3 / f) ^ 4 := by positivity
      nlinarith
    have hxf : f / fs ≤ f / 0.019 := div_le_div_of_nonneg_left hf.le (by norm_num) hfs
    have hQf : lisa_Q f * f ≤ 4.2e-24 := by
      unfold lisa_Q lisa_Pacc
      have e1 : (0.4e-3 / f) ^ 2 ≤ 2e-4 := by
        rw [div_pow, div_le_iff₀ (by positivity)]
        nlinarith
      have e2 : (6 * f) ^ 4 ≤ (2 * π * f) ^ 4 := by
        have := pi_gt_three
        gcongr
        linarith
      have e3 : 3e-15 ^ 2 * (1 + (0.4e-3 / f) ^ 2) * (1 + (f / 8e-3) ^ 4) ≤ 9.002e-30 * (1 + (f / 8e-3) ^ 4) := by
        have : (0 : ℝ) ≤ 1 + (f / 8e-3) ^ 4 := by positivity
        apply mul_le_mul_of_nonneg_right _ this
        linarith
      have e4 : 9.002e-30 * (1 + (f / 8e-3) ^ 4) ≤ 4.2e-24 / 2 * (6 * f) ^ 4 := by
        have : (f / 8e-3) ^ 4 = f ^ 4 / (8e-3) ^ 4 := by rw [div_pow]
        have h4 : (0.038 : ℝ) ^ 4 ≤ f ^ 4 := by gcongr
        rw [this]
        norm_num at h4 ⊢
        linarith
      have e5 : 3e-15 ^ 2 * (1 + (0.4e-3 / f) ^ 2) * (1 + (f / 8e-3) ^ 4) / (2 * π * f) ^ 4 ≤ 4.2e-24 / 2 := by
        rw [div_le_iff₀ (by positivity)]
        exact e3.trans (e4.trans (mul_le_mul_of_nonneg_left e2 (by norm_num)))
      calc _ ≤ 4.2e-24 / 2 * 2 := mul_le_mul e5 hf2 hf.le (by norm_num)
        _ = _ := by norm_num
    have h2 : 2 * lisa_Q f * (f / fs) ≤ 2 * (4.2e-24 / 0.019) := by
      calc 2 * lisa_Q f * (f / fs) ≤ 2 * lisa_Q f * (f / 0.019) := mul_le_mul_of_nonneg_left hxf (by positivity)
        _ = 2 * (lisa_Q f * f / 0.019) := by ring
        _ ≤ _ := by gcongr
    have : (2 * (4.2e-24 / 0.019) : ℝ) ≤ 2 * 2.25e-22 := by norm_num
    linarith

theorem slope_M {fs : ℝ} (hfs : 0.019 ≤ fs) (hf : 0 < f) (hf2 : f ≤ 2) : HasSlope (lisa_M fs) f (-8) 2 := by
  obtain ⟨p, d, hd, h1, h2⟩ := slope_Poms hf
  obtain ⟨p', d', hd', h1', h2'⟩ := slope_Q hf
  have hc := cos_part hfs hf hf2
  have hcos : HasDerivAt (fun f => cos (f / fs)) (-sin (f / fs) * (1 / fs)) f :=
    ((hasDerivAt_id f).div_const fs).cos
  have hd2 := hd.add ((((hcos.pow 2).const_add 1).const_mul 2).mul hd')
  have hMpos : 0 < lisa_M fs f := by
    unfold lisa_M
    positivity
  refine ⟨hMpos, _, hd2, ?_⟩
  have e : f * (d + (2 * ((2 : ℕ) * cos (f / fs) ^ (2 - 1) * (-sin (f / fs) * (1 / fs))) * lisa_Q f
      + 2 * (1 + cos (f / fs) ^ 2) * d'))
      = f * d + 2 * (1 + cos (f / fs) ^ 2) * (f * d') - 2 * lisa_Q f * (f / fs) * sin (2 * (f / fs)) := by
    rw [sin_two_mul]
    push_cast
    ring
  have hk : (0 : ℝ) ≤ 2 * (1 + cos (f / fs) ^ 2) := by positivity
  have i1 := mul_le_mul_of_nonneg_left h1' hk
  have i2 := mul_le_mul_of_nonneg_left h2' hk
  have j := abs_le.1 hc
  have hM : lisa_M fs f = lisa_Poms f + 2 * (1 + cos (f / fs) ^ 2) * lisa_Q f := rfl
  constructor
  · refine le_trans ?_ e.ge
    nlinarith
  · refine le_trans e.le ?_
    nlinarith

/-- Noise of LISA without confusion noise, with the analytic response. -/
noncomputable def lisa_J (L fs f : ℝ) : ℝ := (1 / L ^ 2 * lisa_M fs f) / approximate_response_function f fs

theorem slope_J {L fs : ℝ} (hL : 0 < L) (hfs : 0.019 ≤ fs) (hf : 0 < f) (hf2 : f ≤ 2) :
    HasSlope (lisa_J L fs) f (-8) 4 := by
  have hr := (HasSlope.const (c := 3 / 10) (by norm_num) f).div
    (((HasSlope.const one_pos f).weaken (u' := 2) le_rfl (by norm_num)).add
      ((HasSlope.const (c := 0.6) (by norm_num) f).mul ((slope_ratio hf (c := fs) (by linarith)).pow 2) |>.weaken
        (l' := 0) (by norm_num) (by norm_num)))
  have h := ((HasSlope.const (c := 1 / L ^ 2) (by positivity) f).mul (slope_M hfs hf hf2)).div hr
  exact h.weaken (by norm_num) (by norm_num)

end Legwork.psd
