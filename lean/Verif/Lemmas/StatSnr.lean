import Verif.Lemmas.Convergence
import Verif.Lemmas.SnrEvolving
import Verif.Lemmas.EvolEcc
import Verif.Lemmas.GridCurve
import Verif.Lemmas.SnrOne
import Verif.Props.Stationarity

/-!
# Evolving and stationary signal-to-noise ratios of a source that hardly moves
-/

namespace Legwork.snr

open Real Set Legwork.utils Legwork.strain Legwork.evol Legwork.Spec Legwork.Props

theorem trapezoid_bounds {Y X : ℕ → ℝ} {k : ℕ} {l u : ℝ} (hX : ∀ i < k, X i ≤ X (i + 1)) (hl : ∀ i ≤ k, l ≤ Y i)
    (hu : ∀ i ≤ k, Y i ≤ u) :
    l * (X k - X 0) ≤ trapezoid ((List.range (k + 1)).map Y) ((List.range (k + 1)).map X) ∧
    trapezoid ((List.range (k + 1)).map Y) ((List.range (k + 1)).map X) ≤ u * (X k - X 0) := by
  rw [trapezoid_range, ← Finset.sum_range_sub, Finset.mul_sum, Finset.mul_sum]
  constructor <;> apply Finset.sum_le_sum <;> intro i hi <;> rw [Finset.mem_range] at hi
  · nlinarith [hX i hi, hl i hi.le, hl (i + 1) hi, mul_nonneg (sub_nonneg.2 (hX i hi)) (sub_nonneg.2 (hl i hi.le)),
      mul_nonneg (sub_nonneg.2 (hX i hi)) (sub_nonneg.2 (hl (i + 1) hi))]
  · nlinarith [hX i hi, hu i hi.le, hu (i + 1) hi, mul_nonneg (sub_nonneg.2 (hX i hi)) (sub_nonneg.2 (hu i hi.le)),
      mul_nonneg (sub_nonneg.2 (hX i hi)) (sub_nonneg.2 (hu (i + 1) hi))]

theorem h_0_scale (K : Consts) (ig : Option (ℤ → ℝ → ℝ)) (m d e : ℝ) (n : ℤ) {r f : ℝ} (hr : 0 < r) (hf : 0 < f) :
    h_0_val K ig m d (r * f) e n = r ^ (2 / 3 : ℝ) * h_0_val K ig m d f e n := by
  unfold h_0_val
  simp only
  have : π * (r * f) = r * (π * f) := by ring
  rw [this, mul_rpow hr.le (by positivity)]
  ring

theorem fn_dot_scale (K : Consts) (m e : ℝ) (n : ℤ) {r f : ℝ} (hr : 0 < r) (hf : 0 < f) :
    fn_dot_val K m (r * f) e n = r ^ (11 / 3 : ℝ) * fn_dot_val K m f e n := by
  unfold fn_dot_val
  have : 2 * π * (r * f) = r * (2 * π * f) := by ring
  rw [this, mul_rpow hr.le (by positivity)]
  ring

/-- The frequency after `t`, if `t` is at most the fraction `1 - q^(-8/3)` of the merger time. -/
theorem f_after_le (K : Consts) {f m₁ m₂ t q : ℝ} (hf : 0 < f) (h₁ : 0 < m₁) (h₂ : 0 < m₂) (hq : 1 ≤ q)
    (h : t ≤ get_a_from_f_orb K f m₁ m₂ ^ 4 / (4 * utils.beta K m₁ m₂) * (1 - q ^ (-8 / 3 : ℝ))) :
    get_f_orb_from_a K (a_circ (get_a_from_f_orb K f m₁ m₂) (utils.beta K m₁ m₂) t) m₁ m₂ ≤ q * f := by
  have ha := get_a_from_f_orb_pos K hf h₁ h₂
  have hb := beta_pos K h₁ h₂
  have hG := K.G_pos
  have hq0 : 0 < q := by linarith
  set a := get_a_from_f_orb K f m₁ m₂ with hadef
  have hd : a ^ 4 * q ^ (-8 / 3 : ℝ) ≤ a ^ 4 - 4 * utils.beta K m₁ m₂ * t := by
    have := mul_le_mul_of_nonneg_left h (by positivity : 0 ≤ 4 * utils.beta K m₁ m₂)
    have e : 4 * utils.beta K m₁ m₂ * (a ^ 4 / (4 * utils.beta K m₁ m₂) * (1 - q ^ (-8 / 3 : ℝ)))
        = a ^ 4 * (1 - q ^ (-8 / 3 : ℝ)) := by field_simp
    rw [e] at this
    linarith
  have hpos : 0 < a ^ 4 * q ^ (-8 / 3 : ℝ) := by positivity
  have hA : a * q ^ (-2 / 3 : ℝ) ≤ a_circ a (utils.beta K m₁ m₂) t := by
    unfold a_circ
    simp only
    rw [if_neg (not_le.2 (hpos.trans_le hd))]
    calc a * q ^ (-2 / 3 : ℝ) = (a ^ 4 * q ^ (-8 / 3 : ℝ)) ^ (1 / 4 : ℝ) := by
          rw [mul_rpow (by positivity) (by positivity), ← rpow_natCast, ← rpow_mul ha.le, ← rpow_mul hq0.le]
          norm_num
      _ ≤ _ := rpow_le_rpow hpos.le hd (by norm_num)
  have hp : 0 < a * q ^ (-2 / 3 : ℝ) := by positivity
  have hround : get_f_orb_from_a K a m₁ m₂ = f := C01_f_roundtrip K hf h₁ h₂
  calc get_f_orb_from_a K (a_circ a (utils.beta K m₁ m₂) t) m₁ m₂
      ≤ get_f_orb_from_a K (a * q ^ (-2 / 3 : ℝ)) m₁ m₂ := by
        have hAp := hp.trans_le hA
        unfold get_f_orb_from_a
        gcongr
    _ = q * f := by
        rw [← hround]
        unfold get_f_orb_from_a
        have : (a * q ^ (-2 / 3 : ℝ)) ^ 3 = a ^ 3 * (q ^ 2)⁻¹ := by
          rw [mul_pow, ← rpow_natCast (q ^ _), ← rpow_mul hq0.le]
          norm_num
        have e : K.G * (m₁ + m₂) / (a ^ 3 * (q ^ 2)⁻¹) = K.G * (m₁ + m₂) / a ^ 3 * q ^ 2 := by field_simp
        have e2 : (q ^ 2) ^ (0.5 : ℝ) = q := by
          rw [← rpow_natCast, ← rpow_mul hq0.le]
          norm_num
        rw [this, e, mul_rpow (by positivity) (by positivity), e2]
        ring

/-- The integrand of `snr_circ_evolving` through that of the stationary case. -/
theorem weight_eq (K : Consts) (ig : Option (ℤ → ℝ → ℝ)) {m d f r S : ℝ} (hm : 0 < m) (hf : 0 < f) (hr : 0 < r)
    (hS : 0 < S) :
    divNoise (h_c_val K ig m d (r * f) 0 2 ^ 2) (((2 * (r * f)) ^ 2 * S : ℝ) : WithTop ℝ)
      = r ^ (-7 / 3 : ℝ) * (h_0_val K ig m d f 0 2 ^ 2 / fn_dot_val K m f 0 2) / S := by
  have hrf : 0 < r * f := by positivity
  have hD : 0 < fn_dot_val K m f 0 2 := by
    have := K.G_pos
    have := K.c_pos
    unfold fn_dot_val
    rw [C04_zero]
    push_cast
    positivity
  have h := h_c_val_sq_mul_fn_dot K ig (d := d) hm hrf le_rfl one_pos (n := 2) (by norm_num)
  rw [fn_dot_scale K m 0 2 hr hf, h_0_scale K ig m d 0 2 hr hf] at h
  push_cast at h
  change h_c_val K ig m d (r * f) 0 2 ^ 2 / ((2 * (r * f)) ^ 2 * S) = _
  have e : r ^ (-7 / 3 : ℝ) * r ^ (11 / 3 : ℝ) = (r ^ (2 / 3 : ℝ)) ^ 2 := by
    rw [← rpow_add hr, ← rpow_natCast, ← rpow_mul hr.le]
    norm_num
  have hr3 : 0 < r ^ (11 / 3 : ℝ) := by positivity
  rw [div_eq_div_iff (by positivity) hS.ne']
  have key : h_c_val K ig m d (r * f) 0 2 ^ 2 = (2 * (r * f)) ^ 2 * (r ^ (-7 / 3 : ℝ) * h_0_val K ig m d f 0 2 ^ 2
      / fn_dot_val K m f 0 2) := by
    rw [mul_div_assoc', eq_div_iff hD.ne']
    apply mul_left_cancel₀ hr3.ne'
    calc r ^ (11 / 3 : ℝ) * (h_c_val K ig m d (r * f) 0 2 ^ 2 * fn_dot_val K m f 0 2)
        = (2 * (r * f)) ^ 2 * (r ^ (2 / 3 : ℝ) * h_0_val K ig m d f 0 2) ^ 2 := by rw [← h]; ring
      _ = (2 * (r * f)) ^ 2 * ((r ^ (2 / 3 : ℝ)) ^ 2 * h_0_val K ig m d f 0 2 ^ 2) := by ring
      _ = _ := by rw [← e]; ring
  rw [key]
  ring

end Legwork.snr
