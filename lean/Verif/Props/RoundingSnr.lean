import Verif.Lemmas.FloatSnr
import Verif.Lemmas.Snr
import Verif.Props.PetersG
import Verif.Props.Rounding

/-!
# C89: strains, noise curves and signal-to-noise ratios in floating point

Continues `Verif.Props.Rounding` for the signal-to-noise ratio of a circular stationary source. `C : fl.Cosine` is any
cosine, `B : fl.BesselAtZero` any `scipy.special.jv`, accurate as said in `Verif.Py.Float`.
-/

namespace Legwork.Props

open Real Legwork.Spec Legwork.fl

local notation "KK" => Consts.codata2018

theorem h0circ_eq (m_c f d : ℝ) : strain.h_0_val KK none m_c d f 0 2 = h0circ m_c f d := by
  have hg : utils.peters_g 2 0 = 1 := by rw [C05_circular (by norm_num)]; simp
  unfold strain.h_0_val h0circ strain.g_vals
  simp only [hg]
  norm_num

/-- The strain of a circular source. `κ` is the exact value of the conversion to a bare number, `k` the one used. -/
theorem C89_strain (A : Arith) (B : BesselAtZero) {k κ m_c f d h : ℝ} (hm : Sensible m_c) (hf : Sensible f) (hd : Sensible d)
    (hk : Conversion k κ) (hh : strain.h_0_n KK none [2] [⟨m_c, d, [(f, 0)], {}⟩] = .ok [[[h]]]) :
    WithinUlps 251 (fl.h_0_n A KK B k m_c f 0 2 d) (h * κ) := by
  have e : h = h0circ m_c f d := by
    rw [← h0circ_eq]
    have : strain.h_0_n KK none [2] [⟨m_c, d, [(f, 0)], {}⟩] = .ok [[[1 * strain.h_0_val KK none m_c d f 0 2]]] := rfl
    rw [this, one_mul] at hh
    injection hh with hh
    simpa using hh.symm
  rw [e]
  exact (ulp_h_0_n B hm hf hd (ulp_conversion hk)).within (by norm_num) (by norm_num)

theorem log_add_confusion {r I cn : ℝ} (hI : 0 < I) (hr : |log I| ≤ r) (h0 : 0 ≤ cn) (h1 : cn ≤ exp r) : |log (I + cn)| ≤ r + 7 / 10 := by
  obtain ⟨a, b⟩ := abs_le.1 hr
  refine abs_le.2 ⟨?_, ?_⟩
  · have := log_le_log hI (by linarith : I ≤ I + cn)
    linarith
  · have h2 : I ≤ exp r := by rw [← log_le_log_iff hI (exp_pos _), log_exp]; exact b
    have h3 := log_le_log (by linarith : 0 < I + cn) (by linarith : I + cn ≤ 2 * exp r)
    rw [log_mul (by norm_num) (exp_pos _).ne', log_exp] at h3
    linarith [log_two_lt_d9]

theorem ten_pow_le_exp {r : ℝ} (n : ℕ) (h : n * (23026 / 10000) ≤ r) : (10 : ℝ) ^ n ≤ exp r := by
  rw [← log_le_log_iff (by positivity) (exp_pos _), log_exp, log_pow]
  have := mul_le_mul_of_nonneg_left log_ten_le (Nat.cast_nonneg (α := ℝ) n)
  linarith

theorem lisa_value {env : psd.Env} {f L cn S : ℝ} {t : psd.TimeArg} {c : psd.NoiseArg} (hf : 1e-7 ≤ f ∧ f ≤ 2e0)
    (hcn : psd.noise_bare f t c = .ok cn) (hS : psd.lisa_psd KK env f t L true c = .ok (S : WithTop ℝ)) :
    S = (1 / L ^ 2 * (psd.lisa_Poms f + 2 * (1 + cos (f / ((KK).c / (2 * π * L))) ^ 2) * psd.lisa_Pacc f / (2 * π * f) ^ 4))
        / psd.approximate_response_function f ((KK).c / (2 * π * L)) + cn := by
  unfold psd.lisa_psd at hS
  simp only [ge_iff_le, hf, and_self, if_true, psd.lisa_response] at hS
  rw [hcn] at hS
  injection hS with hS
  exact (WithTop.coe_injective hS).symm

/-- Noise of LISA with the approximate response function, for any confusion noise `cn` whose own error is at most `m`
units of the total noise. The phase `f / fstar` of the response limits the accuracy: `15` units per radian. -/
theorem C89_lisa_noise (A : Arith) (C : Cosine) {env : psd.Env} {f L cn cnh m S : ℝ} {t : psd.TimeArg} {c : psd.NoiseArg}
    (hf : 1e-7 ≤ f ∧ f ≤ 2) (hL : 1 ≤ L ∧ L ≤ 10 ^ 11) (hcn : psd.noise_bare f t c = .ok cn) (hcn0 : 0 ≤ cn)
    (hcn1 : cn ≤ 10 ^ 200) (hm : m ≤ 10 ^ 5) (herr : |cnh - cn| ≤ m * 2 ^ (-52 : ℤ) * S)
    (hS : psd.lisa_psd KK env f t L true c = .ok (S : WithTop ℝ)) :
    WithinUlps (103 + 16 * (2 * π * f * L / (KK).c) + 11 / 10 * m) (fl.lisa_psd A KK C f L cnh) S := by
  have hv := lisa_value ⟨hf.1, hf.2.trans (by norm_num)⟩ hcn hS
  have hI := ulp_lisa (A := A) C (le_trans (by norm_num) hf.1) hf.2 (le_trans (by norm_num) hL.1) hL.2
  have hx : f / ((KK).c / (2 * π * L)) = 2 * π * f * L / (KK).c := by rw [div_div_eq_mul_div]; ring
  rw [← hx]
  have hxb := lisa_phase_le hf.2 (le_trans (by norm_num) hL.1) hL.2
  have hx0 : 0 < f / ((KK).c / (2 * π * L)) := by
    have := (KK).c_pos; have := pi_pos; have : 0 < L := by linarith [hL.1]
    have : 0 < f := lt_of_lt_of_le (by norm_num) hf.1
    positivity
  generalize f / ((KK).c / (2 * π * L)) = x at *
  have hr : |log S| ≤ 680 := by
    rw [hv]
    exact (log_add_confusion hI.pos hI.mag hcn0 (hcn1.trans (ten_pow_le_exp 200 (by norm_num)))).trans (by norm_num)
  have r := within_add_confusion (A := A) hI (by norm_num; linarith) (hm.trans (by norm_num)) hv hcn0 hr herr
  rw [lisa_psd_eq]
  have hm0 : 0 ≤ m := by
    have hp : 0 < S := r.pos
    have h1 := (abs_nonneg _).trans herr
    rw [mul_assoc] at h1
    exact nonneg_of_mul_nonneg_left h1 (by positivity)
  exact r.within' (by norm_num; linarith) (by linarith)

/-- Noise of TianQin. -/
theorem C89_tianqin_noise (A : Arith) {f L cn cnh m S : ℝ} {t : psd.TimeArg} {c : psd.NoiseArg}
    (hf : 1e-7 ≤ f ∧ f ≤ 10 ^ 7) (hL : 1 ≤ L ∧ L ≤ 10 ^ 11) (hcn : psd.noise_quantity f t c = .ok cn) (hcn0 : 0 ≤ cn)
    (hcn1 : cn ≤ 10 ^ 200) (hm : m ≤ 10 ^ 5) (herr : |cnh - cn| ≤ m * 2 ^ (-52 : ℤ) * S)
    (hS : psd.tianqin_psd KK f L t c = .ok (S : WithTop ℝ)) :
    WithinUlps (103 + 11 / 10 * m) (fl.tianqin_psd A KK f L cnh) S := by
  have hI := ulp_tianqin (A := A) (f := f) (L := L) (le_trans (by norm_num) hf.1) hf.2 (le_trans (by norm_num) hL.1) hL.2
  unfold psd.tianqin_psd at hS
  rw [hcn] at hS
  injection hS with hS
  have hv := (WithTop.coe_injective hS).symm
  have hr : |log S| ≤ 680 := by
    rw [hv]
    exact (log_add_confusion hI.pos hI.mag hcn0 (hcn1.trans (ten_pow_le_exp 200 (by norm_num)))).trans (by norm_num)
  have r := within_add_confusion (A := A) hI (by norm_num) (hm.trans (by norm_num)) hv hcn0 hr herr
  have hm0 : 0 ≤ m := by
    have hp : 0 < S := r.pos
    have h1 := (abs_nonneg _).trans herr
    rw [mul_assoc] at h1
    exact nonneg_of_mul_nonneg_left h1 (by positivity)
  exact r.within' (by norm_num; linarith) (by linarith)

/-- Noise of DECIGO. -/
theorem C89_decigo_noise (A : Arith) {f cn cnh m S f_low f_high : ℝ} {t : psd.TimeArg} {c : psd.NoiseArg}
    (hf : 1e-3 ≤ f ∧ f ≤ 10 ^ 3) (hb : f_low ≤ f ∧ f ≤ f_high) (hcn : psd.noise_bare f t c = .ok cn) (hcn0 : 0 ≤ cn)
    (hcn1 : cn ≤ 10 ^ 200) (hm : m ≤ 10 ^ 5) (herr : |cnh - cn| ≤ m * 2 ^ (-52 : ℤ) * S)
    (hS : psd.decigo_psd f t c f_low f_high = .ok (S : WithTop ℝ)) :
    WithinUlps (44 + 11 / 10 * m) (fl.decigo_psd A f cnh) S := by
  have hI := ulp_decigo (A := A) (f := f) (le_trans (by norm_num) hf.1) hf.2
  unfold psd.decigo_psd at hS
  simp only [ge_iff_le, hb, and_self, if_true] at hS
  rw [hcn] at hS
  injection hS with hS
  have hv := (WithTop.coe_injective hS).symm
  have hr : |log S| ≤ 680 := by
    rw [hv]
    exact (log_add_confusion hI.pos hI.mag hcn0 (hcn1.trans (ten_pow_le_exp 200 (by norm_num)))).trans (by norm_num)
  have r := within_add_confusion (A := A) hI (by norm_num) (hm.trans (by norm_num)) hv hcn0 hr herr
  have hm0 : 0 ≤ m := by
    have hp : 0 < S := r.pos
    have h1 := (abs_nonneg _).trans herr
    rw [mul_assoc] at h1
    exact nonneg_of_mul_nonneg_left h1 (by positivity)
  exact r.within' (by norm_num; linarith) (by linarith)

theorem lisa_mag {f L : ℝ} (hf : 1e-7 ≤ f) (hf' : f ≤ 2) (hL : 10 ^ 6 ≤ L) (hL' : L ≤ 10 ^ 11) :
    1 / 10 ^ 50 ≤ (1 / L ^ 2 * (psd.lisa_Poms f + 2 * (1 + cos (f / ((KK).c / (2 * π * L))) ^ 2) * psd.lisa_Pacc f / (2 * π * f) ^ 4))
        / psd.approximate_response_function f ((KK).c / (2 * π * L)) ∧
    (1 / L ^ 2 * (psd.lisa_Poms f + 2 * (1 + cos (f / ((KK).c / (2 * π * L))) ^ 2) * psd.lisa_Pacc f / (2 * π * f) ^ 4))
        / psd.approximate_response_function f ((KK).c / (2 * π * L)) ≤ 10 ^ 50 := by
  have hf0 : 0 < f := lt_of_lt_of_le (by norm_num) hf
  have hL0 : 0 < L := lt_of_lt_of_le (by norm_num) hL
  have hxb := lisa_phase_le hf' (le_trans (by norm_num) hL) hL'
  have hx0 : 0 < f / ((KK).c / (2 * π * L)) := by
    have := (KK).c_pos; have := pi_pos
    positivity
  unfold psd.approximate_response_function psd.lisa_Poms psd.lisa_Pacc
  generalize f / ((KK).c / (2 * π * L)) = x at *
  have hi1 : 1 / L ^ 2 ≤ 1 := by
    rw [div_le_one (by positivity)]
    have : (1 : ℝ) ≤ L := le_trans (by norm_num) hL
    nlinarith
  have hi2 : 1 / 10 ^ 22 ≤ 1 / L ^ 2 := by
    apply one_div_le_one_div_of_le (by positivity)
    calc L ^ 2 ≤ (10 ^ 11) ^ 2 := by gcongr
      _ = _ := by norm_num
  have hq : 2e-3 / f ≤ 2e4 := by rw [div_le_iff₀ hf0]; linarith
  have hq0 : 0 < 2e-3 / f := by positivity
  have hr : 0.4e-3 / f ≤ 4e3 := by rw [div_le_iff₀ hf0]; linarith
  have hr0 : 0 < 0.4e-3 / f := by positivity
  have hs : f / 8e-3 ≤ 250 := by rw [div_le_iff₀ (by norm_num)]; linarith
  have hs0 : 0 < f / 8e-3 := by positivity
  have hP1 : (1.5e-11 : ℝ) ^ 2 * (1 + (2e-3 / f) ^ 4) ≤ 1 := by
    calc _ ≤ (1.5e-11 : ℝ) ^ 2 * (1 + 2e4 ^ 4) := by gcongr
      _ ≤ 1 := by norm_num
  have hP2 : (1.5e-11 : ℝ) ^ 2 ≤ 1.5e-11 ^ 2 * (1 + (2e-3 / f) ^ 4) := by
    have : 0 ≤ (2e-3 / f) ^ 4 := by positivity
    nlinarith
  have hA : (3e-15 : ℝ) ^ 2 * (1 + (0.4e-3 / f) ^ 2) * (1 + (f / 8e-3) ^ 4) ≤ 1 := by
    calc _ ≤ (3e-15 : ℝ) ^ 2 * (1 + 4e3 ^ 2) * (1 + 250 ^ 4) := by gcongr
      _ ≤ 1 := by norm_num
  have hA0 : 0 ≤ (3e-15 : ℝ) ^ 2 * (1 + (0.4e-3 / f) ^ 2) * (1 + (f / 8e-3) ^ 4) := by positivity
  have hw : 1 / 10 ^ 26 ≤ (2 * π * f) ^ 4 := by
    calc (1 / 10 ^ 26 : ℝ) ≤ (2 * 2 * 1e-7) ^ 4 := by norm_num
      _ ≤ (2 * π * f) ^ 4 := by
        have := two_le_pi
        gcongr
  have hw0 : 0 < (2 * π * f) ^ 4 := lt_of_lt_of_le (by norm_num) hw
  have hc : 2 * (1 + cos x ^ 2) ≤ 4 := by nlinarith [cos_sq_le_one x]
  have hc0 : 0 ≤ 2 * (1 + cos x ^ 2) := by positivity
  have hT0 : 0 ≤ 2 * (1 + cos x ^ 2) * ((3e-15 : ℝ) ^ 2 * (1 + (0.4e-3 / f) ^ 2) * (1 + (f / 8e-3) ^ 4)) / (2 * π * f) ^ 4 := by
    apply div_nonneg (mul_nonneg hc0 hA0) hw0.le
  have hT : 2 * (1 + cos x ^ 2) * ((3e-15 : ℝ) ^ 2 * (1 + (0.4e-3 / f) ^ 2) * (1 + (f / 8e-3) ^ 4)) / (2 * π * f) ^ 4 ≤ 4 * 10 ^ 26 := by
    rw [div_le_iff₀ hw0]
    have h1 := mul_le_mul hc hA hA0 (by norm_num)
    have h2 : (4 : ℝ) * 10 ^ 26 * (1 / 10 ^ 26) ≤ 4 * 10 ^ 26 * (2 * π * f) ^ 4 := mul_le_mul_of_nonneg_left hw (by norm_num)
    refine h1.trans (le_trans (by norm_num) h2)
  generalize 2 * (1 + cos x ^ 2) * ((3e-15 : ℝ) ^ 2 * (1 + (0.4e-3 / f) ^ 2) * (1 + (f / 8e-3) ^ 4)) / (2 * π * f) ^ 4 = T at *
  generalize (1.5e-11 : ℝ) ^ 2 * (1 + (2e-3 / f) ^ 4) = P at *
  generalize 1 / L ^ 2 = i at *
  have hR0 : 0 < 1 + 0.6 * x ^ 2 := by positivity
  have hR1 : 1 ≤ 1 + 0.6 * x ^ 2 := by nlinarith
  have hR2 : 1 + 0.6 * x ^ 2 ≤ 10 ^ 8 := by nlinarith
  rw [div_div_eq_mul_div]
  constructor
  · rw [le_div_iff₀ (by norm_num)]
    have h1 : (1 / 10 ^ 22 : ℝ) * 1.5e-11 ^ 2 ≤ i * (P + T) := mul_le_mul hi2 (by linarith) (by norm_num) (le_trans (by norm_num) hi2)
    have h2 := mul_le_mul h1 hR1 (by norm_num) (le_trans (by norm_num) h1)
    refine le_trans (by norm_num) h2
  · rw [div_le_iff₀ (by norm_num)]
    have h1 : i * (P + T) ≤ 1 * (1 + 4 * 10 ^ 26) := mul_le_mul hi1 (by linarith) (by linarith [show (0 : ℝ) ≤ 1.5e-11 ^ 2 by positivity]) (by norm_num)
    have h2 := mul_le_mul h1 hR2 hR0.le (by norm_num)
    refine h2.trans (by norm_num)

/-- The constant in the strain of a source with chirp mass in solar masses and distance in kpc. -/
theorem strain_mag {m_c f d : ℝ} (hm : 1 / 10 ^ 10 ≤ m_c ∧ m_c ≤ 10 ^ 10) (hf : 1 / 10 ^ 8 ≤ f ∧ f ≤ 1) (hd : 1 / 10 ^ 10 ≤ d ∧ d ≤ 10 ^ 10) :
    |log (h0circ m_c f d * (units.Msun.scale ^ (5 / 3 : ℝ) / units.kpc.scale))| ≤ 130 := by
  have hM : units.Msun.scale = 1.988409870698051e30 := rfl
  have hk : units.kpc.scale = 3.0856775814913674e19 := rfl
  have hm0 : 0 < m_c := lt_of_lt_of_le (by norm_num) hm.1
  have hf0 : 0 < f := lt_of_lt_of_le (by norm_num) hf.1
  have hd0 : 0 < d := lt_of_lt_of_le (by norm_num) hd.1
  have hMp : 0 < units.Msun.scale := units.Msun.pos
  have hkp : 0 < units.kpc.scale := units.kpc.pos
  have hG := (KK).G_pos
  have hc := (KK).c_pos
  have hp := pi_pos
  have lm : |log m_c| ≤ 10 * (23026 / 10000) := log_ten_pow 10 hm.1 hm.2
  have lf : |log f| ≤ 8 * (23026 / 10000) := log_ten_pow 8 hf.1 (hf.2.trans (by norm_num))
  have ld : |log d| ≤ 10 * (23026 / 10000) := log_ten_pow 10 hd.1 hd.2
  have h10 := log_ten_le
  have h10' : 23 / 10 ≤ log 10 := by
    rw [log_ten_eq]; linarith [log_two_gt_d9, log_five_gt_d9]
  have lpi : 0 ≤ log π := log_nonneg (by linarith [two_le_pi])
  have lpi' : log π ≤ 14 / 10 := log_le_of_le_four hp pi_le_four
  have lG1 : 20 * log 10 ≤ log ((KK).G * units.Msun.scale) := by
    have := log_le_log (by norm_num : (0 : ℝ) < 10 ^ 20) (by rw [hM]; norm_num [Consts.codata2018] : (10 : ℝ) ^ 20 ≤ (KK).G * units.Msun.scale)
    rw [log_pow] at this; norm_num at this ⊢; linarith
  have lG2 : log ((KK).G * units.Msun.scale) ≤ 20 * log 10 + log 2 := by
    have := log_le_log (by positivity) (by rw [hM]; norm_num [Consts.codata2018] : (KK).G * units.Msun.scale ≤ 10 ^ 20 * 2)
    rw [log_mul (x := 10 ^ 20) (by norm_num) (by norm_num), log_pow] at this; norm_num at this ⊢; linarith
  have lc1 : 28 * log 2 ≤ log (KK).c := by
    have := log_le_log (by norm_num : (0 : ℝ) < 2 ^ 28) (by norm_num [Consts.codata2018] : (2 : ℝ) ^ 28 ≤ (KK).c)
    rw [log_pow] at this; norm_num at this ⊢; linarith
  have lc2 : log (KK).c ≤ 29 * log 2 := by
    have := log_le_log hc (by norm_num [Consts.codata2018] : (KK).c ≤ 2 ^ 29)
    rw [log_pow] at this; norm_num at this ⊢; linarith
  have lk1 : 19 * log 10 ≤ log units.kpc.scale := by
    have := log_le_log (by norm_num : (0 : ℝ) < 10 ^ 19) (by rw [hk]; norm_num : (10 : ℝ) ^ 19 ≤ units.kpc.scale)
    rw [log_pow] at this; norm_num at this ⊢; linarith
  have lk2 : log units.kpc.scale ≤ 20 * log 10 := by
    have := log_le_log hkp (by rw [hk]; norm_num : units.kpc.scale ≤ 10 ^ 20)
    rw [log_pow] at this; norm_num at this ⊢; linarith
  have e : log (h0circ m_c f d * (units.Msun.scale ^ (5 / 3 : ℝ) / units.kpc.scale)) =
      0.5 * (28 / 3 * log 2 - log 5) + 5 / 3 * log ((KK).G * units.Msun.scale) - 4 * log (KK).c + 5 / 3 * log m_c
        + 2 / 3 * (log π + log f) - log d - log 2 - log units.kpc.scale := by
    unfold h0circ
    rw [one_rpow, show ∀ a b c d e f g h : ℝ, a * b / c * d * e / f * (1 / 2) * (g / h) = a * (b * g) / c * d * e / f / 2 / h by intros; ring,
      ← mul_rpow hG.le hMp.le]
    have hX : 0 < (KK).G * units.Msun.scale := by positivity
    generalize (KK).G * units.Msun.scale = X at *
    rw [log_div (by positivity) (by positivity), log_div (by positivity) (by norm_num), log_div (by positivity) hd0.ne',
      log_mul (by positivity) (by positivity), log_mul (by positivity) (by positivity), log_div (by positivity) (by positivity),
      log_mul (by positivity) (by positivity), log_rpow (by positivity), log_rpow hX, log_rpow hm0, log_rpow (by positivity),
      log_div (by positivity) (by norm_num), log_rpow (by norm_num), log_pow, log_mul hp.ne' hf0.ne']
    push_cast; ring
  rw [e]
  have l2 := log_two_lt_d9
  have l2' := log_two_gt_d9
  have l5 := log_five_lt_d9
  have l5' := log_five_gt_d9
  rw [abs_le] at *
  constructor <;> linarith [lm.1, lm.2, lf.1, lf.2, ld.1, ld.2]

theorem rnd_double (A : Arith) {f : ℝ} (h : IsDouble f) (hf : |f| ≤ 1) : A.mul 2 f = 2 * f := by
  obtain ⟨m, e, hm, he, he', rfl⟩ := h
  by_cases h0 : m = 0
  · simp [h0, Arith.mul, A.rnd_zero]
  have he2 : e + 1 ≤ 971 := by
    by_contra hc
    have hm1 : (1 : ℝ) ≤ |(m : ℝ)| := by exact_mod_cast Int.one_le_abs h0
    have : (2 : ℝ) ^ (1 : ℤ) ≤ 2 ^ e := zpow_le_zpow_right₀ (by norm_num) (by omega)
    rw [abs_mul, abs_of_pos (by positivity : (0 : ℝ) < 2 ^ e)] at hf
    norm_num at this
    nlinarith
  refine A.rnd_self ⟨m, e + 1, hm, by omega, he2, ?_⟩ ?_
  · rw [zpow_add₀ (by norm_num)]; ring
  · rw [abs_mul, abs_of_pos (by norm_num : (0 : ℝ) < 2)]
    exact le_trans (by linarith) (le_trans (by norm_num : (2 : ℝ) ≤ 2 ^ 1) (pow_le_pow_right₀ (by norm_num) (by norm_num)))

/-- The signal-to-noise ratio of a circular stationary source in LISA, from its chirp mass in solar masses, its orbital
frequency in Hz, its distance in kpc and an observation time in years: strain, noise and their combination together lose
less than `330 + 17 * f * L * 2 * pi / c` units (for the arm length of LISA at most 2e-12 in the band), plus the error of the
confusion noise. -/
theorem C89_snr (A : Arith) (B : BesselAtZero) (C : Cosine) {env : psd.Env} {k k' m_c f d T L cn cnh m S ρ : ℝ} {c : psd.NoiseArg}
    (hm : 1 / 10 ^ 10 ≤ m_c ∧ m_c ≤ 10 ^ 10) (hf : 1e-7 ≤ 2 * f ∧ 2 * f ≤ 2) (hff : IsDouble f)
    (hd : 1 / 10 ^ 10 ≤ d ∧ d ≤ 10 ^ 10) (hT : 1 / 10 ^ 10 ≤ T ∧ T ≤ 10 ^ 10) (hL : 10 ^ 6 ≤ L ∧ L ≤ 10 ^ 11)
    (hk : WithinUlps 4 k (units.Msun.scale ^ (5 / 3 : ℝ) / units.kpc.scale)) (hk' : WithinUlps 4 k' (units.yr.scale ^ (1 / 2 : ℝ)))
    (hcn : psd.noise_bare (2 * f) (.val (T * units.yr.scale)) (c.resolve "karnesis21") = .ok cn) (hcn0 : 0 ≤ cn) (hcn1 : cn ≤ 10 ^ 50)
    (hm' : m ≤ 10 ^ 5)
    (hS : psd.power_spectral_density KK env (2 * f) "LISA" none (.val (T * units.yr.scale)) (.val L) true c = .ok (S : WithTop ℝ))
    (herr : |cnh - cn| ≤ m * 2 ^ (-52 : ℤ) * S)
    (hρ : snr.snr_circ_stationary ⟨KK, env, ⟨"LISA", none, .val L, true, c⟩, none, none, T * units.yr.scale⟩
      [⟨m_c * units.Msun.scale, f, d * units.kpc.scale, {}⟩] = .ok [some ρ]) :
    WithinUlps (330 + 17 * (2 * π * f * L / (KK).c) + 6 / 10 * m)
      (fl.snr_circ_stationary A KK B k k' m_c f d T (fl.lisa_psd A KK C (A.mul 2 f) L cnh)) ρ := by
  have hf0 : 0 < f := by linarith [show (0 : ℝ) < 1e-7 by norm_num, hf.1]
  have hL0 : 0 < L := lt_of_lt_of_le (by norm_num) hL.1
  rw [rnd_double A hff (by rw [abs_of_pos hf0]; linarith [hf.2])]
  have hM : units.Msun.scale = 1.988409870698051e30 := rfl
  have hkp : units.kpc.scale = 3.0856775814913674e19 := rfl
  have hyr : units.yr.scale = 31557600 := rfl
  have hMp : 0 < units.Msun.scale := units.Msun.pos
  have hkpc : 0 < units.kpc.scale := units.kpc.pos
  have hy0 : 0 < units.yr.scale := units.yr.pos
  -- the noise
  have hv := lisa_value (t := .val (T * units.yr.scale)) (c := c.resolve "karnesis21") (L := L) ⟨hf.1, hf.2.trans (by norm_num)⟩ hcn hS
  have hmag := lisa_mag hf.1 hf.2 hL.1 hL.2
  have hI := ulp_lisa (A := A) C (f := 2 * f) (L := L) (le_trans (by norm_num) hf.1) hf.2 (le_trans (by norm_num) hL.1) hL.2
  have hx : 2 * f / ((KK).c / (2 * π * L)) = 2 * (2 * π * f * L / (KK).c) := by rw [div_div_eq_mul_div]; ring
  have hxb := lisa_phase_le hf.2 (le_trans (by norm_num) hL.1) hL.2
  have hx0 : 0 < 2 * f / ((KK).c / (2 * π * L)) := by
    have := (KK).c_pos; have := pi_pos
    positivity
  have hlI := log_ten_pow 50 hmag.1 hmag.2
  have hlS : |log S| ≤ 120 := by
    rw [hv]
    exact (log_add_confusion hI.pos (hlI.trans (by norm_num : _ ≤ (119 : ℝ))) hcn0 (hcn1.trans (ten_pow_le_exp 50 (by norm_num)))).trans (by norm_num)
  have hS' := within_add_confusion (A := A) hI (by norm_num; linarith) (hm'.trans (by norm_num)) hv hcn0 (hlS.trans (by norm_num)) herr
  have hS2 := hS'.remag hlS
  have hS0 := hS2.pos
  have hm0 : 0 ≤ m := by
    have h1 := (abs_nonneg _).trans herr
    rw [mul_assoc] at h1
    exact nonneg_of_mul_nonneg_left h1 (by positivity)
  -- the conversions
  have hr1 : 1 ≤ units.Msun.scale ^ (5 / 3 : ℝ) := one_le_rpow (by rw [hM]; norm_num) (by norm_num)
  have hr2 : units.Msun.scale ^ (5 / 3 : ℝ) ≤ units.Msun.scale ^ 2 := by
    rw [← rpow_natCast]
    exact rpow_le_rpow_of_exponent_le (by rw [hM]; norm_num) (by norm_num)
  have c₁ : Conversion k (units.Msun.scale ^ (5 / 3 : ℝ) / units.kpc.scale) := by
    refine ⟨hk, ?_, ?_⟩
    · rw [hkp, le_div_iff₀ (by norm_num)]; exact le_trans (by norm_num) hr1
    · rw [hkp, div_le_iff₀ (by norm_num)]; refine hr2.trans ?_; rw [hM]; norm_num
  have hy1 : 1 ≤ units.yr.scale ^ (1 / 2 : ℝ) := one_le_rpow (by rw [hyr]; norm_num) (by norm_num)
  have hy2 : units.yr.scale ^ (1 / 2 : ℝ) ≤ units.yr.scale := by
    calc _ ≤ units.yr.scale ^ (1 : ℝ) := rpow_le_rpow_of_exponent_le (by rw [hyr]; norm_num) (by norm_num)
      _ = _ := rpow_one _
  have c₂ : Conversion k' (units.yr.scale ^ (1 / 2 : ℝ)) :=
    ⟨hk', le_trans (by norm_num) hy1, hy2.trans (by rw [hyr]; norm_num)⟩
  have hfs : 1 / 10 ^ 8 ≤ f ∧ f ≤ 1 := ⟨by have := hf.1; norm_num at this ⊢; linarith, by linarith [hf.2]⟩
  have hmg := strain_mag hm hfs hd
  have r := ulp_snr (A := A) B (m_c := m_c) (f := f) (d := d) (T := T)
    ⟨le_trans (by norm_num) hm.1, hm.2.trans (by norm_num)⟩ ⟨le_trans (by norm_num) hfs.1, hfs.2.trans (by norm_num)⟩
    ⟨le_trans (by norm_num) hd.1, hd.2.trans (by norm_num)⟩ (ulp_conversion c₁) (ulp_conversion c₂) hmg
    ⟨le_trans (by norm_num) hT.1, hT.2.trans (by norm_num)⟩ hS2 (by norm_num; linarith)
  -- the exact value
  have hexact : ρ = ((h0circ m_c f d * (units.Msun.scale ^ (5 / 3 : ℝ) / units.kpc.scale)) ^ 2 * T / S) ^ (0.5 : ℝ)
      * units.yr.scale ^ (1 / 2 : ℝ) := by
    have hh : h0circ (m_c * units.Msun.scale) f (d * units.kpc.scale)
        = h0circ m_c f d * (units.Msun.scale ^ (5 / 3 : ℝ) / units.kpc.scale) := by
      unfold h0circ
      rw [mul_rpow (lt_of_lt_of_le (by norm_num) hm.1).le hMp.le]
      have : d ≠ 0 := (lt_of_lt_of_le (by norm_num) hd.1).ne'
      have := hkpc.ne'
      have := (KK).c_pos.ne'
      field_simp
    have hT0 : 0 < T := lt_of_lt_of_le (by norm_num) hT.1
    have hev : snr.snr_circ_stationary ⟨KK, env, ⟨"LISA", none, .val L, true, c⟩, none, none, T * units.yr.scale⟩
      [⟨m_c * units.Msun.scale, f, d * units.kpc.scale, {}⟩] = .ok [snr.sqrt? ((1 * strain.h_0_val KK none (m_c * units.Msun.scale)
        (d * units.kpc.scale) f 0 2) ^ 2 * (T * units.yr.scale) / S)] := by
      unfold snr.snr_circ_stationary
      have hn : [(⟨m_c * units.Msun.scale, f, d * units.kpc.scale, {}⟩ : snr.CircSrc)].mapM (fun s =>
          snr.noise ⟨KK, env, ⟨"LISA", none, .val L, true, c⟩, none, none, T * units.yr.scale⟩ (2 * s.f_orb)) = .ok [(S : WithTop ℝ)] := by
        simp only [List.mapM_cons, List.mapM_nil, snr.noise]
        rw [hS]
        rfl
      rw [hn]
      rfl
    rw [hev, one_mul, h0circ_eq, hh] at hρ
    unfold snr.sqrt? at hρ
    rw [if_neg (not_lt.2 (by positivity))] at hρ
    injection hρ with hρ
    simp only [List.cons.injEq, Option.some.injEq, and_true] at hρ
    rw [← hρ, show (1 / 2 : ℝ) = 0.5 by norm_num, ← mul_rpow (by positivity) hy0.le]
    congr 1; ring
  rw [hexact]
  rw [hx] at r hxb hx0
  have hm5 : m ≤ 100000 := hm'.trans (by norm_num)
  exact r.within' (by norm_num; linarith) (by linarith)

/-- Functions as accurate as assumed exist. -/
noncomputable def exactCosine : Cosine := ⟨Real.cos, fun x _ => by simp⟩

noncomputable def exactBessel : BesselAtZero := ⟨utils.jv, by simp [jv_zero], fun k hk => by simp [jv_zero, hk.ne']⟩

/-- Non-vacuity of C89: ten solar masses at 8 kpc with an orbital frequency of 2^-9 Hz, observed by LISA for four years
without confusion noise. The computed signal-to-noise ratio is correct to 13 digits. -/
example {k k' : ℝ} (env : psd.Env) (hk : WithinUlps 4 k (units.Msun.scale ^ (5 / 3 : ℝ) / units.kpc.scale))
    (hk' : WithinUlps 4 k' (units.yr.scale ^ (1 / 2 : ℝ))) :
    ∃ ρ, snr.snr_circ_stationary ⟨KK, env, ⟨"LISA", none, .val 2.5e9, true, .none⟩, none, none, 4 * units.yr.scale⟩
        [⟨10 * units.Msun.scale, 1 / 2 ^ 9, 8 * units.kpc.scale, {}⟩] = .ok [some ρ] ∧
      |fl.snr_circ_stationary Arith.correct KK exactBessel k k' 10 (1 / 2 ^ 9) 8 4
        (fl.lisa_psd Arith.correct KK exactCosine (Arith.correct.mul 2 (1 / 2 ^ 9)) 2.5e9 0) - ρ| ≤ 1e-13 * |ρ| := by
  have hff : IsDouble (1 / 2 ^ 9) := ⟨1, -9, by norm_num, by norm_num, by norm_num, by norm_num⟩
  have hcn : psd.noise_bare (2 * (1 / 2 ^ 9)) (.val (4 * units.yr.scale)) (psd.NoiseArg.none.resolve "karnesis21") = .ok 0 := rfl
  obtain ⟨S, hS⟩ : ∃ S : ℝ, psd.power_spectral_density KK env (2 * (1 / 2 ^ 9)) "LISA" none (.val (4 * units.yr.scale)) (.val 2.5e9) true
      .none = .ok (S : WithTop ℝ) := by
    have hb : (1e-7 : ℝ) ≤ 2 * (1 / 2 ^ 9) ∧ (2 * (1 / 2 ^ 9) : ℝ) ≤ 2e0 := by norm_num
    unfold psd.power_spectral_density psd.lisa_psd
    simp only [ge_iff_le, hb, and_self, if_true, psd.lisa_response]
    exact ⟨_, rfl⟩
  have hv := lisa_value (t := .val (4 * units.yr.scale)) (L := 2.5e9) (c := .none) (by norm_num) hcn hS
  have hp := (lisa_mag (f := 2 * (1 / 2 ^ 9)) (L := 2.5e9) (by norm_num) (by norm_num) (by norm_num) (by norm_num)).1
  have hS0 : 0 < S := by rw [hv, add_zero]; exact lt_of_lt_of_le (by norm_num) hp
  obtain ⟨ρ, hρ⟩ : ∃ ρ, snr.snr_circ_stationary ⟨KK, env, ⟨"LISA", none, .val 2.5e9, true, .none⟩, none, none, 4 * units.yr.scale⟩
      [⟨10 * units.Msun.scale, 1 / 2 ^ 9, 8 * units.kpc.scale, {}⟩] = .ok [some ρ] := by
    rw [snr.snr_circ_stationary_eq _ _ (N := fun _ => (S : WithTop ℝ)) (μ := fun _ => 1)
      (by simpa [snr.noise] using hS) (by simp [strain.modulation])]
    have hd : 0 ≤ (1 * strain.h_0_val KK none (10 * units.Msun.scale) (8 * units.kpc.scale) (1 / 2 ^ 9) 0 2) ^ 2
        * (4 * units.yr.scale) / S := by
      have := units.yr.pos
      positivity
    have hs : ∀ x : ℝ, 0 ≤ x → snr.sqrt? x = some (x ^ (0.5 : ℝ)) := fun x hx => if_neg (not_lt.2 hx)
    exact ⟨_, congrArg (fun y => Except.ok [y]) (hs _ hd)⟩
  refine ⟨ρ, hρ, ?_⟩
  have h := C89_snr Arith.correct exactBessel exactCosine (m := 0) (cnh := 0) (by norm_num) (by norm_num) hff (by norm_num) (by norm_num)
    (by norm_num) hk hk' hcn (le_refl _) (by norm_num) (by norm_num) hS (by simp) hρ
  unfold WithinUlps at h
  refine h.trans ?_
  apply mul_le_mul_of_nonneg_right _ (abs_nonneg _)
  have : 2 * π * (1 / 2 ^ 9) * 2.5e9 / (KK).c ≤ 1 := by
    rw [div_le_one (KK).c_pos]
    norm_num [Consts.codata2018]
    linarith [pi_le_four]
  norm_num at this ⊢
  linarith

end Legwork.Props
