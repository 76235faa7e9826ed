import Verif.Lemmas.LisaSlope
import Verif.Lemmas.PolyCheck
import Mathlib.Analysis.Complex.ExponentialBounds
import Mathlib.Analysis.Convex.SpecificFunctions.Basic

/-!
# The slope of the confusion noise of Karnesis et al.

Where the confusion noise falls steeply, it does not matter any more compared with the noise of the instrument.
-/

namespace Legwork.psd

open Real Legwork.Spec Set HasSlope Legwork.PolyCheck

variable {f : ℝ}

/-- A lower bound of the noise of LISA without confusion noise. -/
noncomputable def floorJ (f : ℝ) : ℝ := 1.2e-40 + 8e-51 / f ^ 4

theorem floorJ_le {L fs : ℝ} (hL : 0 < L) (hL' : L ≤ 2.5e9) (hfs : 0 < fs) (hf : 0 < f) : floorJ f ≤ lisa_J L fs f := by
  have hpi : (2 * π * f) ^ 4 ≤ 1559 * f ^ 4 := by
    have h1 : 2 * π ≤ 6.2832 := by have := pi_lt_d4; linarith
    have h2 : (2 * π) ^ 4 ≤ 6.2832 ^ 4 := by gcongr
    have h3 : (6.2832 : ℝ) ^ 4 ≤ 1559 := by norm_num
    rw [mul_pow]
    exact mul_le_mul_of_nonneg_right (h2.trans h3) (by positivity)
  have hQ : 9e-30 / (1559 * f ^ 4) ≤ lisa_Q f := by
    unfold lisa_Q lisa_Pacc
    have e : (9e-30 : ℝ) ≤ 3e-15 ^ 2 * (1 + (0.4e-3 / f) ^ 2) * (1 + (f / 8e-3) ^ 4) := by
      have a : (0 : ℝ) ≤ (0.4e-3 / f) ^ 2 := by positivity
      have b : (0 : ℝ) ≤ (f / 8e-3) ^ 4 := by positivity
      have c : (1 : ℝ) ≤ (1 + (0.4e-3 / f) ^ 2) * (1 + (f / 8e-3) ^ 4) := by nlinarith
      rw [mul_assoc]
      linarith
    exact div_le_div₀ (by positivity) e (by positivity) hpi
  have hP : lisa_Poms f = 2.25e-22 + 3.6e-33 / f ^ 4 := by
    unfold lisa_Poms
    rw [div_pow]
    ring
  have hM : 2.25e-22 + 1.51e-32 / f ^ 4 ≤ lisa_M fs f := by
    unfold lisa_M
    have hQ0 := (slope_Q hf).pos
    have h2 : 2 * lisa_Q f ≤ 2 * (1 + cos (f / fs) ^ 2) * lisa_Q f := by
      nlinarith [mul_nonneg hQ0.le (sq_nonneg (cos (f / fs)))]
    have h3 : 1.15e-32 / f ^ 4 ≤ 2 * (9e-30 / (1559 * f ^ 4)) := by
      rw [mul_comm (1559 : ℝ), ← div_div, ← mul_div_assoc, mul_div_assoc', ← div_mul_eq_mul_div₀]
      have hf4 : 0 < f ^ 4 := by positivity
      rw [div_le_iff₀ hf4]
      field_simp
      norm_num
    have h4 : (1.51e-32 : ℝ) / f ^ 4 = 3.6e-33 / f ^ 4 + 1.15e-32 / f ^ 4 := by ring
    rw [hP, h4]
    linarith
  have hM0 : 0 < lisa_M fs f := lt_of_lt_of_le (by positivity) hM
  have hLL : (1.6e-19 : ℝ) ≤ 1 / L ^ 2 := by
    rw [le_div_iff₀ (by positivity)]
    have : L ^ 2 ≤ 2.5e9 ^ 2 := by gcongr
    linarith
  have e1 : 10 / 3 ≤ 1 / approximate_response_function f fs := by
    unfold approximate_response_function
    rw [one_div_div, le_div_iff₀ (by norm_num)]
    have : 0 ≤ 0.6 * (f / fs) ^ 2 := by positivity
    linarith
  calc floorJ f ≤ 1.6e-19 * (2.25e-22 + 1.51e-32 / f ^ 4) * (10 / 3) := by
        unfold floorJ
        have hf4 : 0 < f ^ 4 := by positivity
        have : (8e-51 : ℝ) / f ^ 4 ≤ 1.6e-19 * (10 / 3) * 1.51e-32 / f ^ 4 := by
          gcongr
          norm_num
        calc (1.2e-40 : ℝ) + 8e-51 / f ^ 4 ≤ 1.2e-40 + 1.6e-19 * (10 / 3) * 1.51e-32 / f ^ 4 := by gcongr
          _ = _ := by ring
    _ ≤ 1 / L ^ 2 * lisa_M fs f * (1 / approximate_response_function f fs) := by gcongr
    _ = lisa_J L fs f := by
        unfold lisa_J
        ring

/-- A power is below its tangent. -/
theorem rpow_le_tangent {x x₀ p : ℝ} (hx : 0 < x) (h0 : 0 < x₀) (hp : 0 ≤ p) (hp1 : p ≤ 1) :
    x ^ p ≤ x₀ ^ p * (1 + p * (x / x₀ - 1)) := by
  have h := _root_.rpow_one_add_le_one_add_mul_self (s := x / x₀ - 1) (p := p) (by have := div_pos hx h0; linarith) hp hp1
  have e : x = x₀ * (1 + (x / x₀ - 1)) := by field_simp; ring
  have hnn : 0 ≤ 1 + (x / x₀ - 1) := by have := div_pos hx h0; linarith
  calc x ^ p = x₀ ^ p * (1 + (x / x₀ - 1)) ^ p := by
        rw [← Real.mul_rpow h0.le hnn, ← e]
    _ ≤ _ := mul_le_mul_of_nonneg_left h (by positivity)

theorem steep_exp {u : ℝ} (hu : 0 ≤ u) : (1.56 * u - 4) * exp (-u) ≤ 0.0472 := by
  have h1 : (33.1 : ℝ) ≤ exp 3.5 := by
    have h2 : (33.1 : ℝ) ^ 2 ≤ exp 3.5 ^ 2 := by
      rw [← Real.exp_nat_mul]
      have : ((2 : ℕ) : ℝ) * 3.5 = ((7 : ℕ) : ℝ) * 1 := by norm_num
      rw [this, Real.exp_nat_mul]
      have h3 : (2.718 : ℝ) ^ 7 ≤ exp 1 ^ 7 := by
        have := Real.exp_one_gt_d9
        gcongr
        linarith
      exact le_trans (by norm_num) h3
    exact le_of_sq_le_sq h2 (exp_pos _).le
  have h2 : 33.1 * (u - 2.5) ≤ exp u := by
    rcases le_or_gt u 2.5 with h | h
    · exact le_trans (by nlinarith) (exp_pos u).le
    · have := add_one_le_exp (u - 3.5)
      calc 33.1 * (u - 2.5) ≤ exp 3.5 * exp (u - 3.5) := by
            apply mul_le_mul h1 (by linarith) (by linarith) (exp_pos _).le
        _ = exp u := by rw [← exp_add]; ring_nf
  rw [exp_neg, ← div_eq_mul_inv, div_le_iff₀ (exp_pos u)]
  nlinarith

theorem steep_one (hf : 0 < f) {u : ℝ} (hu : 0 ≤ u) :
    1.15e-44 * f ^ (-7 / 3 : ℝ) * ((1.56 * u - 4) * exp (-u)) ≤ 2.2 * floorJ f := by
  have h1 : f ^ (-7 / 3 : ℝ) ≤ 0.1372⁻¹ ^ 7 * (1 + 7 / 12 * ((f ^ 4)⁻¹ / 0.1372⁻¹ ^ 12 - 1)) := by
    have := rpow_le_tangent (x := (f ^ 4)⁻¹) (x₀ := 0.1372⁻¹ ^ 12) (p := 7 / 12) (by positivity) (by positivity)
      (by norm_num) (by norm_num)
    have e1 : ((f ^ 4)⁻¹ : ℝ) ^ (7 / 12 : ℝ) = f ^ (-7 / 3 : ℝ) := by
      rw [← Real.rpow_natCast, ← Real.rpow_neg hf.le, ← Real.rpow_mul hf.le]
      norm_num
    have e2 : ((0.1372⁻¹ : ℝ) ^ 12) ^ (7 / 12 : ℝ) = 0.1372⁻¹ ^ 7 := by
      rw [← Real.rpow_natCast, ← Real.rpow_mul (by norm_num), ← Real.rpow_natCast]
      norm_num
    rwa [e1, e2] at this
  have h2 := steep_exp hu
  have hpos : 0 < 1.15e-44 * f ^ (-7 / 3 : ℝ) := by positivity
  calc _ ≤ 1.15e-44 * f ^ (-7 / 3 : ℝ) * 0.0472 := mul_le_mul_of_nonneg_left h2 hpos.le
    _ ≤ 1.15e-44 * (0.1372⁻¹ ^ 7 * (1 + 7 / 12 * ((f ^ 4)⁻¹ / 0.1372⁻¹ ^ 12 - 1))) * 0.0472 := by gcongr
    _ ≤ 2.2 * floorJ f := by
      unfold floorJ
      have : 0 < (f ^ 4)⁻¹ := by positivity
      rw [div_eq_mul_inv (8e-51 : ℝ)]
      generalize (f ^ 4)⁻¹ = y at *
      norm_num
      nlinarith

/-- `2.8 (s⁸ + 1.989) g (1 + u + u²/2 + u³/6 + u⁴/24) - 61.8 (2s² + 1)/3 (g s² - 10/3)²` with `u = s³`. -/
def steepPoly : List ℚ :=
  add (mul (smul (2.8 * 3.5912) [1.989, 0, 0, 0, 0, 0, 0, 0, 1]) [1, 0, 0, 1, 0, 0, 1 / 2, 0, 0, 1 / 6, 0, 0, 1 / 24])
    (smul (-61.8 / 3) (mul [1, 0, 2] (pow [-10 / 3, 0, 3.5912] 2)))

theorem steepPoly_check : checks steepPoly 1 [1.1, 1.2, 1.25, 1.3, 1.4, 1.6, 2] = true := by decide +kernel

theorem steepPoly_high : ∀ s : ℝ, 2 ≤ s → 0 ≤ ev steepPoly s := by
  intro s hs
  have h : ev steepPoly s = 2.8 * 3.5912 * (s ^ 8 + 1.989) * (1 + s ^ 3 + s ^ 6 / 2 + s ^ 9 / 6 + s ^ 12 / 24)
      - 61.8 / 3 * (2 * s ^ 2 + 1) * (3.5912 * s ^ 2 - 10 / 3) ^ 2 := by
    simp [steepPoly, mul_comm]
    ring
  rw [h]
  have h2 : (4 : ℝ) ≤ s ^ 2 := by nlinarith
  have h6 : (64 : ℝ) ≤ s ^ 6 := by
    calc (64 : ℝ) = 2 ^ 6 := by norm_num
      _ ≤ s ^ 6 := by gcongr
  have a : (2 * s ^ 2 + 1) * (3.5912 * s ^ 2 - 10 / 3) ^ 2 ≤ 3 * s ^ 2 * (3.5912 * s ^ 2) ^ 2 := by
    apply mul_le_mul (by linarith) _ (sq_nonneg _) (by positivity)
    apply pow_le_pow_left₀ (by linarith)
    linarith
  have b : 32 * s ^ 8 ≤ (s ^ 8 + 1.989) * (1 + s ^ 3 + s ^ 6 / 2 + s ^ 9 / 6 + s ^ 12 / 24) := by
    have p3 : 0 ≤ s ^ 3 := by positivity
    have p9 : 0 ≤ s ^ 9 := by positivity
    have p12 : 0 ≤ s ^ 12 := by positivity
    have p8 : 0 ≤ s ^ 8 := by positivity
    calc 32 * s ^ 8 = s ^ 8 * 32 := by ring
      _ ≤ _ := by
        apply mul_le_mul (by linarith) (by linarith) (by norm_num) (by linarith)
  have c : s ^ 6 * 4 ≤ s ^ 8 := by
    calc s ^ 6 * 4 ≤ s ^ 6 * s ^ 2 := by gcongr
      _ = s ^ 8 := by ring
  have d : 3 * s ^ 2 * (3.5912 * s ^ 2) ^ 2 = 3 * 3.5912 ^ 2 * s ^ 6 := by ring
  rw [d] at a
  nlinarith

theorem steepPoly_nonneg {s : ℝ} (hs : 1 ≤ s) : 0 ≤ ev steepPoly s := by
  rcases lt_or_ge s 2 with h | h
  · exact checks_sound steepPoly_check (by exact_mod_cast hs) (by simpa using h)
  · exact steepPoly_high s h

theorem exp_neg_le {u v : ℝ} (hv : 0 ≤ v) (h : v ≤ u) :
    exp (-u) ≤ 1 / (1 + v + v ^ 2 / 2 + v ^ 3 / 6 + v ^ 4 / 24) := by
  have h1 := Real.sum_le_exp_of_nonneg hv 5
  simp only [Finset.sum_range_succ, Finset.sum_range_zero, Nat.factorial] at h1
  norm_num at h1
  rw [exp_neg, ← one_div]
  exact one_div_le_one_div_of_le (by positivity) (h1.trans (exp_le_exp.2 h))

theorem steep_two (hg : 10 / 3 ≤ f / 0.00067) {u : ℝ} (hu : (f / 0.134 ^ 3) ^ (1.56 : ℝ) ≤ u) :
    1.15e-44 / 2 * f ^ (-7 / 3 : ℝ) * exp (-u) * ((f / 0.00067 - 10 / 3) ^ 2 / (f / 0.00067)) ≤ 2.8 * floorJ f := by
  have hf' : 10 / 3 * 0.00067 ≤ f := by rwa [le_div_iff₀ (by norm_num)] at hg
  have hf : 0 < f := lt_of_lt_of_le (by norm_num) hf'
  have hu0 : 0 ≤ u := le_trans (by positivity) hu
  have hg0 : 0 < f / 0.00067 := by positivity
  rcases lt_or_ge f (0.134 ^ 3) with h | h
  · have e1 : exp (-u) ≤ 1 := exp_le_one_iff.2 (by linarith)
    have e2 : f ^ (-7 / 3 : ℝ) ≤ 0.13⁻¹ ^ 7 := by
      calc f ^ (-7 / 3 : ℝ) ≤ (0.13 ^ 3 : ℝ) ^ (-7 / 3 : ℝ) :=
            Real.rpow_le_rpow_of_nonpos (by norm_num) (le_trans (by norm_num) hf') (by norm_num)
        _ = 0.13⁻¹ ^ 7 := by
            rw [← Real.rpow_natCast, ← Real.rpow_mul (by norm_num), inv_pow, ← Real.rpow_natCast,
              ← Real.rpow_neg (by norm_num)]
            norm_num
    have e3 : (f / 0.00067 - 10 / 3) ^ 2 / (f / 0.00067) ≤ 0.02 := by
      rw [div_le_iff₀ hg0]
      have : f / 0.00067 ≤ 3.5912 := by
        rw [div_le_iff₀ (by norm_num)]
        exact h.le.trans (by norm_num)
      nlinarith
    have e4 : (0 : ℝ) ≤ (f / 0.00067 - 10 / 3) ^ 2 / (f / 0.00067) := by positivity
    calc _ ≤ (1.15e-44 / 2 * 0.13⁻¹ ^ 7 * 1 * 0.02 : ℝ) := by gcongr
      _ ≤ 2.8 * 1.2e-40 := by norm_num
      _ ≤ 2.8 * floorJ f := by
        unfold floorJ
        have : (0 : ℝ) ≤ 8e-51 / f ^ 4 := by positivity
        linarith
  · obtain ⟨s, hs, hfs⟩ : ∃ s : ℝ, 1 ≤ s ∧ f = 0.134 ^ 3 * s ^ 2 := by
      refine ⟨√(f / 0.134 ^ 3), ?_, ?_⟩
      · rw [Real.one_le_sqrt]
        exact (one_le_div (by norm_num)).2 h
      · rw [Real.sq_sqrt (by positivity)]
        field_simp
    have hs0 : 0 < s := by linarith
    have e0 : f / 0.134 ^ 3 = s ^ 2 := by rw [hfs]; field_simp
    have e1 : f ^ (-7 / 3 : ℝ) ≤ 0.134⁻¹ ^ 7 * ((2 * s ^ 2 + 1) / (3 * s ^ 6)) := by
      have t := rpow_le_tangent (x := (s ^ 2)⁻¹) (x₀ := 1) (p := 1 / 3) (by positivity) one_pos (by norm_num) (by norm_num)
      rw [Real.one_rpow, one_mul, div_one] at t
      have r1 : (s ^ 2 : ℝ) ^ (-7 / 3 : ℝ) = (s ^ 4)⁻¹ * ((s ^ 2)⁻¹) ^ (1 / 3 : ℝ) := by
        rw [Real.inv_rpow (by positivity), ← Real.rpow_neg (by positivity)]
        have : (s ^ 4)⁻¹ = (s ^ 2) ^ (-2 : ℝ) := by
          rw [Real.rpow_neg (by positivity)]
          norm_num [← pow_mul]
        rw [this, ← Real.rpow_add (by positivity)]
        norm_num
      have r2 : (0.134 ^ 3 : ℝ) ^ (-7 / 3 : ℝ) = 0.134⁻¹ ^ 7 := by
        rw [← Real.rpow_natCast, ← Real.rpow_mul (by norm_num), inv_pow, ← Real.rpow_natCast,
          ← Real.rpow_neg (by norm_num)]
        norm_num
      rw [hfs, Real.mul_rpow (by norm_num) (by positivity), r1, r2]
      apply mul_le_mul_of_nonneg_left _ (by positivity)
      calc (s ^ 4)⁻¹ * ((s ^ 2)⁻¹) ^ (1 / 3 : ℝ) ≤ (s ^ 4)⁻¹ * (1 + 1 / 3 * ((s ^ 2)⁻¹ - 1)) := by gcongr
        _ = _ := by field_simp; ring
    have e2 : exp (-u) ≤ 1 / (1 + s ^ 3 + (s ^ 3) ^ 2 / 2 + (s ^ 3) ^ 3 / 6 + (s ^ 3) ^ 4 / 24) := by
      apply exp_neg_le (by positivity)
      refine le_trans ?_ hu
      rw [e0]
      calc s ^ 3 = (s ^ 2) ^ (1.5 : ℝ) := by
            rw [← Real.rpow_natCast s 2, ← Real.rpow_mul hs0.le, ← Real.rpow_natCast]
            norm_num
        _ ≤ _ := Real.rpow_le_rpow_of_exponent_le (by nlinarith) (by norm_num)
    have e3 : f / 0.00067 = 3.5912 * s ^ 2 := by rw [hfs]; ring
    have hp := steepPoly_nonneg hs
    have hp' : ev steepPoly s = 2.8 * 3.5912 * (s ^ 8 + 1.989) * (1 + s ^ 3 + (s ^ 3) ^ 2 / 2 + (s ^ 3) ^ 3 / 6
        + (s ^ 3) ^ 4 / 24) - 61.8 / 3 * (2 * s ^ 2 + 1) * (3.5912 * s ^ 2 - 10 / 3) ^ 2 := by
      simp [steepPoly, mul_comm]
      ring
    rw [hp'] at hp
    have hE : 0 < 1 + s ^ 3 + (s ^ 3) ^ 2 / 2 + (s ^ 3) ^ 3 / 6 + (s ^ 3) ^ 4 / 24 := by positivity
    set E := 1 + s ^ 3 + (s ^ 3) ^ 2 / 2 + (s ^ 3) ^ 3 / 6 + (s ^ 3) ^ 4 / 24
    have hfl : 1.2e-40 * ((s ^ 8 + 1.989) / s ^ 8) ≤ floorJ f := by
      unfold floorJ
      have : f ^ 4 = 0.134 ^ 12 * s ^ 8 := by rw [hfs]; ring
      rw [this, add_div, div_self (by positivity), mul_add, mul_one, ← div_div, mul_div_assoc']
      gcongr
      norm_num
    rw [e3]
    calc _ ≤ 1.15e-44 / 2 * (0.134⁻¹ ^ 7 * ((2 * s ^ 2 + 1) / (3 * s ^ 6))) * (1 / E)
          * ((3.5912 * s ^ 2 - 10 / 3) ^ 2 / (3.5912 * s ^ 2)) := by gcongr
      _ ≤ 1.2e-40 * 61.8 * ((2 * s ^ 2 + 1) / (3 * s ^ 6)) * (1 / E)
          * ((3.5912 * s ^ 2 - 10 / 3) ^ 2 / (3.5912 * s ^ 2)) := by
        have hc : (1.15e-44 / 2 * 0.134⁻¹ ^ 7 : ℝ) ≤ 1.2e-40 * 61.8 := by norm_num
        rw [← mul_assoc]
        apply mul_le_mul_of_nonneg_right _ (by positivity)
        apply mul_le_mul_of_nonneg_right _ (by positivity)
        exact mul_le_mul_of_nonneg_right hc (by positivity)
      _ ≤ 2.8 * (1.2e-40 * ((s ^ 8 + 1.989) / s ^ 8)) := by
        have : 1.2e-40 * 61.8 * ((2 * s ^ 2 + 1) / (3 * s ^ 6)) * (1 / E)
            * ((3.5912 * s ^ 2 - 10 / 3) ^ 2 / (3.5912 * s ^ 2)) =
            1.2e-40 * (61.8 / 3 * (2 * s ^ 2 + 1) * (3.5912 * s ^ 2 - 10 / 3) ^ 2) / (3.5912 * E * s ^ 8) := by
          field_simp
        rw [this, div_le_iff₀ (by positivity)]
        have : 2.8 * (1.2e-40 * ((s ^ 8 + 1.989) / s ^ 8)) * (3.5912 * E * s ^ 8) =
            1.2e-40 * (2.8 * 3.5912 * (s ^ 8 + 1.989) * E) := by
          field_simp
        rw [this]
        apply mul_le_mul_of_nonneg_left _ (by norm_num)
        linarith
      _ ≤ _ := by gcongr

theorem hasDerivAt_tanh (x : ℝ) : HasDerivAt tanh (1 - tanh x ^ 2) x := by
  have h := (hasDerivAt_sinh x).div (hasDerivAt_cosh x) (cosh_pos x).ne'
  have e : (fun x => sinh x / cosh x) = tanh := funext fun x => (tanh_eq_sinh_div_cosh x).symm
  have e' : (sinh / cosh : ℝ → ℝ) = tanh := e
  rw [e'] at h
  have v : 1 - tanh x ^ 2 = (cosh x * cosh x - sinh x * sinh x) / cosh x ^ 2 := by
    rw [tanh_eq_sinh_div_cosh]
    have := (cosh_pos x).ne'
    field_simp
  rw [v]
  exact h

theorem abs_tanh_le (x : ℝ) : -1 ≤ tanh x ∧ tanh x ≤ 1 :=
  ⟨by linarith [one_add_tanh_pos x], by have := one_add_tanh_pos (-x); rw [tanh_neg] at this; linarith⟩

/-- The frequency scale of the exponential falls slowly with the observation time. -/
theorem karnesis_f_1 {t : ℝ} (ht : 0.25 ≤ t) : t ^ (-0.15 : ℝ) * (10 : ℝ) ^ (-2.72 : ℝ) ≤ 0.134 ^ 3 := by
  have h1 : t ^ (-0.15 : ℝ) ≤ 1.24 := by
    calc t ^ (-0.15 : ℝ) ≤ (0.25 : ℝ) ^ (-0.15 : ℝ) :=
          Real.rpow_le_rpow_of_nonpos (by norm_num) ht (by norm_num)
      _ ≤ 1.24 := by
          have : (0.25 : ℝ) ^ (-0.15 : ℝ) = (64 : ℝ) ^ (1 / 20 : ℝ) := by
            rw [show (0.25 : ℝ) = 4⁻¹ by norm_num, show (64 : ℝ) = 4 ^ (3 : ℝ) by norm_num,
              Real.inv_rpow (by norm_num), ← Real.rpow_neg (by norm_num), ← Real.rpow_mul (by norm_num)]
            norm_num
          rw [this, show (1.24 : ℝ) = (1.24 ^ 20) ^ (1 / 20 : ℝ) by
            rw [← Real.rpow_natCast, ← Real.rpow_mul (by norm_num)]; norm_num]
          exact Real.rpow_le_rpow (by norm_num) (by norm_num) (by norm_num)
  have h2 : (10 : ℝ) ^ (-2.72 : ℝ) ≤ 1.92e-3 := by
    have : (10 : ℝ) ^ (-2.72 : ℝ) = (10 ^ 7) ^ (1 / 25 : ℝ) * 1e-3 := by
      rw [show (1e-3 : ℝ) = 10 ^ (-3 : ℝ) by rw [Real.rpow_neg (by norm_num)]; norm_num,
        ← Real.rpow_natCast, ← Real.rpow_mul (by norm_num), ← Real.rpow_add (by norm_num)]
      norm_num
    rw [this, show (1.92e-3 : ℝ) = (1.92 ^ 25) ^ (1 / 25 : ℝ) * 1e-3 by
      rw [← Real.rpow_natCast, ← Real.rpow_mul (by norm_num)]; norm_num]
    gcongr
    norm_num
  calc _ ≤ (1.24 * 1.92e-3 : ℝ) := by gcongr
    _ ≤ _ := by norm_num

/-- The confusion noise falls, and where it falls steeply it is small. -/
theorem karnesis_slope (hf : 0 < f) {t : ℝ} (ht : 0.25 * yr ≤ t) :
    ∃ d, HasDerivAt (fun f => get_confusion_noise_karnesis21 f t) d f ∧ f * d ≤ 0 ∧
      -(13 * get_confusion_noise_karnesis21 f t + 5 * floorJ f) ≤ f * d := by
  have ht' : 0.25 ≤ t / yr := by rwa [le_div_iff₀ yr_pos]
  have ht0 : 0 < t / yr := by linarith
  set f₁ := (t / yr) ^ (-0.15 : ℝ) * (10 : ℝ) ^ (-2.72 : ℝ) with hf₁
  have hf1 : f₁ ≤ 0.134 ^ 3 := karnesis_f_1 ht'
  have hf10 : 0 < f₁ := by positivity
  set fk := (t / yr) ^ (-0.37 : ℝ) * (10 : ℝ) ^ (-2.49 : ℝ)
  set u := (f / f₁) ^ (1.56 : ℝ) with hu
  have hu0 : 0 < u := by positivity
  set τ := tanh ((fk - f) / 0.00067) with hτ
  have hS : get_confusion_noise_karnesis21 f t
      = 1.15e-44 / 2 * f ^ (-7 / 3 : ℝ) * exp (-u) * (1 + τ) := rfl
  have d1 : HasDerivAt (fun f : ℝ => 1.15e-44 / 2 * f ^ (-7 / 3 : ℝ)) (1.15e-44 / 2 * (-7 / 3 * f ^ (-7 / 3 - 1 : ℝ))) f :=
    (Real.hasDerivAt_rpow_const (.inl hf.ne')).const_mul _
  have d2 : HasDerivAt (fun f => exp (-(f / f₁) ^ (1.56 : ℝ)))
      (exp (-u) * (-(1 / f₁ * 1.56 * (f / f₁) ^ (1.56 - 1 : ℝ)))) f :=
    ((((hasDerivAt_id f).div_const f₁).rpow_const (.inl (by positivity))).neg).exp
  have d3 : HasDerivAt (fun f => 1 + tanh ((fk - f) / 0.00067)) ((1 - τ ^ 2) * (-1 / 0.00067)) f :=
    ((hasDerivAt_tanh _).comp f (((hasDerivAt_id f).const_sub fk).div_const 0.00067)).const_add 1
  have hd := (d1.mul d2).mul d3
  refine ⟨_, hd, ?_⟩
  have p1 : f * f ^ (-7 / 3 - 1 : ℝ) = f ^ (-7 / 3 : ℝ) := by
    rw [Real.rpow_sub_one hf.ne', mul_div_cancel₀ _ hf.ne']
  have p2 : f * (1 / f₁ * 1.56 * (f / f₁) ^ (1.56 - 1 : ℝ)) = 1.56 * u := by
    rw [Real.rpow_sub_one (by positivity), hu]
    field_simp
  have e : f * ((1.15e-44 / 2 * (-7 / 3 * f ^ (-7 / 3 - 1 : ℝ)) * exp (-u)
        + 1.15e-44 / 2 * f ^ (-7 / 3 : ℝ) * (exp (-u) * (-(1 / f₁ * 1.56 * (f / f₁) ^ (1.56 - 1 : ℝ))))) * (1 + τ)
        + 1.15e-44 / 2 * f ^ (-7 / 3 : ℝ) * exp (-u) * ((1 - τ ^ 2) * (-1 / 0.00067)))
      = -(1.15e-44 / 2 * f ^ (-7 / 3 : ℝ) * exp (-u) * ((1 + τ) * (7 / 3 + 1.56 * u + f / 0.00067 * (1 - τ)))) := by
    calc _ = 1.15e-44 / 2 * (-7 / 3 * (f * f ^ (-7 / 3 - 1 : ℝ))) * exp (-u) * (1 + τ)
        - 1.15e-44 / 2 * f ^ (-7 / 3 : ℝ) * exp (-u) * (f * (1 / f₁ * 1.56 * (f / f₁) ^ (1.56 - 1 : ℝ))) * (1 + τ)
        - 1.15e-44 / 2 * f ^ (-7 / 3 : ℝ) * exp (-u) * ((1 - τ ^ 2) * (f / 0.00067)) := by ring
      _ = _ := by
        rw [p1, p2]
        ring
  have hτ' := abs_tanh_le ((fk - f) / 0.00067)
  rw [← hτ] at hτ'
  have hg0 : 0 < f / 0.00067 := by positivity
  set B := 1.15e-44 / 2 * f ^ (-7 / 3 : ℝ) * exp (-u) with hB
  have hB0 : 0 < B := by positivity
  have key : B * ((1 + τ) * (7 / 3 + 1.56 * u + f / 0.00067 * (1 - τ))) ≤ 13 * (B * (1 + τ)) + 5 * floorJ f := by
    have hfl : 0 < floorJ f := by unfold floorJ; positivity
    have s1 : B * ((1 + τ) * (1.56 * u - 4)) ≤ 2.2 * floorJ f := by
      rcases le_or_gt (1.56 * u) 4 with h | h
      · refine le_trans (mul_nonpos_of_nonneg_of_nonpos hB0.le
          (mul_nonpos_of_nonneg_of_nonpos (by linarith [hτ'.1]) (by linarith))) (by positivity)
      · refine le_trans ?_ (steep_one hf hu0.le)
        calc B * ((1 + τ) * (1.56 * u - 4)) ≤ B * (2 * (1.56 * u - 4)) := by
              apply mul_le_mul_of_nonneg_left _ hB0.le
              exact mul_le_mul_of_nonneg_right (by linarith [hτ'.2]) (by linarith)
          _ = _ := by rw [hB]; ring
    have s2 : B * ((1 + τ) * (f / 0.00067 * (1 - τ) - 20 / 3)) ≤ 2.8 * floorJ f := by
      rcases le_or_gt (10 / 3) (f / 0.00067) with h | h
      · refine le_trans ?_ (steep_two h (u := u) ?_)
        · apply mul_le_mul_of_nonneg_left _ hB0.le
          rw [le_div_iff₀ hg0]
          nlinarith [sq_nonneg (f / 0.00067 * (1 + τ) - (f / 0.00067 * (1 - τ) - 20 / 3))]
        · exact Real.rpow_le_rpow (by positivity) (div_le_div_of_nonneg_left hf.le hf10 hf1) (by norm_num)
      · refine le_trans (mul_nonpos_of_nonneg_of_nonpos hB0.le
          (mul_nonpos_of_nonneg_of_nonpos (by linarith [hτ'.1]) ?_)) (by positivity)
        have : f / 0.00067 * (1 - τ) ≤ f / 0.00067 * 2 := by
          apply mul_le_mul_of_nonneg_left _ hg0.le
          linarith [hτ'.1]
        linarith
    have : B * ((1 + τ) * (7 / 3 + 1.56 * u + f / 0.00067 * (1 - τ))) = 13 * (B * (1 + τ))
        + B * ((1 + τ) * (1.56 * u - 4)) + B * ((1 + τ) * (f / 0.00067 * (1 - τ) - 20 / 3)) := by ring
    rw [this]
    linarith
  constructor
  · refine le_trans e.le (neg_nonpos.2 ?_)
    have : 0 ≤ 1 - τ := by linarith [hτ'.2]
    have : 0 ≤ 1 + τ := by linarith [hτ'.1]
    positivity
  · refine le_trans ?_ e.ge
    rw [hS]
    exact neg_le_neg key

/-- Noise of LISA with the confusion noise of Karnesis et al. -/
theorem slope_lisa {L fs t : ℝ} (hL : 0 < L) (hL' : L ≤ 2.5e9) (hfs : 0.019 ≤ fs) (ht : 0.25 * yr ≤ t) (hf : 0 < f)
    (hf2 : f ≤ 2) : HasSlope (fun f => lisa_J L fs f + get_confusion_noise_karnesis21 f t) f (-13) 13 := by
  obtain ⟨p, d, hd, h1, h2⟩ := slope_J hL hfs hf hf2
  obtain ⟨d', hd', h1', h2'⟩ := karnesis_slope hf ht
  have hfl := floorJ_le hL hL' (by linarith : 0 < fs) hf
  have hp := karnesis_pos hf t
  exact ⟨add_pos p hp, d + d', hd.add hd', by rw [mul_add]; linarith, by rw [mul_add]; linarith⟩

/-- Above 6 mHz the confusion noise is small. -/
theorem karnesis_mid {t : ℝ} (ht : 0.25 * yr ≤ t) {g c : ℝ} (hg : 6e-3 ≤ g) (h1 : g ≤ f) (hc : 0 < c) (hgc : 1 ≤ c ^ 3 * g ^ 7) :
    get_confusion_noise_karnesis21 f t ≤ 2.25e-46 * c := by
  have ht' : 0.25 ≤ t / yr := by rwa [le_div_iff₀ yr_pos]
  have ht0 : 0 < t / yr := by linarith
  norm_num at hg
  have hg0 : 0 < g := by linarith
  have hf : 0 < f := by linarith
  have hf1 := karnesis_f_1 ht'
  unfold get_confusion_noise_karnesis21
  simp only
  set f₁ := (t / yr) ^ (-0.15 : ℝ) * (10 : ℝ) ^ (-2.72 : ℝ) with hf₁
  have hf10 : 0 < f₁ := by positivity
  have e1 : f ^ (-7 / 3 : ℝ) ≤ c := by
    calc f ^ (-7 / 3 : ℝ) ≤ g ^ (-7 / 3 : ℝ) := rpow_le_rpow_of_nonpos hg0 h1 (by norm_num)
      _ = ((g ^ (7 : ℕ))⁻¹) ^ (1 / 3 : ℝ) := by
          rw [← rpow_natCast, ← rpow_neg hg0.le, ← rpow_mul hg0.le]
          norm_num
      _ ≤ (c ^ (3 : ℕ)) ^ (1 / 3 : ℝ) := by
          refine rpow_le_rpow (by positivity) ?_ (by norm_num)
          rw [inv_le_iff_one_le_mul₀ (by positivity)]
          exact hgc
      _ = c := by
          rw [← rpow_natCast, ← rpow_mul hc.le]
          norm_num
  have e2 : exp (-(f / f₁) ^ (1.56 : ℝ)) ≤ 0.0195 := by
    have hr : (2.49 : ℝ) ≤ f / f₁ := by
      rw [le_div_iff₀ hf10]
      norm_num at hf1 ⊢
      linarith
    have hp : (4 : ℝ) ≤ (f / f₁) ^ (1.56 : ℝ) := by
      calc (4 : ℝ) = ((4 : ℝ) ^ (9 : ℕ)) ^ (1 / 9 : ℝ) := by
            rw [← rpow_natCast, ← rpow_mul (by norm_num)]
            norm_num
        _ ≤ ((2.49 : ℝ) ^ (14 : ℕ)) ^ (1 / 9 : ℝ) := rpow_le_rpow (by positivity) (by norm_num) (by norm_num)
        _ = (2.49 : ℝ) ^ (14 / 9 : ℝ) := by
            rw [← rpow_natCast, ← rpow_mul (by norm_num)]
            norm_num
        _ ≤ (2.49 : ℝ) ^ (1.56 : ℝ) := rpow_le_rpow_of_exponent_le (by norm_num) (by norm_num)
        _ ≤ _ := rpow_le_rpow (by norm_num) hr (by norm_num)
    calc _ ≤ exp (-4) := exp_le_exp.2 (by linarith)
      _ ≤ _ := by
        rw [exp_neg, inv_le_comm₀ (exp_pos _) (by norm_num)]
        have := exp_one_gt_d9
        rw [show (4 : ℝ) = ((4 : ℕ) : ℝ) * 1 by norm_num, exp_nat_mul]
        calc (0.0195 : ℝ)⁻¹ ≤ 2.7182818283 ^ 4 := by norm_num
          _ ≤ _ := by gcongr
  have e3 := abs_tanh_le (((t / yr) ^ (-0.37 : ℝ) * (10 : ℝ) ^ (-2.49 : ℝ) - f) / 0.00067)
  calc _ ≤ (1.15e-44 / 2 * c * 0.0195 * (1 + 1) : ℝ) := by
        gcongr
        · linarith [e3.1]
        · exact e3.2
    _ ≤ 2.25e-46 * c := by
        rw [show (1.15e-44 / 2 * c * 0.0195 * (1 + 1) : ℝ) = 1.15e-44 * 0.0195 * c by ring]
        gcongr
        norm_num

/-- The noise of LISA on an interval, from above. -/
theorem lisa_J_le {fs g k : ℝ} (hfs : 0.019 ≤ fs) (hg : 0 < g) (h1 : g ≤ f) (h2 : f ≤ k) :
    lisa_J 2.5e9 fs f ≤ 1.6e-19 * (1.5e-11 ^ 2 * (1 + (2e-3 / g) ^ 4)
      + 4 * (3e-15 ^ 2 * (1 + (0.4e-3 / g) ^ 2) * ((1 / g) ^ 4 + (1 / 8e-3) ^ 4) / 1558)) * ((1 + 0.6 * (k / 0.019) ^ 2) / (3 / 10)) := by
  have hf : 0 < f := hg.trans_le h1
  have hfs0 : 0 < fs := lt_of_lt_of_le (by norm_num) hfs
  have hpi : (1558 : ℝ) ≤ (2 * π) ^ 4 := by
    calc (1558 : ℝ) ≤ (2 * 3.1415) ^ 4 := by norm_num
      _ ≤ _ := by
        have := pi_gt_d4
        gcongr
  have hP : lisa_Poms f ≤ 1.5e-11 ^ 2 * (1 + (2e-3 / g) ^ 4) := by
    unfold lisa_Poms
    gcongr
  have hQ : lisa_Q f ≤ 3e-15 ^ 2 * (1 + (0.4e-3 / g) ^ 2) * ((1 / g) ^ 4 + (1 / 8e-3) ^ 4) / 1558 := by
    have e : lisa_Q f = 3e-15 ^ 2 * (1 + (0.4e-3 / f) ^ 2) * ((1 / f) ^ 4 + (1 / 8e-3) ^ 4) / (2 * π) ^ 4 := by
      unfold lisa_Q lisa_Pacc
      have := pi_pos.ne'
      field_simp
    rw [e]
    gcongr
  have hQ0 := (slope_Q hf).pos
  have hM : lisa_M fs f ≤ 1.5e-11 ^ 2 * (1 + (2e-3 / g) ^ 4)
      + 4 * (3e-15 ^ 2 * (1 + (0.4e-3 / g) ^ 2) * ((1 / g) ^ 4 + (1 / 8e-3) ^ 4) / 1558) := by
    unfold lisa_M
    have hcos : cos (f / fs) ^ 2 ≤ 1 := cos_sq_le_one _
    have : 2 * (1 + cos (f / fs) ^ 2) * lisa_Q f ≤ 4 * lisa_Q f := mul_le_mul_of_nonneg_right (by linarith) hQ0.le
    linarith
  have hR : 1 / approximate_response_function f fs ≤ (1 + 0.6 * (k / 0.019) ^ 2) / (3 / 10) := by
    unfold approximate_response_function
    rw [one_div_div]
    have : f / fs ≤ k / 0.019 := div_le_div₀ (by linarith) h2 (by norm_num) hfs
    gcongr
  have hJ : lisa_J 2.5e9 fs f = 1.6e-19 * lisa_M fs f * (1 / approximate_response_function f fs) := by
    unfold lisa_J
    rw [show (1 / 2.5e9 ^ 2 : ℝ) = 1.6e-19 by norm_num]
    ring
  rw [hJ]
  refine mul_le_mul (mul_le_mul_of_nonneg_left hM (by norm_num)) hR ?_ (by positivity)
  unfold approximate_response_function
  positivity

/-- Between 6 mHz and 18 mHz the noise of LISA is close to its lowest value. -/
theorem lisa_mid {fs t : ℝ} (hfs : 0.019 ≤ fs) (ht : 0.25 * yr ≤ t) (h1 : 6e-3 ≤ f) (h2 : f ≤ 1.8e-2) :
    lisa_J 2.5e9 fs f + get_confusion_noise_karnesis21 f t ≤ 2.1e-40 := by
  rcases le_total f 1e-2 with h | h
  · have a := lisa_J_le hfs (by norm_num) h1 h
    have b := karnesis_mid ht le_rfl h1 (c := 1.54e5) (by norm_num) (by norm_num)
    refine (add_le_add a b).trans ?_
    norm_num
  · have a := lisa_J_le hfs (by norm_num) h h2
    have b := karnesis_mid ht (by norm_num) h (c := 4.7e4) (by norm_num) (by norm_num)
    refine (add_le_add a b).trans ?_
    norm_num

end Legwork.psd
