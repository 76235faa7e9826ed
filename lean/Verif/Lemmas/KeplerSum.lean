import Verif.Lemmas.KeplerPower

/-!
# The harmonics of `peters_g` add up to `peters_f`
-/

namespace Legwork.Kepler

open Real MeasureTheory Set Legwork.utils

variable {e : ℝ}

/-- Average over the eccentric anomaly of a power of the inverse distance. -/
noncomputable def mom (e : ℝ) (k : ℕ) : ℝ := (1 / (2 * π)) * ∫ E in (-π)..π, 1 / dist e E ^ k

theorem continuous_inv_dist (h0 : 0 ≤ e) (h1 : e < 1) (k : ℕ) : Continuous fun E => 1 / dist e E ^ k := by
  have hd := continuous_dist e
  have hp : ∀ E : ℝ, dist e E ^ k ≠ 0 := fun E => pow_ne_zero k (dist_pos h0 h1 E).ne'
  fun_prop (disch := exact hp)

theorem mom_zero : mom e 0 = 1 := by
  have := pi_pos.ne'
  unfold mom
  simp
  field_simp
  ring

/-- The mean inverse distance, from the true anomaly. -/
theorem mom_one (h0 : 0 ≤ e) (h1 : e < 1) : mom e 1 = 1 / √(1 - e ^ 2) := by
  have hpos : 0 < 1 - e ^ 2 := by nlinarith
  set w := √(1 - e ^ 2) with hw
  have hwp : 0 < w := sqrt_pos.mpr hpos
  have hw2 : w ^ 2 = 1 - e ^ 2 := sq_sqrt hpos.le
  set β := e / (1 + w) with hβ
  have hβe : β * (1 + w) = e := by rw [hβ]; field_simp
  have hβ0 : 0 ≤ β := by positivity
  have hβ1 : β < 1 := by rw [hβ, div_lt_one (by positivity)]; linarith
  have hd : ∀ E : ℝ, HasDerivAt (fun E => E + 2 * arctan (β * sin E / (1 - β * cos E))) (w * (1 / dist e E ^ 1)) E := by
    intro E
    have hq : 0 < 1 - β * cos E := by nlinarith [cos_le_one E]
    have hr := dist_pos h0 h1 E
    have h := (hasDerivAt_id E).add (((((hasDerivAt_sin E).const_mul β).div
      (((hasDerivAt_cos E).const_mul β).const_sub 1) hq.ne').arctan).const_mul 2)
    refine h.congr_deriv ?_
    have hs : sin E ^ 2 = 1 - cos E ^ 2 := sin_sq E
    have hden : (1 - β * cos E) ^ 2 + (β * sin E) ^ 2 = 2 / (1 + w) * dist e E := by
      rw [mul_pow, hs]
      have : (1 - β * cos E) ^ 2 + β ^ 2 * (1 - cos E ^ 2) = 1 - 2 * β * cos E + β ^ 2 := by ring
      rw [this, hβ]
      unfold dist
      field_simp
      linear_combination hw2
    have hdp : 0 < (1 - β * cos E) ^ 2 + (β * sin E) ^ 2 := by rw [hden]; positivity
    have hnum : 1 - β ^ 2 = 2 * w / (1 + w) := by
      rw [hβ]
      field_simp
      linear_combination -hw2
    have e1 : 1 + 2 * (1 / (1 + (β * sin E / (1 - β * cos E)) ^ 2) *
        ((β * cos E * (1 - β * cos E) - β * sin E * -(β * -sin E)) / (1 - β * cos E) ^ 2)) =
        (1 - β ^ 2) / ((1 - β * cos E) ^ 2 + (β * sin E) ^ 2) := by
      have h5 : 1 + (β * sin E / (1 - β * cos E)) ^ 2 ≠ 0 := by positivity
      have hq' := hq.ne'
      have : 1 / (1 + (β * sin E / (1 - β * cos E)) ^ 2) =
        (1 - β * cos E) ^ 2 / ((1 - β * cos E) ^ 2 + (β * sin E) ^ 2) := by
        field_simp
      rw [this]
      have hdp' := hdp.ne'
      field_simp
      rw [hs]
      ring
    rw [pow_one]
    refine Eq.trans e1 ?_
    rw [hden, hnum]
    field_simp
  have h := intervalIntegral.integral_eq_sub_of_hasDerivAt (a := -π) (b := π) (fun E _ => hd E)
    (((continuous_inv_dist h0 h1 1).const_mul w).intervalIntegrable _ _)
  rw [intervalIntegral.integral_const_mul] at h
  simp only [sin_neg, sin_pi, neg_zero, mul_zero, zero_div, arctan_zero, add_zero] at h
  unfold mom
  have hpi := pi_pos.ne'
  have : ∫ E in (-π)..π, 1 / dist e E ^ 1 = 2 * π / w := by
    rw [eq_div_iff hwp.ne']; linarith
  rw [this]
  field_simp

theorem mom_rec (h0 : 0 ≤ e) (h1 : e < 1) (j : ℕ) :
    ((j : ℝ) + 1) * (1 - e ^ 2) * mom e (j + 2) - (2 * j + 1) * mom e (j + 1) + j * mom e j = 0 := by
  have hd : ∀ E : ℝ, HasDerivAt (fun E => e * sin E / dist e E ^ (j + 1))
      (((j : ℝ) + 1) * (1 - e ^ 2) * (1 / dist e E ^ (j + 2)) - (2 * j + 1) * (1 / dist e E ^ (j + 1)) +
        j * (1 / dist e E ^ j)) E := by
    intro E
    have hp := (dist_pos h0 h1 E).ne'
    have := ((hasDerivAt_sin E).const_mul e).div ((hasDerivAt_dist e E).pow (j + 1)) (pow_ne_zero (j + 1) hp)
    refine this.congr_deriv ?_
    have hs : sin E ^ 2 = 1 - cos E ^ 2 := sin_sq E
    simp only [Pi.pow_apply, Nat.add_sub_cancel]
    push_cast
    have hk : e ^ 2 * sin E ^ 2 = e ^ 2 - 1 + 2 * dist e E - dist e E ^ 2 := by
      rw [hs]; unfold dist; ring
    have hc : e * cos E = 1 - dist e E := by unfold dist; ring
    have hpj : dist e E ^ j ≠ 0 := pow_ne_zero j hp
    simp only [pow_succ, pow_zero, one_mul]
    rw [hc]
    have : e * sin E * ((↑j + 1) * dist e E ^ j * (e * sin E)) =
      (↑j + 1) * dist e E ^ j * (e ^ 2 * sin E ^ 2) := by ring
    rw [this, hk]
    field_simp
    ring
  have hc := continuous_inv_dist h0 h1
  have h := intervalIntegral.integral_eq_sub_of_hasDerivAt (a := -π) (b := π) (fun E _ => hd E)
    (Continuous.intervalIntegrable ((((hc _).const_mul _).sub ((hc _).const_mul _)).add ((hc _).const_mul _)) _ _)
  simp only [sin_neg, sin_pi, neg_zero, mul_zero, zero_div, sub_zero] at h
  have hi : ∀ (a : ℝ) (k : ℕ), IntervalIntegrable (fun E => a * (1 / dist e E ^ k)) volume (-π) π :=
    fun a k => ((hc k).const_mul a).intervalIntegrable _ _
  rw [intervalIntegral.integral_add ((hi _ _).sub (hi _ _)) (hi _ _),
    intervalIntegral.integral_sub (hi _ _) (hi _ _)] at h
  simp only [intervalIntegral.integral_const_mul] at h
  unfold mom
  linear_combination (1 / (2 * π)) * h

/-- The power averaged over an orbit. -/
theorem mom_total (h0 : 0 ≤ e) (h1 : e < 1) :
    (8 / 3) * (11 * (1 - e ^ 2) * mom e 5 + 2 * mom e 4 - mom e 3) = 32 * peters_f e := by
  have hpos : 0 < 1 - e ^ 2 := by nlinarith
  have hw7 : (1 - e ^ 2) ^ (7 / 2 : ℝ) = (1 - e ^ 2) ^ 3 * √(1 - e ^ 2) := by
    rw [show (7 / 2 : ℝ) = (3 : ℕ) + 1 / 2 by norm_num, rpow_add hpos, rpow_natCast, sqrt_eq_rpow]
  have m1 := mom_one h0 h1
  have hw2 : √(1 - e ^ 2) ^ 2 = 1 - e ^ 2 := sq_sqrt hpos.le
  set w := √(1 - e ^ 2) with hw
  have hwp : 0 < w := sqrt_pos.mpr hpos
  have r0 := mom_rec h0 h1 0
  have r1 := mom_rec h0 h1 1
  have r2 := mom_rec h0 h1 2
  have r3 := mom_rec h0 h1 3
  norm_num at r0 r1 r2 r3
  have hp' := hpos.ne'
  have q2 : mom e 2 = mom e 1 / (1 - e ^ 2) := by rw [eq_div_iff hp']; linarith
  have q3 : mom e 3 = (3 * mom e 2 - mom e 1) / (2 * (1 - e ^ 2)) := by
    rw [eq_div_iff (by positivity)]; linarith
  have q4 : mom e 4 = (5 * mom e 3 - 2 * mom e 2) / (3 * (1 - e ^ 2)) := by
    rw [eq_div_iff (by positivity)]; linarith
  have q5 : mom e 5 = (7 * mom e 4 - 3 * mom e 3) / (4 * (1 - e ^ 2)) := by
    rw [eq_div_iff (by positivity)]; linarith
  rw [q5, q4, q3, q2, m1]
  unfold peters_f
  rw [hw7]
  field_simp
  ring

/-- One harmonic of the power. -/
theorem harmonic (h0 : 0 ≤ e) (h1 : e < 1) (n : ℤ) :
    (cosInt e n (fun E => xxj e E * dist e E) ^ 2 + sinInt e n (fun E => xxj e E * dist e E) ^ 2) +
    (cosInt e n (fun E => yyj e E * dist e E) ^ 2 + sinInt e n (fun E => yyj e E * dist e E) ^ 2) +
    2 * (1 - e ^ 2) *
      (cosInt e n (fun E => xyj e E * dist e E) ^ 2 + sinInt e n (fun E => xyj e E * dist e E) ^ 2) -
    (1 / 3) * (cosInt e n (fun E => (xxj e E + yyj e E) * dist e E) ^ 2 +
      sinInt e n (fun E => (xxj e E + yyj e E) * dist e E) ^ 2) = 16 * peters_g n e := by
  obtain ⟨cxa, cya, cza, cxj, cyj, czj⟩ := continuous_moments h0 h1
  have hper : ∀ f : ℝ → ℝ → ℝ, (f (sin π) (cos π) = f (sin (-π)) (cos (-π))) := by
    intro f; rw [sin_neg, sin_pi, neg_zero, cos_neg]
  have hx := third (xxv_mul h0 h1) (xxv_deriv h0 h1)
    (hper fun s c => -2 * s * (c - e) / (1 - e * c)) cxa (xxa_deriv h0 h1)
    (hper fun s c => 2 * s ^ 2 / (1 - e * c) ^ 2 - 2 * (c - e) ^ 2 / (1 - e * c) ^ 3) cxj n
  have hy := third (yyv_mul h0 h1) (yyv_deriv h0 h1)
    (hper fun s c => 2 * (1 - e ^ 2) * s * c / (1 - e * c)) cya (yya_deriv h0 h1)
    (hper fun s c => (1 - e ^ 2) * (2 * c ^ 2 / (1 - e * c) ^ 2 - 2 * s ^ 2 / (1 - e * c) ^ 3)) cyj n
  have hz := third (xyv_mul h0 h1) (xyv_deriv h0 h1)
    (hper fun s c => ((c - e) * c - s ^ 2) / (1 - e * c)) cza (xya_deriv h0 h1)
    (hper fun s c => -2 * s * c / (1 - e * c) ^ 2 - 2 * (c - e) * s / (1 - e * c) ^ 3) czj n
  have hd := continuous_dist e
  have hsum1 : cosInt e n (fun E => (xxj e E + yyj e E) * dist e E) =
      cosInt e n (fun E => xxj e E * dist e E) + cosInt e n (fun E => yyj e E * dist e E) := by
    have := cosInt_lin e n 1 1 (F := fun E => xxj e E * dist e E) (G := fun E => yyj e E * dist e E)
      (by fun_prop) (by fun_prop)
    simpa [add_mul] using this
  have hsum2 : sinInt e n (fun E => (xxj e E + yyj e E) * dist e E) =
      sinInt e n (fun E => xxj e E * dist e E) + sinInt e n (fun E => yyj e E * dist e E) := by
    have := sinInt_lin e n 1 1 (F := fun E => xxj e E * dist e E) (G := fun E => yyj e E * dist e E)
      (by fun_prop) (by fun_prop)
    simpa [add_mul] using this
  have cx : cosInt e n (xx₁ e) = 0 := cosInt_odd e n fun E => by unfold xx₁; simp only [mul_neg, sin_neg]; ring
  have cy : cosInt e n (yy₁ e) = 0 := cosInt_odd e n fun E => by unfold yy₁; simp only [mul_neg, sin_neg]; ring
  have sz : sinInt e n (xy₁ e) = 0 := sinInt_even e n fun E => by unfold xy₁; simp only [mul_neg, cos_neg]
  have sx : sinInt e n (xx₁ e) = -1 * ((jv (n - 2) (n * e) - jv (n + 2) (n * e)) / 2) +
      2 * e * ((jv (n - 1) (n * e) - jv (n + 1) (n * e)) / 2) := by
    rw [← sinInt_sin, ← sinInt_sin]
    exact sinInt_lin e n _ _ (by fun_prop) (by fun_prop)
  have sy : sinInt e n (yy₁ e) = (1 - e ^ 2) * ((jv (n - 2) (n * e) - jv (n + 2) (n * e)) / 2) +
      0 * ((jv (n - 1) (n * e) - jv (n + 1) (n * e)) / 2) := by
    rw [← sinInt_sin, ← sinInt_sin]
    exact sinInt_lin e n _ _ (by fun_prop) (by fun_prop)
  have cz : cosInt e n (xy₁ e) = 1 * ((jv (n - 2) (n * e) + jv (n + 2) (n * e)) / 2) +
      -e * ((jv (n - 1) (n * e) + jv (n + 1) (n * e)) / 2) := by
    rw [← cosInt_cos, ← cosInt_cos]
    exact cosInt_lin e n _ _ (by fun_prop) (by fun_prop)
  rw [hsum1, hsum2, hx.1, hx.2, hy.1, hy.2, hz.1, hz.2, cx, cy, sz, sx, sy, cz]
  rcases eq_or_ne n 0 with rfl | hn
  · simp [peters_g]
  · have hn' : (n : ℝ) ≠ 0 := Int.cast_ne_zero.mpr hn
    have a0 := jv_recurrence n (n * e)
    have a1 := jv_recurrence (n - 1) (n * e)
    have a2 := jv_recurrence (n + 1) (n * e)
    rw [show n - 1 - 1 = n - 2 by ring, show n - 1 + 1 = n by ring] at a1
    rw [show n + 1 - 1 = n by ring, show n + 1 + 1 = n + 2 by ring] at a2
    push_cast at a1 a2
    unfold peters_g
    simp only
    generalize jv (n - 2) (n * e) = j2 at *
    generalize jv (n - 1) (n * e) = j1 at *
    generalize jv n (n * e) = j at *
    generalize jv (n + 1) (n * e) = k1 at *
    generalize jv (n + 2) (n * e) = k2 at *
    -- the two relations between neighbouring Bessel functions
    have b0 : e * (j1 + k1) = 2 * j := by
      have : (n : ℝ) * (e * (j1 + k1)) = n * (2 * j) := by linear_combination a0
      exact mul_left_cancel₀ hn' this
    have b1 : (1 - e ^ 2) * (j2 - k2) = (j2 - k2) - 2 * e * (j1 - k1) + 4 * (j / n) := by
      have : (n : ℝ) * ((1 - e ^ 2) * (j2 - k2)) = n * ((j2 - k2) - 2 * e * (j1 - k1) + 4 * (j / n)) := by
        have hj : (n : ℝ) * (j / n) = j := by field_simp
        linear_combination (-e) * a1 + e * a2 + 2 * b0 - 4 * hj
      exact mul_left_cancel₀ hn' this
    have c1 : -1 * ((j2 - k2) / 2) + 2 * e * ((j1 - k1) / 2) = -((j2 - k2) - 2 * e * (j1 - k1)) / 2 := by ring
    have c2 : (1 - e ^ 2) * ((j2 - k2) / 2) + 0 * ((j1 - k1) / 2) =
      ((j2 - k2) - 2 * e * (j1 - k1) + 4 * (j / n)) / 2 := by linear_combination b1 / 2
    have c3 : 1 * ((j2 + k2) / 2) + -e * ((j1 + k1) / 2) = (j2 - 2 * j + k2) / 2 := by linear_combination -b0 / 2
    have c4 : j2 - 2 * e * j1 + 2 / (n : ℝ) * j + 2 * e * k1 - k2 =
      ((j2 - k2) - 2 * e * (j1 - k1)) + 2 * (j / n) := by ring
    rw [c1, c2, c3, c4]
    generalize (j2 - k2) - 2 * e * (j1 - k1) = P
    generalize j2 - 2 * j + k2 = S
    field_simp
    ring

/-- The sum over all harmonics, positive and negative. -/
theorem hasSum_int (h0 : 0 ≤ e) (h1 : e < 1) : HasSum (fun n : ℤ => 16 * peters_g n e) (32 * peters_f e) := by
  obtain ⟨-, -, -, cxj, cyj, czj⟩ := continuous_moments h0 h1
  have px := parseval h0 h1 cxj
  have py := parseval h0 h1 cyj
  have pz := parseval h0 h1 czj
  have pt := parseval h0 h1 (cxj.add cyj)
  have key := ((px.add py).add (pz.mul_left (2 * (1 - e ^ 2)))).sub (pt.mul_left (1 / 3))
  convert key using 1
  · rfl
  · funext n
    exact (harmonic h0 h1 n).symm
  · rw [← mom_total h0 h1]
    have hd := continuous_dist e
    have hc := continuous_inv_dist h0 h1
    have hc45 : Continuous fun E => 11 * (1 - e ^ 2) * (1 / dist e E ^ 5) + 2 * (1 / dist e E ^ 4) :=
      ((hc 5).const_mul _).add ((hc 4).const_mul _)
    unfold mom
    have hi : ∀ {f : ℝ → ℝ}, Continuous f → IntervalIntegrable f volume (-π) π :=
      fun hf => hf.intervalIntegrable _ _
    have hL : (∫ E in (-π)..π, xxj e E ^ 2 * dist e E) + (∫ E in (-π)..π, yyj e E ^ 2 * dist e E) +
        2 * (1 - e ^ 2) * (∫ E in (-π)..π, xyj e E ^ 2 * dist e E) -
        1 / 3 * (∫ E in (-π)..π, (xxj e E + yyj e E) ^ 2 * dist e E) =
        8 / 3 * (11 * (1 - e ^ 2) * (∫ E in (-π)..π, 1 / dist e E ^ 5) +
          2 * (∫ E in (-π)..π, 1 / dist e E ^ 4) - ∫ E in (-π)..π, 1 / dist e E ^ 3) := by
      rw [← intervalIntegral.integral_const_mul, ← intervalIntegral.integral_const_mul,
        ← intervalIntegral.integral_const_mul, ← intervalIntegral.integral_const_mul,
        ← intervalIntegral.integral_add (hi (by fun_prop)) (hi (by fun_prop)),
        ← intervalIntegral.integral_add (hi (by fun_prop)) (hi (by fun_prop)),
        ← intervalIntegral.integral_sub (hi (by fun_prop)) (hi (by fun_prop)),
        ← intervalIntegral.integral_add (hi ((hc 5).const_mul _)) (hi ((hc 4).const_mul _)),
        ← intervalIntegral.integral_sub (hi hc45) (hi (hc 3)),
        ← intervalIntegral.integral_const_mul]
      refine intervalIntegral.integral_congr fun E _ => ?_
      rw [← power h0 h1 E]
      ring
    simp only [Pi.add_apply]
    linear_combination (-(1 / (2 * π))) * hL

theorem peters_g_neg (n : ℤ) : peters_g (-n) e = peters_g n e := by
  unfold peters_g
  have h : ∀ k : ℤ, jv (-k) (((-n : ℤ) : ℝ) * e) = jv k (n * e) := by
    intro k
    push_cast
    rw [neg_mul, jv_neg_neg]
  rw [show -n - 2 = -(n + 2) by ring, show -n - 1 = -(n + 1) by ring, show -n + 1 = -(n - 1) by ring,
    show -n + 2 = -(n - 2) by ring]
  simp only [h]
  push_cast
  ring

/-- The sum over the harmonics `1, 2, 3, …`. -/
theorem hasSum_nat (h0 : 0 ≤ e) (h1 : e < 1) : HasSum (fun n : ℕ => peters_g ((n : ℤ) + 1) e) (peters_f e) := by
  have hz : peters_g 0 e = 0 := by simp [peters_g]
  have h := (hasSum_int h0 h1).nat_add_neg.mul_left (1 / 32)
  have h2 : HasSum (fun n : ℕ => peters_g n e) (peters_f e) := by
    convert h using 1
    · rfl
    · funext n
      rw [peters_g_neg]
      ring
    · rw [hz]; ring
  have h3 := (hasSum_nat_add_iff' (f := fun n : ℕ => peters_g n e) 1).mpr h2
  simpa [hz] using h3

end Legwork.Kepler
