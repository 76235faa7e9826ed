import Verif.Lemmas.KeplerSum

/-!
# The harmonics of the strain of an eccentric orbit

The strain is the second derivative of the quadrupole moments, so its harmonics are those of the
power (the third derivative) divided by the harmonic number.  Used only to prove what the squares of
`strain.h_0_n` add up to.
-/

namespace Legwork.Kepler

open Real MeasureTheory Set Legwork.utils

variable {e : ℝ}

/-- The square of the strain at one point of the orbit. -/
theorem strain_sq (h0 : 0 ≤ e) (h1 : e < 1) (E : ℝ) :
    (xxa e E ^ 2 + yya e E ^ 2 + 2 * (1 - e ^ 2) * xya e E ^ 2 - (1 / 3) * (xxa e E + yya e E) ^ 2) * dist e E =
    8 * (1 - e ^ 2) * (1 / dist e E ^ 2) + (8 / 3) * (1 / dist e E ^ 1) + (-(8 / 3) * (1 + e * cos E)) := by
  have hp := (dist_pos h0 h1 E).ne'
  have hs : sin E ^ 2 = 1 - cos E ^ 2 := sin_sq E
  have hs4 : sin E ^ 4 = (1 - cos E ^ 2) ^ 2 := by rw [← hs]; ring
  unfold xxa yya xya
  field_simp
  simp only [dist]
  ring_nf
  simp only [hs, hs4]
  ring

/-- One harmonic of the strain. -/
theorem strain_harmonic (h0 : 0 ≤ e) (h1 : e < 1) (n : ℤ) :
    (cosInt e n (fun E => xxa e E * dist e E) ^ 2 + sinInt e n (fun E => xxa e E * dist e E) ^ 2) +
    (cosInt e n (fun E => yya e E * dist e E) ^ 2 + sinInt e n (fun E => yya e E * dist e E) ^ 2) +
    2 * (1 - e ^ 2) *
      (cosInt e n (fun E => xya e E * dist e E) ^ 2 + sinInt e n (fun E => xya e E * dist e E) ^ 2) -
    (1 / 3) * (cosInt e n (fun E => (xxa e E + yya e E) * dist e E) ^ 2 +
      sinInt e n (fun E => (xxa e E + yya e E) * dist e E) ^ 2) = 16 * (peters_g n e / n ^ 2) := by
  obtain ⟨cxa, cya, cza, cxj, cyj, czj⟩ := continuous_moments h0 h1
  have hd := continuous_dist e
  have hper : ∀ f : ℝ → ℝ → ℝ, (f (sin π) (cos π) = f (sin (-π)) (cos (-π))) := by
    intro f; rw [sin_neg, sin_pi, neg_zero, cos_neg]
  have hc1 : cosInt e n (fun E => (xxa e E + yya e E) * dist e E) =
      cosInt e n (fun E => xxa e E * dist e E) + cosInt e n (fun E => yya e E * dist e E) := by
    have := cosInt_lin e n 1 1 (F := fun E => xxa e E * dist e E) (G := fun E => yya e E * dist e E)
      (by fun_prop) (by fun_prop)
    simpa [add_mul] using this
  have hs1 : sinInt e n (fun E => (xxa e E + yya e E) * dist e E) =
      sinInt e n (fun E => xxa e E * dist e E) + sinInt e n (fun E => yya e E * dist e E) := by
    have := sinInt_lin e n 1 1 (F := fun E => xxa e E * dist e E) (G := fun E => yya e E * dist e E)
      (by fun_prop) (by fun_prop)
    simpa [add_mul] using this
  rcases eq_or_ne n 0 with rfl | hn
  · have hx := parts (e := e) (xxv_deriv h0 h1) (by fun_prop)
      (hper fun s c => -2 * s * (c - e) / (1 - e * c)) 0
    have hy := parts (e := e) (yyv_deriv h0 h1) (by fun_prop)
      (hper fun s c => 2 * (1 - e ^ 2) * s * c / (1 - e * c)) 0
    have hz := parts (e := e) (xyv_deriv h0 h1) (by fun_prop)
      (hper fun s c => ((c - e) * c - s ^ 2) / (1 - e * c)) 0
    rw [hc1, hs1, hx.1, hx.2, hy.1, hy.2, hz.1, hz.2]
    simp
  · have hn' : (n : ℝ) ≠ 0 := Int.cast_ne_zero.mpr hn
    have hx := parts (e := e) (xxa_deriv h0 h1) (by fun_prop)
      (hper fun s c => 2 * s ^ 2 / (1 - e * c) ^ 2 - 2 * (c - e) ^ 2 / (1 - e * c) ^ 3) n
    have hy := parts (e := e) (yya_deriv h0 h1) (by fun_prop)
      (hper fun s c => (1 - e ^ 2) * (2 * c ^ 2 / (1 - e * c) ^ 2 - 2 * s ^ 2 / (1 - e * c) ^ 3)) n
    have hz := parts (e := e) (xya_deriv h0 h1) (by fun_prop)
      (hper fun s c => -2 * s * c / (1 - e * c) ^ 2 - 2 * (c - e) * s / (1 - e * c) ^ 3) n
    have hc2 : cosInt e n (fun E => (xxj e E + yyj e E) * dist e E) =
        cosInt e n (fun E => xxj e E * dist e E) + cosInt e n (fun E => yyj e E * dist e E) := by
      have := cosInt_lin e n 1 1 (F := fun E => xxj e E * dist e E) (G := fun E => yyj e E * dist e E)
        (by fun_prop) (by fun_prop)
      simpa [add_mul] using this
    have hs2 : sinInt e n (fun E => (xxj e E + yyj e E) * dist e E) =
        sinInt e n (fun E => xxj e E * dist e E) + sinInt e n (fun E => yyj e E * dist e E) := by
      have := sinInt_lin e n 1 1 (F := fun E => xxj e E * dist e E) (G := fun E => yyj e E * dist e E)
        (by fun_prop) (by fun_prop)
      simpa [add_mul] using this
    have h := harmonic h0 h1 n
    rw [hc2, hs2, hx.1, hx.2, hy.1, hy.2, hz.1, hz.2] at h
    rw [hc1, hs1]
    rw [← mul_div_assoc, eq_div_iff (pow_ne_zero 2 hn'), ← h]
    ring

/-- The average of the squared strain over an orbit. -/
theorem strain_average (h0 : 0 ≤ e) (h1 : e < 1) :
    (1 / (2 * π)) * (∫ E in (-π)..π, (8 * (1 - e ^ 2) * (1 / dist e E ^ 2) + (8 / 3) * (1 / dist e E ^ 1) +
      (-(8 / 3) * (1 + e * cos E)))) = 32 * (1 / (3 * √(1 - e ^ 2)) - 1 / 12) := by
  have hpos : 0 < 1 - e ^ 2 := by nlinarith
  have hc := continuous_inv_dist h0 h1
  have hi : ∀ {f : ℝ → ℝ}, Continuous f → IntervalIntegrable f volume (-π) π :=
    fun hf => hf.intervalIntegrable _ _
  have hc21 : Continuous fun E => 8 * (1 - e ^ 2) * (1 / dist e E ^ 2) + (8 / 3) * (1 / dist e E ^ 1) :=
    ((hc 2).const_mul _).add ((hc 1).const_mul _)
  rw [intervalIntegral.integral_add (hi hc21) (hi (by fun_prop)),
    intervalIntegral.integral_add (hi ((hc 2).const_mul _)) (hi ((hc 1).const_mul _)),
    intervalIntegral.integral_const_mul, intervalIntegral.integral_const_mul,
    intervalIntegral.integral_const_mul, intervalIntegral.integral_add (hi (by fun_prop)) (hi (by fun_prop)),
    intervalIntegral.integral_const_mul, integral_cos]
  have m1 := mom_one h0 h1
  have r0 := mom_rec h0 h1 0
  norm_num at r0
  have q2 : (1 - e ^ 2) * mom e 2 = mom e 1 := by linarith
  have hpi := pi_pos.ne'
  have i1 : (1 / (2 * π)) * ∫ E in (-π)..π, 1 / dist e E ^ 1 = 1 / √(1 - e ^ 2) := m1
  have i2 : (1 - e ^ 2) * ((1 / (2 * π)) * ∫ E in (-π)..π, 1 / dist e E ^ 2) = 1 / √(1 - e ^ 2) := by
    rw [← m1, ← q2]; rfl
  have i0 : (1 / (2 * π)) * ∫ _ in (-π)..π, (1 : ℝ) = 1 := by
    simp
    field_simp
    ring
  simp only [sin_neg, sin_pi, neg_zero, sub_zero, mul_zero, add_zero]
  have e1 : 32 * (1 / (3 * √(1 - e ^ 2)) - 1 / 12) = (32 / 3) * (1 / √(1 - e ^ 2)) - 8 / 3 := by
    field_simp
    ring
  rw [e1]
  linear_combination 8 * i2 + (8 / 3) * i1 - (8 / 3) * i0

/-- The sum over the harmonics `1, 2, 3, …` of the squared strain. -/
theorem hasSum_strain (h0 : 0 ≤ e) (h1 : e < 1) :
    HasSum (fun n : ℕ => peters_g ((n : ℤ) + 1) e / ((n : ℝ) + 1) ^ 2) (1 / (3 * √(1 - e ^ 2)) - 1 / 12) := by
  obtain ⟨cxa, cya, cza, -, -, -⟩ := continuous_moments h0 h1
  have px := parseval h0 h1 cxa
  have py := parseval h0 h1 cya
  have pz := parseval h0 h1 cza
  have pt := parseval h0 h1 (cxa.add cya)
  have key := ((px.add py).add (pz.mul_left (2 * (1 - e ^ 2)))).sub (pt.mul_left (1 / 3))
  have hall : HasSum (fun n : ℤ => 16 * (peters_g n e / n ^ 2)) (32 * (1 / (3 * √(1 - e ^ 2)) - 1 / 12)) := by
    convert key using 1
    · rfl
    · funext n
      exact (strain_harmonic h0 h1 n).symm
    · rw [← strain_average h0 h1]
      have hd := continuous_dist e
      have hi : ∀ {f : ℝ → ℝ}, Continuous f → IntervalIntegrable f volume (-π) π :=
        fun hf => hf.intervalIntegrable _ _
      have hL : (∫ E in (-π)..π, xxa e E ^ 2 * dist e E) + (∫ E in (-π)..π, yya e E ^ 2 * dist e E) +
          2 * (1 - e ^ 2) * (∫ E in (-π)..π, xya e E ^ 2 * dist e E) -
          1 / 3 * (∫ E in (-π)..π, (xxa e E + yya e E) ^ 2 * dist e E) =
          ∫ E in (-π)..π, (8 * (1 - e ^ 2) * (1 / dist e E ^ 2) + (8 / 3) * (1 / dist e E ^ 1) +
            (-(8 / 3) * (1 + e * cos E))) := by
        rw [← intervalIntegral.integral_const_mul, ← intervalIntegral.integral_const_mul,
          ← intervalIntegral.integral_add (hi (by fun_prop)) (hi (by fun_prop)),
          ← intervalIntegral.integral_add (hi (by fun_prop)) (hi (by fun_prop)),
          ← intervalIntegral.integral_sub (hi (by fun_prop)) (hi (by fun_prop))]
        refine intervalIntegral.integral_congr fun E _ => ?_
        rw [← strain_sq h0 h1 E]
        ring
      simp only [Pi.add_apply]
      linear_combination (-(1 / (2 * π))) * hL
  have h := hall.nat_add_neg.mul_left (1 / 32)
  have h2 : HasSum (fun n : ℕ => peters_g n e / (n : ℝ) ^ 2) (1 / (3 * √(1 - e ^ 2)) - 1 / 12) := by
    convert h using 1
    · rfl
    · funext n
      rw [peters_g_neg]
      push_cast
      ring
    · simp
  have h3 := (hasSum_nat_add_iff' (f := fun n : ℕ => peters_g n e / (n : ℝ) ^ 2) 1).mpr h2
  simpa using h3

end Legwork.Kepler
