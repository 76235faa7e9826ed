import Verif.Lemmas.BesselSmall

/-!
# The power of the second and third harmonic at small eccentricities
-/

namespace Legwork.utils

open Real Legwork.Props

/-- Up to `e = 0.06` the second harmonic carries more than 95% of the power. -/
theorem peters_g_two_ge {e : ℝ} (h0 : 0 ≤ e) (h1 : e ≤ 0.06) :
    (1 - 0.05) * peters_f e ≤ peters_g 2 e ∧ 0.979 ≤ peters_g 2 e := by
  norm_num at h1
  have he2 : e ^ 2 ≤ 9 / 2500 := by nlinarith
  have he20 : 0 ≤ e ^ 2 := sq_nonneg e
  have key : ∀ k : ℤ, |jv k (2 * e) - ((1 - (2 * e) ^ 2 / 4) * jv k 0 + (2 * e) ^ 2 / 8 * (jv (k - 2) 0 + jv (k + 2) 0) +
      2 * e / 2 * (jv (k - 1) 0 - jv (k + 1) 0))| ≤ 0.00031 := by
    intro k
    refine (jv_expansion k (by linarith : 0 ≤ 2 * e) (by linarith)).trans ?_
    have a : 2 * e ≤ 0.12 := by norm_num; linarith
    have hx : 0 ≤ 2 * e := by linarith
    calc _ ≤ (0.12 : ℝ) ^ 4 * (5 / 96) + 0.12 ^ 3 / 6 + 0.12 ^ 5 / 100 := by gcongr
      _ ≤ _ := by norm_num
  have j0 := abs_le.1 (key 0)
  have j1 := abs_le.1 (key 1)
  have j2 := abs_le.1 (key 2)
  have j3 := abs_le.1 (key 3)
  have j4 := abs_le.1 (key 4)
  simp only [jv_zero] at j0 j1 j2 j3 j4
  norm_num at j0 j1 j2 j3 j4
  have hf : peters_f e ≤ 1.024 := by
    unfold peters_f
    simp only
    have hb : 1 + (7 / 2 : ℝ) * (-e ^ 2) ≤ (1 + -e ^ 2) ^ (7 / 2 : ℝ) :=
      one_add_mul_self_le_rpow_one_add (by nlinarith) (by norm_num)
    rw [← sub_eq_add_neg] at hb
    rw [div_le_iff₀ (rpow_pos_of_pos (by nlinarith) _)]
    have h4 : e ^ 4 ≤ 9 / 2500 * e ^ 2 := by
      have : e ^ 4 = e ^ 2 * e ^ 2 := by ring
      rw [this]
      gcongr
    nlinarith
  have hg : 0.979 ≤ peters_g 2 e := by
    unfold peters_g
    simp only
    norm_num
    generalize jv 0 (2 * e) = z0 at *
    generalize jv 1 (2 * e) = z1 at *
    generalize jv 2 (2 * e) = z2 at *
    generalize jv 3 (2 * e) = z3 at *
    generalize jv 4 (2 * e) = z4 at *
    have b1 : 0.9899 ≤ z0 - 2 * e * z1 + z2 + 2 * e * z3 - z4 := by
      norm_num
      nlinarith [mul_le_mul_of_nonneg_left j1.2 h0, mul_le_mul_of_nonneg_left j3.1 h0]
    have b2 : 0.9915 ≤ z0 - 2 * z2 + z4 := by
      norm_num
      nlinarith
    have s1 : (0.9899 : ℝ) ^ 2 ≤ (z0 - 2 * e * z1 + z2 + 2 * e * z3 - z4) ^ 2 := by gcongr
    have s2 : (0.9915 : ℝ) ^ 2 ≤ (z0 - 2 * z2 + z4) ^ 2 := by gcongr
    have s3 : 0.9964 * (0.9915 : ℝ) ^ 2 ≤ (1 - e ^ 2) * (z0 - 2 * z2 + z4) ^ 2 := by
      refine mul_le_mul ?_ s2 (by positivity) (by linarith)
      norm_num
      linarith
    have s4 := sq_nonneg z2
    norm_num at s1 s3 ⊢
    linarith
  exact ⟨by norm_num at hf hg ⊢; linarith, hg⟩

theorem peters_g_three_ge : 0.037 ≤ peters_g 3 0.06 := by
  have key : ∀ k : ℤ, |jv k 0.18 - ((1 - 0.18 ^ 2 / 4) * jv k 0 + 0.18 ^ 2 / 8 * (jv (k - 2) 0 + jv (k + 2) 0) +
      0.18 / 2 * (jv (k - 1) 0 - jv (k + 1) 0))| ≤ 0.00104 := by
    intro k
    refine (jv_expansion k (by norm_num) (by norm_num)).trans ?_
    norm_num
  have j1 := abs_le.1 (key 1)
  have j2 := abs_le.1 (key 2)
  have j3 := abs_le.1 (key 3)
  have j4 := abs_le.1 (key 4)
  have j5 := abs_le.1 (key 5)
  simp only [jv_zero] at j1 j2 j3 j4 j5
  norm_num at j1 j2 j3 j4 j5
  unfold peters_g
  simp only
  norm_num
  generalize jv 1 (9 / 50) = z1 at *
  generalize jv 2 (9 / 50) = z2 at *
  generalize jv 3 (9 / 50) = z3 at *
  generalize jv 4 (9 / 50) = z4 at *
  generalize jv 5 (9 / 50) = z5 at *
  have b1 : 0.0864 ≤ z1 - 3 / 25 * z2 + 2 / 3 * z3 + 3 / 25 * z4 - z5 := by
    norm_num
    linarith
  have b2 : 0.0858 ≤ z1 - 2 * z3 + z5 := by
    norm_num
    linarith
  have s1 : (0.0864 : ℝ) ^ 2 ≤ (z1 - 3 / 25 * z2 + 2 / 3 * z3 + 3 / 25 * z4 - z5) ^ 2 := by gcongr
  have s2 : (0.0858 : ℝ) ^ 2 ≤ (z1 - 2 * z3 + z5) ^ 2 := by gcongr
  have s4 := sq_nonneg z3
  norm_num at s1 s2 ⊢
  linarith

end Legwork.utils
