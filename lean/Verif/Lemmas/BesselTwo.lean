import Verif.Lemmas.BesselSmall

/-!
# The second harmonic of a slightly eccentric binary is weaker than that of a circular one
-/

namespace Legwork.utils

open Real Legwork.Props

theorem peters_g_two_lt_one {e : ℝ} (h0 : 0 < e) (h1 : e ≤ 0.2) : peters_g 2 e < 1 := by
  have h1' : e ≤ 1 / 5 := by norm_num at h1 ⊢; exact h1
  set q := e ^ 2 with hq
  have hq0 : 0 < q := by positivity
  have hq1 : q ≤ 1 / 25 := by rw [hq]; nlinarith
  have key : ∀ k : ℤ, |jv k (2 * e) - ((1 - (2 * e) ^ 2 / 4) * jv k 0 + (2 * e) ^ 2 / 8 * (jv (k - 2) 0 + jv (k + 2) 0) +
      2 * e / 2 * (jv (k - 1) 0 - jv (k + 1) 0))| ≤ 0.31 * q := by
    intro k
    refine (jv_expansion k (by linarith : 0 ≤ 2 * e) (by linarith)).trans ?_
    have e3 : e ^ 3 ≤ q * (1 / 5) := by rw [hq, pow_succ]; gcongr
    have e4 : e ^ 4 ≤ q * (1 / 25) := by
      have : e ^ 4 = q * q := by rw [hq]; ring
      rw [this]; gcongr
    have e5 : e ^ 5 ≤ q * (1 / 125) := by
      have : e ^ 5 = q * q * e := by rw [hq]; ring
      have h : q * q * e ≤ q * (1 / 25) * (1 / 5) := by gcongr
      rw [this]; linarith
    have : (2 * e) ^ 4 * (5 / 96) + (2 * e) ^ 3 / 6 + (2 * e) ^ 5 / 100 = 5 / 6 * e ^ 4 + 4 / 3 * e ^ 3 + 8 / 25 * e ^ 5 := by ring
    rw [this]
    norm_num
    linarith
  have j0 := abs_le.1 (key 0)
  have j1 := abs_le.1 (key 1)
  have j2 := abs_le.1 (key 2)
  have j3 := abs_le.1 (key 3)
  have j4 := abs_le.1 (key 4)
  have hs : (2 * e) ^ 2 = 4 * q := by rw [hq]; ring
  simp only [jv_zero, hs] at j0 j1 j2 j3 j4
  norm_num at j0 j1 j2 j3 j4
  unfold peters_g
  simp only
  rw [← hq]
  norm_num
  generalize jv 0 (2 * e) = z0 at *
  generalize jv 1 (2 * e) = z1 at *
  generalize jv 2 (2 * e) = z2 at *
  generalize jv 3 (2 * e) = z3 at *
  generalize jv 4 (2 * e) = z4 at *
  have he2 : e * e = q := by rw [hq]; ring
  have m1 := mul_le_mul_of_nonneg_left j1.1 h0.le
  have m2 := mul_le_mul_of_nonneg_left j1.2 h0.le
  have m3 := mul_le_mul_of_nonneg_left j3.1 h0.le
  have m4 := mul_le_mul_of_nonneg_left j3.2 h0.le
  have hqe : e * q ≤ 1 / 5 * q := by gcongr
  have b1 : z0 - 2 * e * z1 + z2 + 2 * e * z3 - z4 ≤ 1 - q := by nlinarith
  have b1' : -(1 - q) ≤ z0 - 2 * e * z1 + z2 + 2 * e * z3 - z4 := by nlinarith
  have b2 : z0 - 2 * z2 + z4 ≤ 1 - q / 2 := by nlinarith
  have b2' : -(1 - q / 2) ≤ z0 - 2 * z2 + z4 := by nlinarith
  have b3 : z2 ≤ q := by nlinarith
  have b3' : -q ≤ z2 := by nlinarith
  have s1 := sq_le_sq' b1' b1
  have s2 := sq_le_sq' b2' b2
  have s3 := sq_le_sq' b3' b3
  have s4 : (1 - q) * (z0 - 2 * z2 + z4) ^ 2 ≤ 1 * (1 - q / 2) ^ 2 :=
    mul_le_mul (by linarith) s2 (sq_nonneg _) (by norm_num)
  nlinarith

end Legwork.utils
