import Verif.Model.Utils

/-!
# Properties of `peters_g`: C05
-/

namespace Legwork.Props

open Real Legwork.utils

/-- Bessel functions of integer order at the origin. -/
lemma jv_zero (k : ℤ) : jv k 0 = if k = 0 then 1 else 0 := by
  unfold jv
  split_ifs with h
  · subst h; simp [Real.pi_ne_zero]
  · have hk : (k : ℝ) ≠ 0 := by exact_mod_cast h
    have : (∫ τ in (0 : ℝ)..π, cos (k * τ - 0 * sin τ)) = 0 := by
      simp only [zero_mul, sub_zero]
      rw [intervalIntegral.integral_comp_mul_left (fun x => cos x) hk]
      simp [Real.sin_int_mul_pi]
    rw [this, mul_zero]

/-- **C05** (sign). The relative power in any harmonic is non-negative for any bound orbit. -/
theorem C05_nonneg (n : ℤ) {e : ℝ} (h0 : 0 ≤ e) (h1 : e ≤ 1) : 0 ≤ peters_g n e := by
  have : 0 ≤ 1 - e ^ 2 := by nlinarith
  unfold peters_g
  positivity

/-- **C05** (circular limit). A circular binary radiates only in the `n = 2` harmonic. -/
theorem C05_circular {n : ℤ} (hn : 1 ≤ n) : peters_g n 0 = if n = 2 then 1 else 0 := by
  unfold peters_g
  simp only [mul_zero, jv_zero]
  have h1 : n ≠ 0 := by omega
  have h2 : n + 2 ≠ 0 := by omega
  by_cases h : n = 2
  · subst h; norm_num
  · have h3 : n - 2 ≠ 0 := by omega
    simp [h, h1, h2, h3]

/-- Non-vacuity of C05. -/
example : peters_g 2 0 = 1 ∧ peters_g 7 0 = 0 ∧ 0 ≤ peters_g 7 0.5 :=
  ⟨by rw [C05_circular (by norm_num)]; simp, by rw [C05_circular (by norm_num)]; simp,
    C05_nonneg _ (by norm_num) (by norm_num)⟩

end Legwork.Props
