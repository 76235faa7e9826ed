import Verif.Model.Utils

/-!
# Masses from chirp mass and mass ratio: C03
-/

namespace Legwork.Props

open Real Legwork.utils

/-- **C03** (mass ratio). The chirp mass and the mass ratio determine the masses, by the formula that the demo on horizon
distances uses: the binary with primary mass `m_c / q**(3/5) * (1 + q)**(1/5)` and secondary mass `q` times that has the chirp
mass `m_c`, and no other binary with mass ratio `q` has. -/
theorem C03_ratio {m_c q : ℝ} (hq : 0 < q) {m_1 : ℝ} (h1 : 0 < m_1) :
    chirp_mass m_1 (m_1 * q) = m_c ↔ m_1 = m_c / q ^ (3 / 5 : ℝ) * (1 + q) ^ (1 / 5 : ℝ) := by
  have key : chirp_mass m_1 (m_1 * q) = m_1 * (q ^ (3 / 5 : ℝ) / (1 + q) ^ (1 / 5 : ℝ)) := by
    unfold chirp_mass
    have e1 : m_1 * (m_1 * q) = m_1 ^ (2 : ℝ) * q := by
      rw [rpow_two]
      ring
    have e2 : m_1 + m_1 * q = m_1 * (1 + q) := by ring
    have h2 : m_1 ^ ((2 : ℝ) * (3 / 5)) = m_1 * m_1 ^ (1 / 5 : ℝ) := by
      conv_rhs => rw [← rpow_one m_1, ← rpow_mul h1.le, ← rpow_add h1]
      norm_num
    rw [e1, e2, mul_rpow (by positivity) hq.le, mul_rpow h1.le (by positivity), ← rpow_mul h1.le, h2]
    have := rpow_pos_of_pos h1 (1 / 5 : ℝ)
    field_simp
  have hA := rpow_pos_of_pos hq (3 / 5 : ℝ)
  have hB := rpow_pos_of_pos (show 0 < 1 + q by linarith) (1 / 5 : ℝ)
  rw [key]
  constructor
  · rintro rfl
    field_simp
  · rintro rfl
    field_simp

/-- Non-vacuity of `C03_ratio`: two equal masses of `2^(1/5)` times the chirp mass. -/
example : chirp_mass (5 / 1 ^ (3 / 5 : ℝ) * (1 + 1) ^ (1 / 5 : ℝ)) (5 / 1 ^ (3 / 5 : ℝ) * (1 + 1) ^ (1 / 5 : ℝ) * 1) = 5 :=
  (C03_ratio (q := 1) one_pos (by positivity)).2 rfl

end Legwork.Props
