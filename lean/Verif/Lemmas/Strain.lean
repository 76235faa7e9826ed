import Verif.Model.Strain
import Verif.Lemmas.Basic
import Verif.Props.Utils
import Verif.Props.PetersG

/-!
# Helper lemmas about the strain kernels
-/

namespace Legwork.strain

open Real Legwork.utils Legwork.Props

theorem peters_f_pos {e : ℝ} (h0 : 0 ≤ e) (h1 : e < 1) : 0 < peters_f e :=
  lt_of_lt_of_le one_pos (C04_one_le h0 h1)

theorem g_vals_nonneg (ig : Option (ℤ → ℝ → ℝ)) (n : ℤ) {e : ℝ} (h0 : 0 ≤ e) (h1 : e ≤ 1) :
    0 ≤ g_vals ig n e := by
  unfold g_vals
  cases ig with
  | none => exact C05_nonneg n h0 h1
  | some g => simp only; split_ifs with h <;> linarith

theorem h_0_val_nonneg (K : Consts) (ig : Option (ℤ → ℝ → ℝ)) {m d f e : ℝ} {n : ℤ} (hm : 0 ≤ m) (hd : 0 ≤ d)
    (hf : 0 ≤ f) (h0 : 0 ≤ e) (h1 : e ≤ 1) (hn : 1 ≤ n) : 0 ≤ h_0_val K ig m d f e n := by
  have hg := g_vals_nonneg ig n h0 h1
  have hn' : (0 : ℝ) < n := by exact_mod_cast (by omega : 0 < n)
  have := K.G_pos; have := K.c_pos
  unfold h_0_val
  positivity

theorem h_c_val_nonneg (K : Consts) (ig : Option (ℤ → ℝ → ℝ)) {m d f e : ℝ} {n : ℤ} (hm : 0 ≤ m) (hd : 0 ≤ d)
    (hf : 0 ≤ f) (h0 : 0 ≤ e) (h1 : e < 1) (hn : 1 ≤ n) : 0 ≤ h_c_val K ig m d f e n := by
  have hg := g_vals_nonneg ig n h0 h1.le
  have hF := peters_f_pos h0 h1
  have hn' : (0 : ℝ) < n := by exact_mod_cast (by omega : 0 < n)
  have := K.G_pos; have := K.c_pos
  unfold h_c_val
  positivity

/-- The square of the strain amplitude. -/
theorem h_0_val_sq (K : Consts) (ig : Option (ℤ → ℝ → ℝ)) {m d f e : ℝ} {n : ℤ}
    (h0 : 0 ≤ e) (h1 : e ≤ 1) :
    h_0_val K ig m d f e n ^ 2 = 2 ^ (28 / 3 : ℝ) / 5 * (K.G ^ (5 / 3 : ℝ)) ^ 2 / K.c ^ 8
      * (m ^ (5 / 3 : ℝ)) ^ 2 * ((π * f) ^ (2 / 3 : ℝ)) ^ 2 / d ^ 2 * (g_vals ig n e / n ^ 2) := by
  have hg := g_vals_nonneg ig n h0 h1
  unfold h_0_val
  simp only [mul_pow, div_pow]
  rw [half_sq hg, half_sq' (by positivity)]
  ring

/-- The square of the characteristic strain. -/
theorem h_c_val_sq (K : Consts) (ig : Option (ℤ → ℝ → ℝ)) {m d f e : ℝ} {n : ℤ}
    (h0 : 0 ≤ e) (h1 : e < 1) (hn : 1 ≤ n) :
    h_c_val K ig m d f e n ^ 2 = 2 ^ (5 / 3 : ℝ) / (3 * π ^ (4 / 3 : ℝ)) * (K.G ^ (5 / 6 : ℝ)) ^ 2 / K.c ^ 3
      * (m ^ (5 / 6 : ℝ)) ^ 2 / d ^ 2 * (f ^ (-1 / 6 : ℝ)) ^ 2 / peters_f e * (g_vals ig n e / n) := by
  have hg := g_vals_nonneg ig n h0 h1.le
  have hF := peters_f_pos h0 h1
  have hn' : (0 : ℝ) < n := by exact_mod_cast (by omega : 0 < n)
  have hc := K.c_pos
  unfold h_c_val
  have hc3 : (K.c ^ (3 / 2 : ℝ)) ^ 2 = K.c ^ 3 := rpow_pow_eq hc.le 2 3 (by norm_num)
  simp only [mul_pow, div_pow]
  rw [half_sq (by positivity), half_sq' (by positivity), half_sq' hF.le, hc3]

/-- The identity behind C07 for one element. -/
theorem h_c_val_sq_mul_fn_dot (K : Consts) (ig : Option (ℤ → ℝ → ℝ)) {m d f e : ℝ} {n : ℤ} (hm : 0 < m)
    (hf : 0 < f) (h0 : 0 ≤ e) (h1 : e < 1) (hn : 1 ≤ n) :
    h_c_val K ig m d f e n ^ 2 * fn_dot_val K m f e n = (n * f) ^ 2 * h_0_val K ig m d f e n ^ 2 := by
  have hF := peters_f_pos h0 h1
  have hn' : (0 : ℝ) < n := by exact_mod_cast (by omega : 0 < n)
  have hc := K.c_pos
  rw [h_0_val_sq K ig h0 h1.le, h_c_val_sq K ig h0 h1 hn]
  unfold fn_dot_val
  generalize g_vals ig n e = g
  generalize peters_f e = F at hF ⊢
  obtain ⟨G, hG, hGe⟩ := exists_pow_eq K.G_pos 6 (by norm_num)
  obtain ⟨M, hM, rfl⟩ := exists_pow_eq hm 6 (by norm_num)
  obtain ⟨x, hx, rfl⟩ := exists_pow_eq hf 6 (by norm_num)
  obtain ⟨p, hp, hpe⟩ := exists_pow_eq Real.pi_pos 3 (by norm_num)
  obtain ⟨t, ht, hte⟩ := exists_pow_eq (two_pos : (0 : ℝ) < 2) 3 (by norm_num)
  have hm1 : (x ^ 6) ^ (-1 / 6 : ℝ) = x⁻¹ := by
    rw [← rpow_natCast, ← rpow_mul hx.le]; norm_num [rpow_neg_one]
  have e1 : ((2 : ℝ) ^ (28 / 3 : ℝ)) = t ^ 28 := by rw [← hte]; exact pow_rpow_eq ht.le 3 28 (by norm_num)
  have e2 : ((2 : ℝ) ^ (5 / 3 : ℝ)) = t ^ 5 := by rw [← hte]; exact pow_rpow_eq ht.le 3 5 (by norm_num)
  have e3 : (2 * π * x ^ 6) ^ (11 / 3 : ℝ) = t ^ 11 * p ^ 11 * x ^ 22 := by
    rw [← hpe, ← hte, show t ^ 3 * p ^ 3 * x ^ 6 = (t * p * x ^ 2) ^ 3 by ring,
      pow_rpow_eq (by positivity) 3 11 (by norm_num)]; ring
  have e4 : (π * x ^ 6) ^ (2 / 3 : ℝ) = p ^ 2 * x ^ 4 := by
    rw [← hpe, show p ^ 3 * x ^ 6 = (p * x ^ 2) ^ 3 by ring, pow_rpow_eq (by positivity) 3 2 (by norm_num)]; ring
  have e5 : (K.G * M ^ 6) ^ (5 / 3 : ℝ) = G ^ 10 * M ^ 10 := by
    rw [← hGe, show G ^ 6 * M ^ 6 = (G * M) ^ 6 by ring, pow_rpow_eq (by positivity) 6 10 (by norm_num)]; ring
  have e6 : π ^ (4 / 3 : ℝ) = p ^ 4 := by rw [← hpe]; exact pow_rpow_eq hp.le 3 4 (by norm_num)
  have e7 : K.G ^ (5 / 3 : ℝ) = G ^ 10 := by rw [← hGe]; exact pow_rpow_eq hG.le 6 10 (by norm_num)
  have e8 : K.G ^ (5 / 6 : ℝ) = G ^ 5 := by rw [← hGe]; exact pow_rpow_eq hG.le 6 5 (by norm_num)
  have e9 : (M ^ 6) ^ (5 / 3 : ℝ) = M ^ 10 := pow_rpow_eq hM.le 6 10 (by norm_num)
  have e10 : (M ^ 6) ^ (5 / 6 : ℝ) = M ^ 5 := pow_rpow_eq hM.le 6 5 (by norm_num)
  rw [e1, e2, e3, e4, e5, e6, e7, e8, e9, e10, hm1, ← hpe]
  by_cases hd : d = 0
  · subst hd; simp
  field_simp
  have h16 : (16 : ℝ) = t ^ 12 := by rw [show (16 : ℝ) = 2 ^ 4 by norm_num, ← hte]; ring
  rw [show (48 : ℝ) = 3 * 16 by norm_num, h16]
  ring

theorem modulation_nonneg {o : Orientation} {a : ℝ} (h : modulation o = .ok a) : 0 ≤ a := by
  unfold modulation at h
  split_ifs at h with hc
  · unfold amplitude_modulation at h
    obtain ⟨p, q, io⟩ := o
    cases p <;> cases q <;> cases io <;> simp [Except.map] at h
    rw [← h, show (0.5 : ℝ) = 1 / 2 by norm_num, ← Real.sqrt_eq_rpow]
    exact Real.sqrt_nonneg _
  · cases h; norm_num

theorem modulation_none : modulation {} = .ok 1 := rfl

end Legwork.strain
