import Verif.Spec.Redshift
import Verif.Lemmas.Steps
import Verif.Lemmas.SnrPointwise

/-!
# Helper lemmas on redshifted binaries
-/

namespace Legwork.Lemmas

open Real Legwork.snr Legwork.strain Legwork.utils Legwork.evol Legwork.Spec

variable {κ : ℝ}

theorem chirp_mass_red (hκ : 0 < κ) {m₁ m₂ : ℝ} (h₁ : 0 < m₁) (h₂ : 0 < m₂) :
    chirp_mass (κ * m₁) (κ * m₂) = κ * chirp_mass m₁ m₂ := by
  unfold chirp_mass
  rw [show κ * m₁ * (κ * m₂) = κ ^ 2 * (m₁ * m₂) by ring, ← mul_add, mul_rpow (by positivity) (by positivity),
    mul_rpow hκ.le (by positivity), ← rpow_natCast κ 2, ← rpow_mul hκ.le, mul_div_mul_comm, ← rpow_sub hκ]
  norm_num

theorem a_red (K : Consts) (hκ : 0 < κ) {f m₁ m₂ : ℝ} (hf : 0 < f) (h₁ : 0 < m₁) (h₂ : 0 < m₂) :
    get_a_from_f_orb K (f / κ) (κ * m₁) (κ * m₂) = κ * get_a_from_f_orb K f m₁ m₂ := by
  have := K.G_pos
  unfold get_a_from_f_orb
  rw [show K.G * (κ * m₁ + κ * m₂) / (2 * π * (f / κ)) ^ 2 = κ ^ 3 * (K.G * (m₁ + m₂) / (2 * π * f) ^ 2) by field_simp,
    mul_rpow (by positivity) (by positivity), ← rpow_natCast κ 3, ← rpow_mul hκ.le]
  norm_num

theorem f_red (K : Consts) (hκ : 0 < κ) {a m₁ m₂ : ℝ} (ha : 0 < a) (h₁ : 0 < m₁) (h₂ : 0 < m₂) :
    get_f_orb_from_a K (κ * a) (κ * m₁) (κ * m₂) = get_f_orb_from_a K a m₁ m₂ / κ := by
  have := K.G_pos
  unfold get_f_orb_from_a
  rw [show K.G * (κ * m₁ + κ * m₂) / (κ * a) ^ 3 = (κ ^ 2)⁻¹ * (K.G * (m₁ + m₂) / a ^ 3) by field_simp,
    mul_rpow (by positivity) (by positivity), inv_rpow (by positivity), ← rpow_natCast κ 2, ← rpow_mul hκ.le]
  norm_num
  field_simp

theorem beta_red (K : Consts) (m₁ m₂ : ℝ) : utils.beta K (κ * m₁) (κ * m₂) = κ ^ 3 * utils.beta K m₁ m₂ := by
  unfold utils.beta
  ring

theorem c_0_red (a e : ℝ) : c_0 (κ * a) e = κ * c_0 a e := by
  unfold c_0
  ring

theorem fn_dot_red (K : Consts) (hκ : 0 < κ) {m f e : ℝ} (hm : 0 ≤ m) (hf : 0 ≤ f) (n : ℤ) :
    fn_dot_val K (κ * m) (f / κ) e n = fn_dot_val K m f e n / κ ^ 2 := by
  have := K.G_pos
  unfold fn_dot_val
  rw [show K.G * (κ * m) = κ * (K.G * m) by ring, show 2 * π * (f / κ) = κ⁻¹ * (2 * π * f) by field_simp,
    mul_rpow hκ.le (mul_nonneg this.le hm), mul_rpow (y := 2 * π * f) (by positivity) (by positivity), inv_rpow hκ.le]
  have h : κ ^ (5 / 3 : ℝ) * (κ ^ (11 / 3 : ℝ))⁻¹ = (κ ^ 2)⁻¹ := by
    rw [← rpow_neg hκ.le, ← rpow_add hκ, ← rpow_natCast κ 2, ← rpow_neg hκ.le]
    norm_num
  rw [div_eq_mul_inv _ (κ ^ 2), ← h]
  ring

theorem h_0_red (K : Consts) (ig : Option (ℤ → ℝ → ℝ)) (hκ : 0 < κ) {m d f : ℝ} (hm : 0 ≤ m) (hf : 0 ≤ f) (e : ℝ) (n : ℤ) :
    h_0_val K ig (κ * m) (κ * d) (f / κ) e n = h_0_val K ig m d f e n := by
  unfold h_0_val
  simp only
  rw [show π * (f / κ) = κ⁻¹ * (π * f) by field_simp, mul_rpow hκ.le hm, mul_rpow (by positivity) (by positivity),
    inv_rpow hκ.le]
  have h : κ ^ (5 / 3 : ℝ) * (κ ^ (2 / 3 : ℝ))⁻¹ * κ⁻¹ = 1 := by
    rw [← rpow_neg hκ.le, ← rpow_add hκ, ← rpow_neg_one, ← rpow_add hκ]
    norm_num
  rw [div_eq_mul_inv _ (κ * d), mul_inv]
  calc _ = κ ^ (5 / 3 : ℝ) * (κ ^ (2 / 3 : ℝ))⁻¹ * κ⁻¹ * ((2 ^ (28 / 3 : ℝ) / 5) ^ (0.5 : ℝ) * K.G ^ (5 / 3 : ℝ) / K.c ^ 4
        * m ^ (5 / 3 : ℝ) * (π * f) ^ (2 / 3 : ℝ) / d * (g_vals ig n e ^ (1 / 2 : ℝ) / n)) := by ring
    _ = _ := by rw [h, one_mul]

theorem h_c_red (K : Consts) (ig : Option (ℤ → ℝ → ℝ)) (hκ : 0 < κ) {m d f : ℝ} (hm : 0 ≤ m) (hf : 0 ≤ f) (e : ℝ) (n : ℤ) :
    h_c_val K ig (κ * m) (κ * d) (f / κ) e n = h_c_val K ig m d f e n := by
  unfold h_c_val
  simp only
  rw [show f / κ = κ⁻¹ * f by field_simp, mul_rpow hκ.le hm, mul_rpow (by positivity) hf, inv_rpow hκ.le]
  have h : κ ^ (5 / 6 : ℝ) * (κ ^ (-1 / 6 : ℝ))⁻¹ * κ⁻¹ = 1 := by
    rw [← rpow_neg hκ.le, ← rpow_add hκ, ← rpow_neg_one, ← rpow_add hκ]
    norm_num
  rw [div_eq_mul_inv _ (κ * d), mul_inv]
  calc _ = κ ^ (5 / 6 : ℝ) * (κ ^ (-1 / 6 : ℝ))⁻¹ * κ⁻¹ * ((2 ^ (5 / 3 : ℝ) / (3 * π ^ (4 / 3 : ℝ))) ^ (0.5 : ℝ)
        * K.G ^ (5 / 6 : ℝ) / K.c ^ (3 / 2 : ℝ) * m ^ (5 / 6 : ℝ) / d * f ^ (-1 / 6 : ℝ) / peters_f e ^ (0.5 : ℝ)
        * (g_vals ig n e / n) ^ (1 / 2 : ℝ)) := by ring
    _ = _ := by rw [h, one_mul]

theorem tmerge_red {a β : ℝ} (hκ : 0 < κ) : (κ * a) ^ 4 / (4 * (κ ^ 3 * β)) = κ * (a ^ 4 / (4 * β)) := by
  by_cases hβ : β = 0
  · simp [hβ]
  · field_simp

theorem t_small_red (hκ : 0 < κ) (c β e : ℝ) : t_small (κ * c) (κ ^ 3 * β) e = κ * t_small c β e := by
  unfold t_small
  rw [tmerge_red hκ]
  ring

theorem t_large_red (hκ : 0 < κ) (c β e : ℝ) : t_large (κ * c) (κ ^ 3 * β) e = κ * t_large c β e := by
  unfold t_large
  rw [tmerge_red hκ]
  ring

theorem t_exact_red (hκ : 0 < κ) (c β e : ℝ) : t_exact (κ * c) (κ ^ 3 * β) e = κ * t_exact c β e := by
  unfold t_exact
  by_cases hβ : β = 0
  · simp [hβ]
  · field_simp

theorem t_fit_red (hκ : 0 < κ) (a β e : ℝ) : t_fit (κ * a) (κ ^ 3 * β) e = κ * t_fit a β e := by
  unfold t_fit
  rw [tmerge_red hκ]
  ring

theorem de_dt_red (hκ : 0 < κ) (e β c : ℝ) : de_dt e (κ ^ 3 * β) (κ * c) = de_dt e β c / κ := by
  unfold de_dt
  by_cases hc : c = 0
  · simp [hc]
  · field_simp

theorem a_circ_red (hκ : 0 < κ) (a β t : ℝ) : a_circ (κ * a) (κ ^ 3 * β) (κ * t) = κ * a_circ a β t := by
  unfold a_circ
  simp only
  rw [show (κ * a) ^ 4 - 4 * (κ ^ 3 * β) * (κ * t) = κ ^ 4 * (a ^ 4 - 4 * β * t) by ring]
  have hk : (0 : ℝ) < κ ^ 4 := by positivity
  by_cases h : a ^ 4 - 4 * β * t ≤ 0
  · rw [if_pos h, if_pos (mul_nonpos_of_nonneg_of_nonpos hk.le h), zero_rpow (by norm_num), mul_zero]
  · rw [if_neg h, if_neg (by rw [not_le] at h ⊢; positivity), mul_rpow hk.le (by linarith), ← rpow_natCast κ 4,
      ← rpow_mul hκ.le]
    norm_num

theorem inner_red (K : Consts) (hκ : 0 < κ) {f m : ℝ} (hf : 0 ≤ f) (hm : 0 ≤ m) (t e : ℝ) :
    inner_part K (f / κ) (κ * m) (κ * t) e = κ ^ (8 / 3 : ℝ) * inner_part K f m t e := by
  have := K.G_pos
  unfold inner_part
  rw [show f / κ = κ⁻¹ * f by field_simp, show K.G * (κ * m) = κ * (K.G * m) by ring, mul_rpow (by positivity) hf,
    mul_rpow hκ.le (by positivity), inv_rpow hκ.le, ← rpow_neg hκ.le, show -(-8 / 3 : ℝ) = 8 / 3 by norm_num]
  have h : κ * κ ^ (5 / 3 : ℝ) = κ ^ (8 / 3 : ℝ) := by
    nth_rw 1 [← rpow_one κ]
    rw [← rpow_add hκ]
    norm_num
  rw [← h]
  ring

theorem chirp_red (hκ : 0 < κ) (f T t : ℝ) : chirp (f / κ) (κ * T) (κ * t) = chirp f T t / κ := by
  unfold chirp
  rw [← mul_sub, mul_div_mul_left _ _ hκ.ne']
  ring

theorem trapezoid_red (hκ : κ ≠ 0) : ∀ ys xs : List ℝ, trapezoid (ys.map (κ * ·)) (xs.map (· / κ)) = trapezoid ys xs
  | [], _ => by simp [trapezoid]
  | [_], _ => by simp [trapezoid]
  | _ :: _ :: _, [] => by simp [trapezoid]
  | _ :: _ :: _, [_] => by simp [trapezoid]
  | y₀ :: y₁ :: ys, x₀ :: x₁ :: xs => by
    have ih := trapezoid_red hκ (y₁ :: ys) (x₁ :: xs)
    simp only [List.map_cons] at ih ⊢
    unfold trapezoid
    rw [ih]
    field_simp

theorem linspace_red (t : ℝ) (n : ℕ) : np.linspace (κ * t) n = (np.linspace t n).map (κ * ·) := by
  unfold np.linspace
  rw [List.map_map]
  refine List.map_congr_left fun i _ => ?_
  simp only [Function.comp]
  ring

theorem divNoise_red (hκ : κ ≠ 0) (x : ℝ) (v : WithTop ℝ) : divNoise (κ * x) (v.map (κ * ·)) = divNoise x v := by
  cases v with
  | top => rfl
  | coe v =>
    show κ * x / (κ * v) = x / v
    exact mul_div_mul_left _ _ hκ

end Legwork.Lemmas
