import Verif.Lemmas.EvolEcc
import Verif.Lemmas.MandelFit

/-!
# Helper lemmas for `get_t_merge_ecc`
-/

namespace Legwork.evol

open Real Legwork.utils Legwork.np Legwork.Spec

variable {ι : Type*}

open Classical in
/-- Merger time of one binary, by branch. -/
noncomputable def t_val (a beta e s l : ℝ) (ex : Bool) : ℝ :=
  if e = 0 then a ^ 4 / (4 * beta)
  else if e < s then t_small (c_0 a e) beta e
  else if e > l then t_large (c_0 a e) beta e
  else if ex then t_exact (c_0 a e) beta e
  else t_fit a beta e

theorem get_t_merge_ecc_of_check (K : Consts) {ecc : ι → ℝ} {a f b m₁ m₂ : Option (ι → ℝ)} {b' a' : ι → ℝ}
    {s l : ℝ} (ex : Bool) (hc : check_mass_freq_input K b m₁ m₂ a f = .ok (b', a')) (hs : 0 < s) (hsl : s ≤ l)
    (h0 : ∀ i, 0 ≤ ecc i) :
    get_t_merge_ecc K ecc a f b m₁ m₂ s l ex = .ok fun i => t_val (a' i) (b' i) (ecc i) s l ex := by
  classical
  simp only [get_t_merge_ecc, hc, bind, Except.bind, pure, Except.pure]
  split_ifs with hall
  · rw [get_t_merge_circ_some]
    congr 1; funext i
    simp [t_val, hall i]
  all_goals
    congr 1; funext i
    have := h0 i
    by_cases he : ecc i = 0
    · simp [maskAssign, t_val, he, not_le.2 hs, not_lt.2 (hs.le.trans hsl)]
    · have hpos : 0 < ecc i := lt_of_le_of_ne this (Ne.symm he)
      by_cases h1 : ecc i < s
      · simp [maskAssign, t_val, he, hpos, h1, not_le.2 h1, not_lt.2 (h1.le.trans hsl)]
      · by_cases h2 : l < ecc i
        · simp [maskAssign, t_val, he, h1, h2, not_le.2 h2]
        · simp [maskAssign, t_val, *, not_lt.1 h1, not_lt.1 h2]

theorem get_t_merge_ecc_a (K : Consts) (ecc a b : ι → ℝ) {s l : ℝ} (ex : Bool) (hs : 0 < s) (hsl : s ≤ l)
    (h0 : ∀ i, 0 ≤ ecc i) :
    get_t_merge_ecc K ecc (some a) none (some b) none none s l ex
      = .ok fun i => t_val (a i) (b i) (ecc i) s l ex :=
  get_t_merge_ecc_of_check K ex (by simp [check_mass_freq_input, pure, Except.pure, bind, Except.bind]) hs hsl h0

/-- `c_0⁴ e^(48/19)` in terms of the separation. -/
theorem c_0_pow_four {a e : ℝ} (h0 : 0 < e) (h1 : e < 1) :
    c_0 a e ^ 4 * e ^ (48 / 19 : ℝ) * (1 + 121 / 304 * e ^ 2) ^ (3480 / 2299 : ℝ) = a ^ 4 * (1 - e ^ 2) ^ 4 := by
  have hs := one_sub_sq_pos' h0.le h1
  have h := get_a_pow_four (c := c_0 a e) h0
  rw [Props.C02_a_roundtrip h0 h1] at h
  rw [h]
  field_simp

theorem t_small_bounds {a b e : ℝ} (hb : 0 < b) (ha : 0 < a) (h0 : 0 < e) (h1 : e < 1) :
    0 < t_small (c_0 a e) b e ∧ t_small (c_0 a e) b e ≤ a ^ 4 / (4 * b) := by
  have hs := one_sub_sq_pos' h0.le h1
  have hk : 1 ≤ 1 + 121 / 304 * e ^ 2 := by nlinarith [sq_nonneg e]
  have hc := c_0_pos h0 h1 ha
  have hq : 1 ≤ (1 + 121 / 304 * e ^ 2) ^ (3480 / 2299 : ℝ) := one_le_rpow hk (by norm_num)
  have h := c_0_pow_four (a := a) h0 h1
  unfold t_small
  refine ⟨by positivity, ?_⟩
  rw [div_mul_eq_mul_div]
  apply div_le_div_of_nonneg_right _ (by positivity)
  have hX : 0 ≤ c_0 a e ^ 4 * e ^ (48 / 19 : ℝ) := by positivity
  have h4 : (1 - e ^ 2) ^ 4 ≤ 1 := pow_le_one₀ hs.le (by nlinarith)
  have ha4 : 0 < a ^ 4 := by positivity
  nlinarith

theorem t_small_lower {a b e : ℝ} (hb : 0 < b) (ha : 0 < a) (h0 : 0 < e) (h1 : e ≤ 0.15) :
    a ^ 4 / (4 * b) ≤ t_small (c_0 a e) b e * peters_f e := by
  have h1' : e < 1 := lt_of_le_of_lt h1 (by norm_num)
  have hs := one_sub_sq_pos' h0.le h1'
  have hk : 1 ≤ 1 + 121 / 304 * e ^ 2 := by nlinarith [sq_nonneg e]
  have h := c_0_pow_four (a := a) h0 h1'
  unfold t_small
  rw [div_mul_eq_mul_div, div_mul_eq_mul_div]
  apply div_le_div_of_nonneg_right _ (by positivity)
  have hq : (1 + 121 / 304 * e ^ 2) ^ (3480 / 2299 : ℝ) ≤ (1 + 121 / 304 * e ^ 2) ^ 2 := by
    have := rpow_le_rpow_of_exponent_le hk (show (3480 / 2299 : ℝ) ≤ 2 by norm_num)
    rwa [rpow_two] at this
  have hqp : 0 < (1 + 121 / 304 * e ^ 2) ^ (3480 / 2299 : ℝ) := by positivity
  have hX : c_0 a e ^ 4 * e ^ (48 / 19 : ℝ) = a ^ 4 * (1 - e ^ 2) ^ 4 / (1 + 121 / 304 * e ^ 2) ^ (3480 / 2299 : ℝ) := by
    rw [← h]; field_simp
  rw [hX]
  unfold peters_f
  have h72 : (1 - e ^ 2) ^ (7 / 2 : ℝ) ≤ (1 - e ^ 2) ^ 3 := by
    have := rpow_le_rpow_of_exponent_ge hs (by nlinarith) (show (3 : ℝ) ≤ 7 / 2 by norm_num)
    rwa [rpow_ofNat] at this
  have hp : 0 < (1 - e ^ 2) ^ (7 / 2 : ℝ) := by positivity
  have ha4 : 0 < a ^ 4 := by positivity
  have e1 : a ^ 4 * (1 - e ^ 2) ^ 4 / (1 + 121 / 304 * e ^ 2) ^ (3480 / 2299 : ℝ)
      * ((1 + 73 / 24 * e ^ 2 + 37 / 96 * e ^ 4) / (1 - e ^ 2) ^ (7 / 2 : ℝ))
      = a ^ 4 * ((1 - e ^ 2) ^ 4 * (1 + 73 / 24 * e ^ 2 + 37 / 96 * e ^ 4)
        / ((1 + 121 / 304 * e ^ 2) ^ (3480 / 2299 : ℝ) * (1 - e ^ 2) ^ (7 / 2 : ℝ))) := by
    field_simp
  rw [e1]
  have : 1 ≤ (1 - e ^ 2) ^ 4 * (1 + 73 / 24 * e ^ 2 + 37 / 96 * e ^ 4)
        / ((1 + 121 / 304 * e ^ 2) ^ (3480 / 2299 : ℝ) * (1 - e ^ 2) ^ (7 / 2 : ℝ)) := by
    rw [one_le_div (by positivity)]
    calc _ ≤ (1 + 121 / 304 * e ^ 2) ^ 2 * (1 - e ^ 2) ^ 3 := mul_le_mul hq h72 (by positivity) (by positivity)
      _ ≤ (1 - e ^ 2) ^ 3 * ((1 - e ^ 2) * (1 + 73 / 24 * e ^ 2)) := by
        rw [mul_comm]
        apply mul_le_mul_of_nonneg_left _ (by positivity)
        have hx : e ^ 2 ≤ 0.0225 := by nlinarith
        nlinarith [sq_nonneg e, mul_nonneg (sq_nonneg e) (sub_nonneg.2 hx)]
      _ ≤ _ := by
        rw [← mul_assoc, ← pow_succ]
        apply mul_le_mul_of_nonneg_left _ (by positivity)
        have : 0 ≤ 37 / 96 * e ^ 4 := by positivity
        linarith
  nlinarith

theorem t_large_eq {a b e : ℝ} (h0 : 0 < e) (h1 : e < 1) :
    t_large (c_0 a e) b e = a ^ 4 / (4 * b) * (768 / 425 * (1 - e ^ 2) ^ (7 / 2 : ℝ)) := by
  have hs := one_sub_sq_pos' h0.le h1
  have h := c_0_pow_four (a := a) h0 h1
  have e1 : (1 - e ^ 2) ^ 4 * (1 - e ^ 2) ^ (-1 / 2 : ℝ) = (1 - e ^ 2) ^ (7 / 2 : ℝ) := by
    rw [← rpow_natCast, ← rpow_add hs]; norm_num
  unfold t_large
  rw [← e1]
  have : c_0 a e ^ 4 / (4 * b) * e ^ (48 / 19 : ℝ) * (768 / 425) * (1 - e ^ 2) ^ (-1 / 2 : ℝ)
      * (1 + 121 / 304 * e ^ 2) ^ (3480 / 2299 : ℝ)
      = (c_0 a e ^ 4 * e ^ (48 / 19 : ℝ) * (1 + 121 / 304 * e ^ 2) ^ (3480 / 2299 : ℝ)) / (4 * b) * (768 / 425)
        * (1 - e ^ 2) ^ (-1 / 2 : ℝ) := by ring
  rw [this, h]
  ring

theorem t_large_bounds {a b e : ℝ} (hb : 0 < b) (ha : 0 < a) (h0 : 2 / 5 ≤ e) (h1 : e < 1) :
    0 < t_large (c_0 a e) b e ∧ t_large (c_0 a e) b e ≤ a ^ 4 / (4 * b)
      ∧ a ^ 4 / (4 * b) ≤ t_large (c_0 a e) b e * peters_f e := by
  have he : 0 < e := by linarith
  have hs := one_sub_sq_pos' he.le h1
  rw [t_large_eq he h1]
  have hT : 0 < a ^ 4 / (4 * b) := by positivity
  have hp : 0 < (1 - e ^ 2) ^ (7 / 2 : ℝ) := by positivity
  refine ⟨by positivity, ?_, ?_⟩
  · have : 768 / 425 * (1 - e ^ 2) ^ (7 / 2 : ℝ) ≤ 1 := by
      have h72 : (1 - e ^ 2) ^ (7 / 2 : ℝ) ≤ 0.84 ^ (7 / 2 : ℝ) :=
        rpow_le_rpow hs.le (by nlinarith) (by norm_num)
      have h84 : (0.84 : ℝ) ^ (7 / 2 : ℝ) ≤ 425 / 768 := by
        have : (0.84 : ℝ) ^ (7 / 2 : ℝ) = 0.84 ^ 3 * √0.84 := by
          rw [sqrt_eq_rpow, ← rpow_natCast, ← rpow_add (by norm_num)]; norm_num
        rw [this]
        have h2 : √(0.84 : ℝ) ≤ 0.92 := by
          rw [sqrt_le_left (by norm_num)]; norm_num
        calc _ ≤ (0.84 : ℝ) ^ 3 * 0.92 := mul_le_mul_of_nonneg_left h2 (by norm_num)
          _ ≤ 425 / 768 := by norm_num
      linarith
    nlinarith
  · unfold peters_f
    have : a ^ 4 / (4 * b) * (768 / 425 * (1 - e ^ 2) ^ (7 / 2 : ℝ))
        * ((1 + 73 / 24 * e ^ 2 + 37 / 96 * e ^ 4) / (1 - e ^ 2) ^ (7 / 2 : ℝ))
        = a ^ 4 / (4 * b) * (768 / 425 * (1 + 73 / 24 * e ^ 2 + 37 / 96 * e ^ 4)) := by field_simp
    rw [this]
    have : 1 ≤ 768 / 425 * (1 + 73 / 24 * e ^ 2 + 37 / 96 * e ^ 4) := by
      have : 0 ≤ 73 / 24 * e ^ 2 + 37 / 96 * e ^ 4 := by positivity
      linarith
    nlinarith

theorem t_exact_bounds {a b e : ℝ} (hb : 0 < b) (ha : 0 < a) (h0 : 0 < e) (h1 : e < 1) :
    0 < t_exact (c_0 a e) b e ∧ t_exact (c_0 a e) b e ≤ a ^ 4 / (4 * b)
      ∧ a ^ 4 / (4 * b) ≤ t_exact (c_0 a e) b e * peters_f e := by
  have hc := c_0_pos h0 h1 ha
  refine ⟨t_exact_pos hb hc h0 h1, ?_, ?_⟩
  · have := I514_le (c := c_0 a e) h0.le h1
    rw [Props.C02_a_roundtrip h0 h1] at this
    rw [le_div_iff₀ (by positivity)]
    have e1 : t_exact (c_0 a e) b e * (4 * b) = 48 / 19 * c_0 a e ^ 4 * I514 e := by
      unfold t_exact I514; field_simp; ring
    rw [e1]; exact this
  · have := le_I514 (c := c_0 a e) h0.le h1
    rw [Props.C02_a_roundtrip h0 h1] at this
    rw [div_le_iff₀ (by positivity)]
    have e1 : t_exact (c_0 a e) b e * peters_f e * (4 * b) = 48 / 19 * c_0 a e ^ 4 * I514 e * peters_f e := by
      unfold t_exact I514; field_simp; ring
    rw [e1]; exact this

/-- Bounds for every branch with the default tolerances. -/
theorem t_val_bounds {a b e : ℝ} (hb : 0 < b) (ha : 0 < a) (h0 : 0 ≤ e) (h1 : e < 1) (ex : Bool) :
    0 < t_val a b e 0.15 (1 - 1e-4) ex ∧ t_val a b e 0.15 (1 - 1e-4) ex ≤ a ^ 4 / (4 * b)
      ∧ a ^ 4 / (4 * b) ≤ t_val a b e 0.15 (1 - 1e-4) ex * peters_f e := by
  have hT : 0 < a ^ 4 / (4 * b) := by positivity
  simp only [t_val]
  split_ifs with c1 c2 c3 c4
  · rw [c1, Props.C04_zero, mul_one]; exact ⟨hT, le_rfl, le_rfl⟩
  · have hp : 0 < e := lt_of_le_of_ne h0 (Ne.symm c1)
    obtain ⟨q1, q2⟩ := t_small_bounds hb ha hp h1
    exact ⟨q1, q2, t_small_lower hb ha hp c2.le⟩
  · have hp : 2 / 5 ≤ e := by norm_num at c3 ⊢; linarith
    exact t_large_bounds hb ha hp h1
  · exact t_exact_bounds hb ha (lt_of_le_of_ne h0 (Ne.symm c1)) h1
  · have hp : 0.15 ≤ e := not_lt.1 c2
    have q1 := mandel_fit_pos hp h1
    have q2 := mandel_fit_le_one hp h1
    have q3 := mandel_fit_ge hp h1
    unfold t_fit
    refine ⟨by positivity, by nlinarith, ?_⟩
    rw [mul_assoc]
    nlinarith

end Legwork.evol
