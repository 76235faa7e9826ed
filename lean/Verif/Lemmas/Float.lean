import Mathlib.Analysis.SpecialFunctions.Pow.Real
import Mathlib.Analysis.SpecialFunctions.Log.Basic
import Mathlib.Analysis.Complex.ExponentialBounds
import Mathlib.Data.Set.Finite.Lattice
import Mathlib.Algebra.Order.Round
import Verif.Py.Float

/-!
# Rounding errors

`Arith.rnd_err` is the standard model of floating point arithmetic, derived from rounding to nearest. `Apx r δ xh x`
says that the computed value `xh` has the same logarithm as the exact value `x` up to `δ`, and that `x` has magnitude at
most `exp r`; it is closed under the positive operations.
-/

namespace Legwork.fl

open Real

theorem isDouble_grid (m e : ℤ) (hm : |m| ≤ 2 ^ 53) (h1 : -1074 ≤ e) (h2 : e ≤ 970) :
    IsDouble (m * (2 : ℝ) ^ e) := by
  rcases lt_or_eq_of_le hm with h | h
  · exact ⟨m, e, h, h1, by omega, rfl⟩
  · have h2' : (2 : ℝ) ^ (e + 1) = 2 * 2 ^ e := by rw [zpow_add_one₀ (by norm_num)]; ring
    rcases (abs_eq (by norm_num)).1 h with h | h
    · exact ⟨2 ^ 52, e + 1, by norm_num, by omega, by omega, by rw [h, h2']; push_cast; ring⟩
    · exact ⟨-2 ^ 52, e + 1, by norm_num, by omega, by omega, by rw [h, h2']; push_cast; ring⟩

theorem grid_near (x : ℝ) (e : ℤ) (hx : |x| ≤ 2 ^ 53 * (2 : ℝ) ^ e) (h1 : -1074 ≤ e) (h2 : e ≤ 970) :
    ∃ y, IsDouble y ∧ |y - x| ≤ (2 : ℝ) ^ e / 2 := by
  have hp : (0 : ℝ) < 2 ^ e := by positivity
  refine ⟨round (x / 2 ^ e) * 2 ^ e, isDouble_grid _ _ ?_ h1 h2, ?_⟩
  · have hq : |x / (2 : ℝ) ^ e| ≤ 2 ^ 53 := by
      rw [abs_div, abs_of_pos hp, div_le_iff₀ hp]; exact hx
    have ha := abs_le.1 hq
    have hr := abs_le.1 (abs_sub_round (x / (2 : ℝ) ^ e))
    have hu : ((round (x / (2 : ℝ) ^ e) : ℤ) : ℝ) < ((2 ^ 53 + 1 : ℤ) : ℝ) := by push_cast; linarith [ha.1, ha.2, hr.1, hr.2]
    have hl : ((-(2 ^ 53 + 1) : ℤ) : ℝ) < ((round (x / (2 : ℝ) ^ e) : ℤ) : ℝ) := by push_cast; linarith [ha.1, ha.2, hr.1, hr.2]
    have hu' := Int.cast_lt.1 hu
    have hl' := Int.cast_lt.1 hl
    rw [abs_le]; constructor <;> omega
  · have hr := abs_sub_round (x / (2 : ℝ) ^ e)
    have : (round (x / (2 : ℝ) ^ e) : ℝ) * 2 ^ e - x = -(x / (2 : ℝ) ^ e - round (x / (2 : ℝ) ^ e)) * 2 ^ e := by
      field_simp; ring
    rw [this, abs_mul, abs_neg, abs_of_pos hp]
    calc _ ≤ 1 / 2 * (2 : ℝ) ^ e := by gcongr
      _ = _ := by ring

theorem exists_near (x : ℝ) (hx : |x| ≤ 2 ^ 1000) :
    ∃ y, IsDouble y ∧ |y - x| ≤ 2 ^ (-53 : ℤ) * |x| + 2 ^ (-1075 : ℤ) := by
  by_cases h0 : |x| ≤ (2 : ℝ) ^ (-1021 : ℤ)
  · obtain ⟨y, hy, h⟩ := grid_near x (-1074)
      (h0.trans_eq (by rw [← zpow_natCast, ← zpow_add₀ (by norm_num)]; norm_num)) (le_refl _) (by norm_num)
    refine ⟨y, hy, h.trans ?_⟩
    have h3 : (2 : ℝ) ^ (-1074 : ℤ) / 2 = 2 ^ (-1075 : ℤ) := by
      rw [show (-1074 : ℤ) = -1075 + 1 by norm_num, zpow_add_one₀ (by norm_num)]; ring
    rw [h3]
    have : 0 ≤ (2 : ℝ) ^ (-53 : ℤ) * |x| := by positivity
    linarith
  · push Not at h0
    have hx0 : 0 < |x| := lt_trans (by positivity) h0
    obtain ⟨n, hn1, hn2⟩ := exists_mem_Ico_zpow (y := (2 : ℝ)) hx0 (by norm_num)
    have hn3 : -1021 < n + 1 := (zpow_lt_zpow_iff_right₀ (by norm_num : (1 : ℝ) < 2)).1 (h0.trans hn2)
    have hn4 : n ≤ 1000 := (zpow_le_zpow_iff_right₀ (by norm_num : (1 : ℝ) < 2)).1 (hn1.trans hx)
    obtain ⟨y, hy, h⟩ := grid_near x (n - 52)
      (hn2.le.trans_eq (by rw [← zpow_natCast, ← zpow_add₀ (by norm_num)]; congr 1; push_cast; ring)) (by omega) (by omega)
    refine ⟨y, hy, h.trans ?_⟩
    have h3 : (2 : ℝ) ^ (n - 52) / 2 = 2 ^ (-53 : ℤ) * 2 ^ n := by
      rw [← zpow_add₀ (by norm_num), show n - 52 = (-53 + n) + 1 by ring, zpow_add_one₀ (by norm_num)]; ring
    rw [h3]
    have h4 : (2 : ℝ) ^ (-53 : ℤ) * 2 ^ n ≤ 2 ^ (-53 : ℤ) * |x| := by gcongr
    have h5 : 0 ≤ (2 : ℝ) ^ (-1075 : ℤ) := by positivity
    linarith

/-- The standard model of floating point arithmetic. -/
theorem Arith.rnd_err (A : Arith) (x : ℝ) (hx : |x| ≤ 2 ^ 1000) :
    |A.rnd x - x| ≤ 2 ^ (-53 : ℤ) * |x| + 2 ^ (-1075 : ℤ) := by
  obtain ⟨y, hy, h⟩ := exists_near x hx
  exact ((A.nearest x hx).2 y hy).trans h

theorem finite_doubles : {x : ℝ | IsDouble x}.Finite := by
  refine Set.Finite.subset (((Set.finite_Icc (-2 ^ 53 : ℤ) (2 ^ 53)).prod (Set.finite_Icc (-1074 : ℤ) 971)).image
    (fun p : ℤ × ℤ => (p.1 : ℝ) * (2 : ℝ) ^ p.2)) ?_
  rintro x ⟨m, e, hm, h1, h2, rfl⟩
  exact ⟨(m, e), ⟨⟨(abs_lt.1 hm).1.le, (abs_lt.1 hm).2.le⟩, h1, h2⟩, rfl⟩

theorem exists_nearest (x : ℝ) : ∃ y, IsDouble y ∧ ∀ z, IsDouble z → |y - x| ≤ |z - x| := by
  obtain ⟨y, hy, h⟩ := Set.exists_min_image {x : ℝ | IsDouble x} (fun y => |y - x|) finite_doubles
    ⟨0, 0, 0, by norm_num, by norm_num, by norm_num, by norm_num⟩
  exact ⟨y, hy, h⟩

/-- Rounding of one number. -/
noncomputable def nearestDouble (x : ℝ) : ℝ := (exists_nearest x).choose

theorem nearestDouble_spec (x : ℝ) :
    IsDouble (nearestDouble x) ∧ ∀ z, IsDouble z → |nearestDouble x - x| ≤ |z - x| :=
  (exists_nearest x).choose_spec

/-- Correctly rounded arithmetic, powers included. -/
noncomputable def Arith.correct : Arith where
  rnd := nearestDouble
  pow x y := nearestDouble (x ^ y)
  nearest x _ := nearestDouble_spec x
  pow_ulps x y h0 _ h := by
    have hx : |x ^ y| ≤ 2 ^ 1000 := by rwa [abs_of_nonneg (rpow_nonneg h0 _)]
    obtain ⟨z, hz, hzn⟩ := exists_near (x ^ y) hx
    refine ((nearestDouble_spec (x ^ y)).2 z hz).trans (hzn.trans ?_)
    rw [abs_of_nonneg (rpow_nonneg h0 _)]
    have := rpow_nonneg h0 y
    gcongr <;> norm_num

/-- The machine epsilon. -/
noncomputable def eps : ℝ := 2 ^ (-52 : ℤ)

theorem eps_pos : 0 < eps := by unfold eps; positivity

theorem eps_le : eps ≤ 1 / 2 ^ 52 := by unfold eps; norm_num

theorem log_near {x y t : ℝ} (hx : 0 < x) (ht : t < 1) (h : |y - x| ≤ t * x) :
    0 < y ∧ |log y - log x| ≤ t / (1 - t) := by
  obtain ⟨h1, h2⟩ := abs_le.1 h
  have ht0 : 0 ≤ t := by
    have := (abs_nonneg _).trans h
    exact nonneg_of_mul_nonneg_left this hx
  have hy1 : (1 - t) * x ≤ y := by linarith
  have hy : 0 < y := lt_of_lt_of_le (mul_pos (by linarith) hx) hy1
  refine ⟨hy, abs_le.2 ⟨?_, ?_⟩⟩
  · have := log_le_sub_one_of_pos (div_pos hx hy)
    rw [log_div hx.ne' hy.ne'] at this
    have h3 : x / y ≤ 1 / (1 - t) := by
      rw [div_le_div_iff₀ hy (by linarith)]; linarith
    have h4 : t / (1 - t) = 1 / (1 - t) - 1 := by
      have : (1 - t) ≠ 0 := by linarith
      field_simp; ring
    linarith
  · have := log_le_sub_one_of_pos (div_pos hy hx)
    rw [log_div hy.ne' hx.ne'] at this
    have h3 : y / x ≤ 1 + t := by rw [div_le_iff₀ hx]; linarith
    have h4 : t ≤ t / (1 - t) := by
      rw [le_div_iff₀ (by linarith)]; nlinarith
    linarith

theorem two_pow_le : exp 690 ≤ 2 ^ 1000 := by
  rw [← log_le_log_iff (exp_pos _) (by positivity), log_exp, log_pow]
  have := log_two_gt_d9
  push_cast; linarith

theorem le_two_pow : (2 : ℝ) ^ (-1000 : ℤ) ≤ exp (-690) := by
  rw [exp_neg, zpow_neg]
  exact inv_anti₀ (exp_pos _) (by exact_mod_cast two_pow_le)

/-- `xh` approximates the positive number `x` of magnitude at most `exp r` up to a factor of `exp δ`. -/
structure Apx (r δ xh x : ℝ) : Prop where
  pos : 0 < x
  posh : 0 < xh
  mag : |log x| ≤ r
  err : |log xh - log x| ≤ δ

namespace Apx

variable {r s δ η xh x yh y : ℝ}

theorem magh (h : Apx r δ xh x) : |log xh| ≤ r + δ := by
  have := abs_add_le (log xh - log x) (log x)
  rw [sub_add_cancel] at this
  linarith [h.mag, h.err]

theorem r_nonneg (h : Apx r δ xh x) : 0 ≤ r := (abs_nonneg _).trans h.mag

theorem δ_nonneg (h : Apx r δ xh x) : 0 ≤ δ := (abs_nonneg _).trans h.err

theorem mono (h : Apx r δ xh x) (hr : r ≤ s) (hd : δ ≤ η) : Apx s η xh x :=
  ⟨h.pos, h.posh, h.mag.trans hr, h.err.trans hd⟩

theorem self (hx : 0 < x) (h : |log x| ≤ r) : Apx r 0 x x := ⟨hx, hx, h, by simp⟩

theorem of_mem (a : ℝ) (ha : 1 ≤ a) (h1 : 1 / a ≤ x) (h2 : x ≤ a) (hr : log a ≤ r) : Apx r 0 x x := by
  have hx : 0 < x := lt_of_lt_of_le (by positivity) h1
  refine self hx (abs_le.2 ⟨?_, ?_⟩)
  · have := log_le_log (by positivity) h1
    rw [one_div, log_inv] at this
    linarith
  · have := log_le_log hx h2
    linarith

theorem trans {z : ℝ} (h : Apx r δ xh x) (h' : |log x - log z| ≤ η) (hz : 0 < z) (hr : |log z| ≤ s) :
    Apx s (δ + η) xh z := by
  refine ⟨hz, h.posh, hr, ?_⟩
  have := abs_add_le (log xh - log x) (log x - log z)
  rw [sub_add_sub_cancel] at this
  linarith [h.err]

theorem upper (h : Apx r δ xh x) (hb : r + δ ≤ 690) : xh ≤ 2 ^ 1000 := by
  have := (abs_le.1 h.magh).2
  calc xh = exp (log xh) := (exp_log h.posh).symm
    _ ≤ exp 690 := exp_le_exp.2 (by linarith)
    _ ≤ _ := two_pow_le

theorem lower (h : Apx r δ xh x) (hb : r + δ ≤ 690) : 2 ^ (-1000 : ℤ) ≤ xh := by
  have := (abs_le.1 h.magh).1
  calc _ ≤ exp (-690) := le_two_pow
    _ ≤ exp (log xh) := exp_le_exp.2 (by linarith)
    _ = xh := exp_log h.posh

/-- Rounding a result. -/
theorem rnd (A : Arith) (h : Apx r δ xh x) (hb : r + δ ≤ 690) : Apx r (δ + eps) (A.rnd xh) x := by
  have hl := h.lower hb
  have hn : |A.rnd xh - xh| ≤ (2 ^ (-53 : ℤ) + 2 ^ (-75 : ℤ)) * xh := by
    refine (A.rnd_err xh ?_).trans ?_
    · rw [abs_of_pos h.posh]; exact h.upper hb
    · rw [abs_of_pos h.posh, add_mul]
      have : (2 : ℝ) ^ (-1075 : ℤ) = 2 ^ (-75 : ℤ) * 2 ^ (-1000 : ℤ) := by
        rw [← zpow_add₀ (by norm_num)]; norm_num
      rw [this]; gcongr
  obtain ⟨h1, h2⟩ := log_near h.posh (by norm_num) hn
  refine ⟨h.pos, h1, h.mag, ?_⟩
  have := abs_add_le (log (A.rnd xh) - log xh) (log xh - log x)
  rw [sub_add_sub_cancel] at this
  have h3 : ((2 : ℝ) ^ (-53 : ℤ) + 2 ^ (-75 : ℤ)) / (1 - (2 ^ (-53 : ℤ) + 2 ^ (-75 : ℤ))) ≤ eps := by
    unfold eps; norm_num
  linarith [h.err]

theorem mul (h : Apx r δ xh x) (k : Apx s η yh y) : Apx (r + s) (δ + η) (xh * yh) (x * y) := by
  refine ⟨mul_pos h.pos k.pos, mul_pos h.posh k.posh, ?_, ?_⟩
  · rw [log_mul h.pos.ne' k.pos.ne']
    exact (abs_add_le _ _).trans (add_le_add h.mag k.mag)
  · rw [log_mul h.pos.ne' k.pos.ne', log_mul h.posh.ne' k.posh.ne', add_sub_add_comm]
    exact (abs_add_le _ _).trans (add_le_add h.err k.err)

theorem inv (h : Apx r δ xh x) : Apx r δ xh⁻¹ x⁻¹ := by
  refine ⟨inv_pos.2 h.pos, inv_pos.2 h.posh, ?_, ?_⟩
  · rw [log_inv, abs_neg]; exact h.mag
  · rw [log_inv, log_inv, neg_sub_neg, abs_sub_comm]; exact h.err

theorem div (h : Apx r δ xh x) (k : Apx s η yh y) : Apx (r + s) (δ + η) (xh / yh) (x / y) := by
  rw [div_eq_mul_inv, div_eq_mul_inv]; exact h.mul k.inv

theorem le_mul (h : Apx r δ xh x) : xh ≤ exp δ * x := by
  rw [← log_le_log_iff h.posh (mul_pos (exp_pos _) h.pos), log_mul (exp_pos _).ne' h.pos.ne', log_exp]
  linarith [(abs_le.1 h.err).2]

theorem mul_le (h : Apx r δ xh x) : exp (-δ) * x ≤ xh := by
  rw [← log_le_log_iff (mul_pos (exp_pos _) h.pos) h.posh, log_mul (exp_pos _).ne' h.pos.ne', log_exp]
  linarith [(abs_le.1 h.err).1]

theorem of_bounds (hx : 0 < x) (hm : |log x| ≤ r) (h1 : exp (-δ) * x ≤ xh) (h2 : xh ≤ exp δ * x) : Apx r δ xh x := by
  have hxh : 0 < xh := lt_of_lt_of_le (mul_pos (exp_pos _) hx) h1
  refine ⟨hx, hxh, hm, abs_le.2 ⟨?_, ?_⟩⟩
  · rw [← log_le_log_iff (mul_pos (exp_pos _) hx) hxh, log_mul (exp_pos _).ne' hx.ne', log_exp] at h1
    linarith
  · rw [← log_le_log_iff hxh (mul_pos (exp_pos _) hx), log_mul (exp_pos _).ne' hx.ne', log_exp] at h2
    linarith

theorem le_exp (h : Apx r δ xh x) : x ≤ exp r := by
  rw [← log_le_log_iff h.pos (exp_pos _), log_exp]; exact (abs_le.1 h.mag).2

theorem exp_le (h : Apx r δ xh x) : exp (-r) ≤ x := by
  rw [← log_le_log_iff (exp_pos _) h.pos, log_exp]; exact (abs_le.1 h.mag).1

theorem add (h : Apx r δ xh x) (k : Apx r δ yh y) : Apx (r + 7 / 10) δ (xh + yh) (x + y) := by
  refine of_bounds (add_pos h.pos k.pos) (abs_le.2 ⟨?_, ?_⟩) ?_ ?_
  · have h1 : exp (-r) ≤ x + y := by linarith [h.exp_le, k.pos]
    rw [← log_le_log_iff (exp_pos _) (add_pos h.pos k.pos), log_exp] at h1
    linarith
  · have h1 : x + y ≤ 2 * exp r := by linarith [h.le_exp, k.le_exp]
    rw [← log_le_log_iff (add_pos h.pos k.pos) (by positivity), log_mul (by norm_num) (exp_pos _).ne', log_exp] at h1
    linarith [log_two_lt_d9]
  · rw [mul_add]; exact add_le_add h.mul_le k.mul_le
  · rw [mul_add]; exact add_le_add h.le_mul k.le_mul

/-- A power with a rounded exponent. -/
theorem rpow {p ph d : ℝ} (h : Apx r δ xh x) (hp : |ph - p| ≤ d) :
    Apx (|p| * r) (|p| * δ + d * (r + δ)) (xh ^ ph) (x ^ p) := by
  refine ⟨rpow_pos_of_pos h.pos _, rpow_pos_of_pos h.posh _, ?_, ?_⟩
  · rw [log_rpow h.pos, abs_mul]
    exact mul_le_mul_of_nonneg_left h.mag (abs_nonneg _)
  · rw [log_rpow h.pos, log_rpow h.posh,
      show ph * log xh - p * log x = p * (log xh - log x) + (ph - p) * log xh by ring]
    refine (abs_add_le _ _).trans (add_le_add ?_ ?_)
    · rw [abs_mul]; exact mul_le_mul_of_nonneg_left h.err (abs_nonneg _)
    · rw [abs_mul]
      exact mul_le_mul hp h.magh (abs_nonneg _) ((abs_nonneg _).trans hp)

/-- The power computed by the library. -/
theorem pow (A : Arith) {p ph d : ℝ} (h : Apx r δ xh x) (hp : |ph - p| ≤ d)
    (hb : |p| * r + (|p| * δ + d * (r + δ)) ≤ 690) :
    Apx (|p| * r) (|p| * δ + d * (r + δ) + 5 * eps) (A.pow xh ph) (x ^ p) := by
  have k := h.rpow hp
  have hl := k.lower hb
  have hn : |A.pow xh ph - xh ^ ph| ≤ (2 ^ (-50 : ℤ) + 2 ^ (-72 : ℤ)) * xh ^ ph := by
    refine (A.pow_ulps xh ph h.posh.le (Or.inl h.posh) (k.upper hb)).trans ?_
    rw [add_mul]
    have : (2 : ℝ) ^ (-1072 : ℤ) = 2 ^ (-72 : ℤ) * 2 ^ (-1000 : ℤ) := by
      rw [← zpow_add₀ (by norm_num)]; norm_num
    rw [this]; gcongr
  obtain ⟨h1, h2⟩ := log_near k.posh (by norm_num) hn
  refine ⟨k.pos, h1, k.mag, ?_⟩
  have := abs_add_le (log (A.pow xh ph) - log (xh ^ ph)) (log (xh ^ ph) - log (x ^ p))
  rw [sub_add_sub_cancel] at this
  have h3 : ((2 : ℝ) ^ (-50 : ℤ) + 2 ^ (-72 : ℤ)) / (1 - (2 ^ (-50 : ℤ) + 2 ^ (-72 : ℤ))) ≤ 5 * eps := by
    unfold eps; norm_num
  linarith [k.err]

/-- What the approximation says about the relative error. -/
theorem rel (h : Apx r δ xh x) (hd : δ ≤ 1 / 2) : |xh - x| ≤ (δ + δ ^ 2) * x := by
  have h0 := h.δ_nonneg
  have h1 : exp δ ≤ 1 + δ + δ ^ 2 := by
    have := abs_exp_sub_one_sub_id_le (x := δ) (by rw [abs_of_nonneg h0]; linarith)
    linarith [(abs_le.1 this).2]
  have h2 : 1 - δ ≤ exp (-δ) := by linarith [add_one_le_exp (-δ)]
  rw [abs_le]
  constructor
  · have := mul_le_mul_of_nonneg_right h2 h.pos.le
    nlinarith [h.mul_le, h.pos, mul_nonneg (sq_nonneg δ) h.pos.le]
  · have := mul_le_mul_of_nonneg_right h1 h.pos.le
    nlinarith [h.le_mul, h.pos]

/-- The relative error, for errors of up to a million units. -/
theorem rel_eps {k k' : ℝ} (h : Apx r (k * eps) xh x) (hk : k ≤ 2 ^ 20) (hk' : k + 1 ≤ k') :
    |xh - x| ≤ k' * eps * x := by
  have he := eps_pos
  have he' := eps_le
  have h0 := h.δ_nonneg
  have hk0 : 0 ≤ k := nonneg_of_mul_nonneg_left h0 he
  have h1 : k * eps ≤ 2 ^ 20 * (1 / 2 ^ 52) := mul_le_mul hk he' he.le (by norm_num)
  refine (h.rel (h1.trans (by norm_num))).trans ?_
  gcongr
  · exact h.pos.le
  · have : (k * eps) ^ 2 ≤ eps := by
      have : (k * eps) ^ 2 = (k * (k * eps)) * eps := by ring
      rw [this]
      have h2 : k * (k * eps) ≤ 2 ^ 20 * (2 ^ 20 * (1 / 2 ^ 52)) := mul_le_mul hk h1 h0 (by norm_num)
      have h3 : k * (k * eps) ≤ 1 := h2.trans (by norm_num)
      nlinarith
    nlinarith

end Apx

end Legwork.fl
