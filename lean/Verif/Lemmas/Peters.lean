import Mathlib.Analysis.SpecialFunctions.Pow.Deriv
import Mathlib.Analysis.Calculus.MeanValue
import Mathlib.MeasureTheory.Integral.IntervalIntegral.FundThmCalculus
import Verif.Model.Evol
import Verif.Lemmas.Basic
import Verif.Props.Utils

/-!
# Calculus of Peters' equations
-/

namespace Legwork.evol

open Real Legwork.utils Legwork.Props

theorem one_sub_sq_pos' {e : ℝ} (h0 : 0 ≤ e) (h1 : e < 1) : 0 < 1 - e ^ 2 := by nlinarith

theorem peters_f_pos' {e : ℝ} (h0 : 0 ≤ e) (h1 : e < 1) : 0 < peters_f e :=
  lt_of_lt_of_le one_pos (C04_one_le h0 h1)

theorem get_a_from_ecc_pos {e c : ℝ} (h0 : 0 < e) (h1 : e < 1) (hc : 0 < c) : 0 < get_a_from_ecc e c := by
  have := one_sub_sq_pos' h0.le h1
  unfold get_a_from_ecc
  positivity

theorem c_0_pos {e a : ℝ} (h0 : 0 < e) (h1 : e < 1) (ha : 0 < a) : 0 < c_0 a e := by
  have := one_sub_sq_pos' h0.le h1
  unfold c_0
  positivity

theorem beta_pos (K : Consts) {m₁ m₂ : ℝ} (h₁ : 0 < m₁) (h₂ : 0 < m₂) : 0 < utils.beta K m₁ m₂ := by
  have := K.G_pos; have := K.c_pos
  unfold utils.beta; positivity

/-- The numerator polynomial of `peters_f`. -/
noncomputable def numF (e : ℝ) : ℝ := 1 + (73 / 24) * e ^ 2 + (37 / 96) * e ^ 4

/-- Derivative of the separation with respect to the eccentricity along Peters' curve. -/
theorem hasDerivAt_get_a {e c : ℝ} (h0 : 0 < e) (h1 : e < 1) :
    HasDerivAt (fun x => get_a_from_ecc x c)
      (get_a_from_ecc e c * (12 / 19 * numF e / (e * (1 - e ^ 2) * (1 + 121 / 304 * e ^ 2)))) e := by
  have hs := one_sub_sq_pos' h0.le h1
  have hk : 0 < 1 + 121 / 304 * e ^ 2 := by positivity
  have d1 : HasDerivAt (fun x : ℝ => x ^ (12 / 19 : ℝ)) (12 / 19 * e ^ (12 / 19 - 1 : ℝ)) e :=
    Real.hasDerivAt_rpow_const (Or.inl h0.ne')
  have dsq : HasDerivAt (fun x : ℝ => x ^ 2) (2 * e) e := by simpa using hasDerivAt_pow 2 e
  have d2 : HasDerivAt (fun x : ℝ => 1 - x ^ 2) (-(2 * e)) e := by simpa using dsq.const_sub 1
  have d3 : HasDerivAt (fun x : ℝ => 1 + 121 / 304 * x ^ 2) (121 / 304 * (2 * e)) e := by
    simpa using (dsq.const_mul (121 / 304)).const_add 1
  have d4 : HasDerivAt (fun x : ℝ => (1 + 121 / 304 * x ^ 2) ^ (870 / 2299 : ℝ))
      (121 / 304 * (2 * e) * (870 / 2299) * (1 + 121 / 304 * e ^ 2) ^ (870 / 2299 - 1 : ℝ)) e :=
    d3.rpow_const (Or.inl hk.ne')
  have := ((d1.const_mul c).div d2 hs.ne').mul d4
  refine this.congr_deriv ?_
  simp only [Pi.div_apply]
  rw [rpow_sub_one h0.ne', rpow_sub_one hk.ne']
  unfold get_a_from_ecc numF
  generalize e ^ (12 / 19 : ℝ) = A
  generalize (1 + 121 / 304 * e ^ 2) ^ (870 / 2299 : ℝ) = B
  have h19 : (304 + 121 * e ^ 2) ≠ 0 := by positivity
  field_simp
  ring

theorem rpow_pow_eq' {x : ℝ} (hx : 0 ≤ x) {n : ℕ} {p : ℝ} : (x ^ p) ^ n = x ^ (p * n) := by
  rw [← rpow_natCast, ← rpow_mul hx]

/-- Fourth power of the separation in terms of the eccentricity factors. -/
theorem get_a_pow_four {e c : ℝ} (h0 : 0 < e) :
    get_a_from_ecc e c ^ 4 = c ^ 4 * (e ^ (48 / 19 : ℝ) * (1 + 121 / 304 * e ^ 2) ^ (3480 / 2299 : ℝ)
      / (1 - e ^ 2) ^ 4) := by
  have hk : 0 < 1 + 121 / 304 * e ^ 2 := by positivity
  unfold get_a_from_ecc
  have e1 : e ^ (48 / 19 : ℝ) = (e ^ (12 / 19 : ℝ)) ^ 4 := by
    rw [← rpow_natCast, ← rpow_mul h0.le]; norm_num
  have e2 : (1 + 121 / 304 * e ^ 2) ^ (3480 / 2299 : ℝ) = ((1 + 121 / 304 * e ^ 2) ^ (870 / 2299 : ℝ)) ^ 4 := by
    rw [rpow_pow_eq' hk.le]; norm_num
  rw [e1, e2]
  simp only [mul_pow, div_pow]
  ring

/-- `a(e)⁴` has derivative `(48/19) c⁴ p(e) F(e)` where `p` is the integrand of Peters (5.14). -/
theorem hasDerivAt_get_a_pow_four {e c : ℝ} (h0 : 0 < e) (h1 : e < 1) :
    HasDerivAt (fun x => get_a_from_ecc x c ^ 4) (48 / 19 * c ^ 4 * (peters_5_14 e * peters_f e)) e := by
  have hs := one_sub_sq_pos' h0.le h1
  have hk : 0 < 1 + 121 / 304 * e ^ 2 := by positivity
  have d := (hasDerivAt_get_a (c := c) h0 h1).pow 4
  refine d.congr_deriv ?_
  have h4 := get_a_pow_four (c := c) h0
  have e1 : e ^ (48 / 19 : ℝ) = e ^ (29 / 19 : ℝ) * e := by
    rw [← rpow_add_one h0.ne']; norm_num
  have e2 : (1 + 121 / 304 * e ^ 2) ^ (3480 / 2299 : ℝ)
      = (1 + 121 / 304 * e ^ 2) ^ (1181 / 2299 : ℝ) * (1 + 121 / 304 * e ^ 2) := by
    rw [← rpow_add_one hk.ne']; norm_num
  have e3 : (1 - e ^ 2) ^ (3 / 2 : ℝ) * (1 - e ^ 2) ^ (7 / 2 : ℝ) = (1 - e ^ 2) ^ 5 := by
    rw [← rpow_add hs, ← rpow_natCast]; norm_num
  have : ((4 : ℕ) : ℝ) * get_a_from_ecc e c ^ (4 - 1) * (get_a_from_ecc e c
      * (12 / 19 * numF e / (e * (1 - e ^ 2) * (1 + 121 / 304 * e ^ 2))))
      = get_a_from_ecc e c ^ 4 * (48 / 19 * numF e / (e * (1 - e ^ 2) * (1 + 121 / 304 * e ^ 2))) := by
    push_cast; ring
  rw [this, h4, e1, e2]
  have hp : 0 < (1 - e ^ 2) ^ (3 / 2 : ℝ) := by positivity
  have hq : 0 < (1 - e ^ 2) ^ (7 / 2 : ℝ) := by positivity
  have e5 : peters_5_14 e * peters_f e
      = e ^ (29 / 19 : ℝ) * (1 + 121 / 304 * e ^ 2) ^ (1181 / 2299 : ℝ) * numF e / (1 - e ^ 2) ^ 5 := by
    unfold peters_5_14 peters_f numF
    rw [← e3]
    field_simp
  rw [e5]
  field_simp

theorem continuousOn_peters_5_14 : ContinuousOn peters_5_14 (Set.Ico 0 1) := by
  unfold peters_5_14
  intro x hx
  have hs := one_sub_sq_pos' hx.1 hx.2
  apply ContinuousAt.continuousWithinAt
  have h1 : ContinuousAt (fun e : ℝ => e ^ (29 / 19 : ℝ)) x :=
    continuousAt_id.rpow_const (Or.inr (by norm_num))
  have h2 : ContinuousAt (fun e : ℝ => (1 + (121 / 304) * e ^ 2) ^ (1181 / 2299 : ℝ)) x :=
    ContinuousAt.rpow_const (by fun_prop) (Or.inr (by norm_num))
  have h3 : ContinuousAt (fun e : ℝ => (1 - e ^ 2) ^ (3 / 2 : ℝ)) x :=
    ContinuousAt.rpow_const (by fun_prop) (Or.inr (by norm_num))
  exact (h1.mul h2).div h3 (by positivity)

theorem peters_5_14_pos {e : ℝ} (h0 : 0 < e) (h1 : e < 1) : 0 < peters_5_14 e := by
  have hs := one_sub_sq_pos' h0.le h1
  unfold peters_5_14; positivity

theorem peters_5_14_nonneg {e : ℝ} (h0 : 0 ≤ e) (h1 : e < 1) : 0 ≤ peters_5_14 e := by
  have hs := one_sub_sq_pos' h0 h1
  unfold peters_5_14; positivity

theorem intervalIntegrable_peters_5_14 {e : ℝ} (h0 : 0 ≤ e) (h1 : e < 1) :
    IntervalIntegrable peters_5_14 MeasureTheory.volume 0 e := by
  apply ContinuousOn.intervalIntegrable
  apply continuousOn_peters_5_14.mono
  rw [Set.uIcc_of_le h0]
  exact fun x hx => ⟨hx.1, lt_of_le_of_lt hx.2 h1⟩

/-- The integral in Peters (5.14). -/
noncomputable def I514 (e : ℝ) : ℝ := ∫ x in (0 : ℝ)..e, peters_5_14 x

theorem hasDerivAt_I514 {e : ℝ} (h0 : 0 < e) (h1 : e < 1) : HasDerivAt I514 (peters_5_14 e) e := by
  have hc : ContinuousAt peters_5_14 e :=
    (continuousOn_peters_5_14 e ⟨h0.le, h1⟩).continuousAt (Ico_mem_nhds h0 h1)
  apply intervalIntegral.integral_hasDerivAt_right (intervalIntegrable_peters_5_14 h0.le h1) _ hc
  have : ContinuousOn peters_5_14 (Set.Ioo 0 1) := continuousOn_peters_5_14.mono Set.Ioo_subset_Ico_self
  exact this.stronglyMeasurableAtFilter isOpen_Ioo e ⟨h0, h1⟩

theorem I514_pos {e : ℝ} (h0 : 0 < e) (h1 : e < 1) : 0 < I514 e := by
  unfold I514
  apply intervalIntegral.intervalIntegral_pos_of_pos_on (intervalIntegrable_peters_5_14 h0.le h1) _ h0
  exact fun x hx => peters_5_14_pos hx.1 (hx.2.trans h1)

theorem continuousOn_get_a (c : ℝ) : ContinuousOn (fun x => get_a_from_ecc x c) (Set.Ico 0 1) := by
  intro x hx
  have hs := one_sub_sq_pos' hx.1 hx.2
  apply ContinuousAt.continuousWithinAt
  unfold get_a_from_ecc
  have h1 : ContinuousAt (fun e : ℝ => e ^ (12 / 19 : ℝ)) x :=
    continuousAt_id.rpow_const (Or.inr (by norm_num))
  have h2 : ContinuousAt (fun e : ℝ => (1 + (121 / 304) * e ^ 2) ^ (870 / 2299 : ℝ)) x :=
    ContinuousAt.rpow_const (by fun_prop) (Or.inr (by norm_num))
  exact (((continuousAt_const).mul h1).div (by fun_prop) hs.ne').mul h2

theorem get_a_zero (c : ℝ) : get_a_from_ecc 0 c = 0 := by
  unfold get_a_from_ecc
  rw [zero_rpow (by norm_num)]; simp

theorem continuousOn_peters_f : ContinuousOn peters_f (Set.Ico 0 1) := by
  intro x hx
  have hs := one_sub_sq_pos' hx.1 hx.2
  apply ContinuousAt.continuousWithinAt
  unfold peters_f
  have h3 : ContinuousAt (fun e : ℝ => (1 - e ^ 2) ^ (7 / 2 : ℝ)) x :=
    ContinuousAt.rpow_const (by fun_prop) (Or.inr (by norm_num))
  exact ContinuousAt.div (by fun_prop) h3 (by positivity)

/-- `a(e)⁴ = (48/19) c⁴ ∫₀^e p F`. -/
theorem get_a_pow_four_eq_integral {e c : ℝ} (h0 : 0 ≤ e) (h1 : e < 1) :
    ∫ x in (0 : ℝ)..e, 48 / 19 * c ^ 4 * (peters_5_14 x * peters_f x) = get_a_from_ecc e c ^ 4 := by
  have hsub : Set.Icc (0 : ℝ) e ⊆ Set.Ico 0 1 := fun x hx => ⟨hx.1, lt_of_le_of_lt hx.2 h1⟩
  rw [intervalIntegral.integral_eq_sub_of_hasDerivAt_of_le h0
    (f := fun x => get_a_from_ecc x c ^ 4) (((continuousOn_get_a c).mono hsub).pow 4)
    (fun x hx => hasDerivAt_get_a_pow_four hx.1 (hx.2.trans h1))]
  · simp [get_a_zero]
  · apply ContinuousOn.intervalIntegrable
    rw [Set.uIcc_of_le h0]
    exact (continuousOn_const.mul ((continuousOn_peters_5_14.mul continuousOn_peters_f).mono hsub))

/-- The integral of Peters (5.14) is bounded above by the circular value. -/
theorem I514_le {e c : ℝ} (h0 : 0 ≤ e) (h1 : e < 1) :
    48 / 19 * c ^ 4 * I514 e ≤ get_a_from_ecc e c ^ 4 := by
  rw [← get_a_pow_four_eq_integral h0 h1]
  unfold I514
  rw [← intervalIntegral.integral_const_mul]
  have hsub : Set.Icc (0 : ℝ) e ⊆ Set.Ico 0 1 := fun x hx => ⟨hx.1, lt_of_le_of_lt hx.2 h1⟩
  apply intervalIntegral.integral_mono_on h0
  · exact (intervalIntegrable_peters_5_14 h0 h1).const_mul _
  · apply ContinuousOn.intervalIntegrable
    rw [Set.uIcc_of_le h0]
    exact (continuousOn_const.mul ((continuousOn_peters_5_14.mul continuousOn_peters_f).mono hsub))
  · intro x hx
    have hx1 := (hsub hx).2
    have hp := peters_5_14_nonneg hx.1 hx1
    have hF := C04_one_le hx.1 hx1
    apply mul_le_mul_of_nonneg_left _ (by positivity)
    nlinarith

/-- The integral of Peters (5.14) is bounded below by the circular value over the enhancement factor. -/
theorem le_I514 {e c : ℝ} (h0 : 0 ≤ e) (h1 : e < 1) :
    get_a_from_ecc e c ^ 4 ≤ 48 / 19 * c ^ 4 * I514 e * peters_f e := by
  rw [← get_a_pow_four_eq_integral h0 h1]
  have e1 : 48 / 19 * c ^ 4 * I514 e * peters_f e = ∫ x in (0 : ℝ)..e, 48 / 19 * c ^ 4 * peters_f e * peters_5_14 x := by
    unfold I514
    rw [intervalIntegral.integral_const_mul]; ring
  rw [e1]
  have hsub : Set.Icc (0 : ℝ) e ⊆ Set.Ico 0 1 := fun x hx => ⟨hx.1, lt_of_le_of_lt hx.2 h1⟩
  apply intervalIntegral.integral_mono_on h0
  · apply ContinuousOn.intervalIntegrable
    rw [Set.uIcc_of_le h0]
    exact (continuousOn_const.mul ((continuousOn_peters_5_14.mul continuousOn_peters_f).mono hsub))
  · exact (intervalIntegrable_peters_5_14 h0 h1).const_mul _
  · intro x hx
    have hx1 := (hsub hx).2
    have hp := peters_5_14_nonneg hx.1 hx1
    have hF : peters_f x ≤ peters_f e := C04_strictMono.monotoneOn ⟨hx.1, hx1⟩ ⟨h0, h1⟩ hx.2
    have : 0 ≤ 48 / 19 * c ^ 4 := by positivity
    nlinarith [mul_le_mul_of_nonneg_left hF (mul_nonneg this hp)]

/-- `de_dt` is the reciprocal of the integrand of (5.14), up to the constant. -/
theorem de_dt_mul {e b c : ℝ} (h0 : 0 < e) (h1 : e < 1) (hb : b ≠ 0) (hc : c ≠ 0) :
    (12 / 19) * c ^ 4 / b * peters_5_14 e * de_dt e b c = -1 := by
  have hs := one_sub_sq_pos' h0.le h1
  have hk : 0 < 1 + 121 / 304 * e ^ 2 := by positivity
  unfold peters_5_14 de_dt
  have e1 : e ^ (-29 / 19 : ℝ) = (e ^ (29 / 19 : ℝ))⁻¹ := by rw [← rpow_neg h0.le]; norm_num
  rw [e1]
  have : 0 < e ^ (29 / 19 : ℝ) := by positivity
  have : 0 < (1 - e ^ 2) ^ (3 / 2 : ℝ) := by positivity
  have : 0 < (1 + 121 / 304 * e ^ 2) ^ (1181 / 2299 : ℝ) := by positivity
  field_simp

theorem de_dt_neg {e b c : ℝ} (h0 : 0 < e) (h1 : e < 1) (hb : 0 < b) (hc : c ≠ 0) : de_dt e b c < 0 := by
  have h := de_dt_mul h0 h1 hb.ne' hc
  have hp := peters_5_14_pos h0 h1
  have hq : 0 < (12 / 19) * c ^ 4 / b * peters_5_14 e := by
    have : 0 < c ^ 4 := by positivity
    positivity
  by_contra hge
  push Not at hge
  have := mul_nonneg hq.le hge
  linarith

/-- Separation derivative in time along a solution of the eccentricity equation. -/
theorem hasDerivAt_a_of_solution {e : ℝ → ℝ} {t b c : ℝ} (h0 : 0 < e t) (h1 : e t < 1) (hb : 0 < b)
    (hc : 0 < c) (he : HasDerivAt e (de_dt (e t) b c) t) :
    HasDerivAt (fun s => get_a_from_ecc (e s) c)
      (-b / get_a_from_ecc (e t) c ^ 3 * peters_f (e t)) t := by
  have ha := get_a_from_ecc_pos h0 h1 hc
  have d := (hasDerivAt_get_a (c := c) h0 h1).comp t he
  refine d.congr_deriv ?_
  have d4 := hasDerivAt_get_a_pow_four (c := c) h0 h1
  have d4' := (hasDerivAt_get_a (c := c) h0 h1).pow 4
  have huniq := d4.unique d4'
  have hm := de_dt_mul h0 h1 hb.ne' hc.ne'
  have h3 : get_a_from_ecc (e t) c ^ 3 ≠ 0 := by positivity
  rw [div_mul_eq_mul_div (-b) _ _, eq_div_iff h3]
  push_cast at huniq
  have : (12 / 19) * c ^ 4 * peters_5_14 (e t) * de_dt (e t) b c = -b := by
    field_simp at hm ⊢; linarith
  linear_combination (-1 / 4) * de_dt (e t) b c * huniq + peters_f (e t) * this

end Legwork.evol
