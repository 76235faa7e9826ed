import Mathlib.Analysis.SpecialFunctions.Sqrt
import Mathlib.MeasureTheory.Integral.IntervalIntegral.FundThmCalculus
import Verif.Lemmas.MandelFit
import Verif.Lemmas.PolyCheck

/-!
# Polynomial bounds on the integral of Peters (5.14)

With `s = √(1 - e²)`, the quantity `B(s) s⁷ a(e)⁴ - 48/19 c⁴ ∫₀^e p` is 0 at `e = 0` and has a derivative of the
sign of a polynomial in `s`. A polynomial `B` for which that polynomial is non-negative bounds the integral from
above, and one for which it is non-positive bounds it from below.
-/

namespace Legwork.evol

open Real Legwork.utils Legwork.PolyCheck

/-- Derivative of a polynomial. -/
def der : List ℚ → List ℚ
  | [] => []
  | _ :: p => add p (0 :: der p)

theorem hasDerivAt_ev (p : List ℚ) (x : ℝ) : HasDerivAt (ev p) (ev (der p) x) x := by
  induction p with
  | nil => exact (hasDerivAt_const x (0 : ℝ)).congr_of_eventuallyEq (Filter.Eventually.of_forall fun _ => rfl)
  | cons c p ih =>
    have h := ((hasDerivAt_id x).mul ih).const_add (c : ℝ)
    refine (h.congr_of_eventuallyEq (Filter.Eventually.of_forall fun y => ?_)).congr_deriv ?_
    · simp [ev_cons]
    · simp [der]

theorem continuous_ev (p : List ℚ) : Continuous (ev p) :=
  continuous_iff_continuousAt.2 fun x => (hasDerivAt_ev p x).continuousAt

/-- `1 - s²`. -/
def uPoly : List ℚ := [1, 0, -1]

/-- The polynomial deciding the sign of the derivative. -/
def resid (p : List ℚ) : List ℚ :=
  add (smul (-1) (mul (mul uPoly (add [1] (smul (121 / 304) uPoly))) (add (mul [0, 1] (der p)) (smul 7 p))))
    (add (smul (48 / 19) (mul p (add [1] (add (smul (73 / 24) uPoly) (smul (37 / 96) (mul uPoly uPoly))))))
      [-48 / 19])

theorem ev_resid (p : List ℚ) (s : ℝ) : ev (resid p) s
    = -((1 - s ^ 2) * (1 + 121 / 304 * (1 - s ^ 2)) * (s * ev (der p) s + 7 * ev p s))
      + 48 / 19 * (ev p s * (1 + 73 / 24 * (1 - s ^ 2) + 37 / 96 * (1 - s ^ 2) ^ 2)) - 48 / 19 := by
  simp only [resid, uPoly, ev_add, ev_smul, ev_mul, ev_cons, ev_nil]
  push_cast
  ring

theorem sqrt_pow_rpow {x : ℝ} (hx : 0 ≤ x) (n : ℕ) : √x ^ n = x ^ (n / 2 : ℝ) := by
  rw [sqrt_eq_rpow, ← rpow_natCast, ← rpow_mul hx]; congr 1; ring

theorem get_a_four_eq {e c : ℝ} (h0 : 0 < e) (h1 : e < 1) :
    get_a_from_ecc e c ^ 4 * √(1 - e ^ 2) ^ 5 = c ^ 4 * (peters_5_14 e * (e * (1 + 121 / 304 * e ^ 2))) := by
  have hs := one_sub_sq_pos' h0.le h1
  have hk : 0 < 1 + 121 / 304 * e ^ 2 := by positivity
  rw [get_a_pow_four h0]
  unfold peters_5_14
  have e1 : e ^ (48 / 19 : ℝ) = e ^ (29 / 19 : ℝ) * e := by
    rw [show (48 / 19 : ℝ) = 29 / 19 + 1 by norm_num, rpow_add_one h0.ne']
  have e2 : (1 + 121 / 304 * e ^ 2) ^ (3480 / 2299 : ℝ)
      = (1 + 121 / 304 * e ^ 2) ^ (1181 / 2299 : ℝ) * (1 + 121 / 304 * e ^ 2) := by
    rw [show (3480 / 2299 : ℝ) = 1181 / 2299 + 1 by norm_num, rpow_add_one hk.ne']
  have e3 : (1 - e ^ 2) ^ (3 / 2 : ℝ) = √(1 - e ^ 2) ^ 3 := by
    rw [sqrt_pow_rpow hs.le]; norm_num
  have e4 : (1 - e ^ 2) ^ 4 = √(1 - e ^ 2) ^ 8 := by
    rw [show (8 : ℕ) = 2 * 4 by norm_num, pow_mul, sq_sqrt hs.le]
  rw [e1, e2, e3, e4]
  have hp : 0 < √(1 - e ^ 2) := sqrt_pos.2 hs
  field_simp

/-- The function whose sign is followed. -/
noncomputable def gap (p : List ℚ) (c e : ℝ) : ℝ :=
  ev p √(1 - e ^ 2) * √(1 - e ^ 2) ^ 7 * get_a_from_ecc e c ^ 4 - 48 / 19 * c ^ 4 * I514 e

theorem hasDerivAt_gap (p : List ℚ) {c e : ℝ} (h0 : 0 < e) (h1 : e < 1) :
    HasDerivAt (gap p c) (c ^ 4 * peters_5_14 e * ev (resid p) √(1 - e ^ 2)) e := by
  have hs := one_sub_sq_pos' h0.le h1
  have hp : 0 < √(1 - e ^ 2) := sqrt_pos.2 hs
  have dsq : HasDerivAt (fun x : ℝ => x ^ 2) (2 * e) e := by simpa using hasDerivAt_pow 2 e
  have d2 : HasDerivAt (fun x : ℝ => 1 - x ^ 2) (-(2 * e)) e := by simpa using dsq.const_sub 1
  have ds : HasDerivAt (fun x : ℝ => √(1 - x ^ 2)) (-(2 * e) / (2 * √(1 - e ^ 2))) e := d2.sqrt hs.ne'
  have dB : HasDerivAt (fun x : ℝ => ev p √(1 - x ^ 2)) _ e :=
    HasDerivAt.comp (h := fun x : ℝ => √(1 - x ^ 2)) e (hasDerivAt_ev p √(1 - e ^ 2)) ds
  have h := ((dB.mul (ds.pow 7)).mul (hasDerivAt_get_a_pow_four (c := c) h0 h1)).sub
    ((hasDerivAt_I514 h0 h1).const_mul (48 / 19 * c ^ 4))
  refine h.congr_deriv ?_
  have ha := get_a_four_eq (c := c) h0 h1
  have hf : peters_f e * √(1 - e ^ 2) ^ 7 = 1 + 73 / 24 * e ^ 2 + 37 / 96 * e ^ 4 := by
    unfold peters_f
    rw [show (7 / 2 : ℝ) = ((7 : ℕ) : ℝ) / 2 by norm_num, ← sqrt_pow_rpow hs.le]
    field_simp
  have hu : e ^ 2 = 1 - √(1 - e ^ 2) ^ 2 := by rw [sq_sqrt hs.le]; ring
  rw [ev_resid]
  simp only [Pi.pow_apply, Pi.mul_apply]
  generalize √(1 - e ^ 2) = s at *
  generalize peters_5_14 e = P at *
  generalize peters_f e = F at *
  generalize ev p s = B at *
  generalize ev (der p) s = B' at *
  have ha' : get_a_from_ecc e c ^ 4 = c ^ 4 * (P * (e * (1 + 121 / 304 * e ^ 2))) / s ^ 5 := by
    rw [← ha]; field_simp
  have hF : F = (1 + 73 / 24 * e ^ 2 + 37 / 96 * e ^ 4) / s ^ 7 := by rw [← hf]; field_simp
  rw [ha', hF, ← hu]
  field_simp
  ring

theorem continuousOn_gap (p : List ℚ) (c : ℝ) {e : ℝ} (h0 : 0 ≤ e) (h1 : e < 1) :
    ContinuousOn (gap p c) (Set.Icc 0 e) := by
  have hsub : Set.Icc (0 : ℝ) e ⊆ Set.Ico 0 1 := fun x hx => ⟨hx.1, lt_of_le_of_lt hx.2 h1⟩
  have hI : ContinuousOn I514 (Set.Icc 0 e) := by
    have := intervalIntegral.continuousOn_primitive_interval (μ := MeasureTheory.volume) (f := peters_5_14)
      (a := 0) (b := e) ((intervalIntegrable_iff_integrableOn_Icc_of_le h0).1
        (intervalIntegrable_peters_5_14 h0 h1) |>.congr_set_ae (by rw [Set.uIcc_of_le h0]; exact Filter.EventuallyEq.rfl))
    rwa [Set.uIcc_of_le h0] at this
  have hsq : Continuous fun x : ℝ => √(1 - x ^ 2) := by fun_prop
  exact ((((continuous_ev p).comp hsq).mul (hsq.pow 7)).continuousOn.mul
    (((continuousOn_get_a c).mono hsub).pow 4)).sub (continuousOn_const.mul hI)

theorem gap_zero (p : List ℚ) (c : ℝ) : gap p c 0 = 0 := by
  simp [gap, get_a_zero, I514]

theorem sqrt_mem {e : ℝ} (h0 : 0 < e) (h1 : e < 1) : 0 < √(1 - e ^ 2) ∧ √(1 - e ^ 2) < 1 := by
  refine ⟨sqrt_pos.2 (one_sub_sq_pos' h0.le h1), ?_⟩
  rw [sqrt_lt' one_pos]; nlinarith

theorem gap_nonneg {p : List ℚ} (hp : ∀ s : ℝ, 0 < s → s < 1 → 0 ≤ ev (resid p) s) (c : ℝ) {e : ℝ} (h0 : 0 < e)
    (h1 : e < 1) : 0 ≤ gap p c e := by
  have hm : MonotoneOn (gap p c) (Set.Icc 0 e) := by
    apply monotoneOn_of_deriv_nonneg (convex_Icc 0 e) (continuousOn_gap p c h0.le h1)
    · rw [interior_Icc]
      exact fun x hx => (hasDerivAt_gap p hx.1 (hx.2.trans h1)).differentiableAt.differentiableWithinAt
    · rw [interior_Icc]
      intro x hx
      rw [(hasDerivAt_gap p hx.1 (hx.2.trans h1)).deriv]
      have hs := sqrt_mem hx.1 (hx.2.trans h1)
      have := hp _ hs.1 hs.2
      have := peters_5_14_pos hx.1 (hx.2.trans h1)
      positivity
  have := hm (Set.left_mem_Icc.2 h0.le) (Set.right_mem_Icc.2 h0.le) h0.le
  rwa [gap_zero] at this

theorem gap_nonpos {p : List ℚ} (hp : ∀ s : ℝ, 0 < s → s < 1 → ev (resid p) s ≤ 0) (c : ℝ) {e : ℝ} (h0 : 0 < e)
    (h1 : e < 1) : gap p c e ≤ 0 := by
  have hm : AntitoneOn (gap p c) (Set.Icc 0 e) := by
    apply antitoneOn_of_deriv_nonpos (convex_Icc 0 e) (continuousOn_gap p c h0.le h1)
    · rw [interior_Icc]
      exact fun x hx => (hasDerivAt_gap p hx.1 (hx.2.trans h1)).differentiableAt.differentiableWithinAt
    · rw [interior_Icc]
      intro x hx
      rw [(hasDerivAt_gap p hx.1 (hx.2.trans h1)).deriv]
      have hs := sqrt_mem hx.1 (hx.2.trans h1)
      have := hp _ hs.1 hs.2
      have := peters_5_14_pos hx.1 (hx.2.trans h1)
      exact mul_nonpos_of_nonneg_of_nonpos (by positivity) (by assumption)
  have := hm (Set.left_mem_Icc.2 h0.le) (Set.right_mem_Icc.2 h0.le) h0.le
  rwa [gap_zero] at this

/-- Upper bound for the ratio of exact and circular merger times over `(1 - e²)^(7/2)`. -/
def upper : List ℚ := [1.807069, -2.630149, 3.798694, -4.418158, 4.868367, -4.488428, 3.19357, -1.444805, 0.313855]

/-- Lower bound. -/
def lower : List ℚ := [1.807049, -2.630149, 3.798694, -4.418158, 4.868367, -4.488428, 3.19357, -1.444805, 0.313855]

theorem upper_check : checks (resid upper) 0 [1 / 4, 1 / 2, 3 / 4, 1] = true := by decide +kernel

theorem lower_check : checks (smul (-1) (resid lower)) 0 [1 / 4, 1 / 2, 3 / 4, 1] = true := by decide +kernel

/-- The exact merger time factor lies between the two polynomials. -/
theorem I514_between (c : ℝ) {e : ℝ} (h0 : 0 < e) (h1 : e < 1) :
    ev lower √(1 - e ^ 2) * √(1 - e ^ 2) ^ 7 * get_a_from_ecc e c ^ 4 ≤ 48 / 19 * c ^ 4 * I514 e ∧
    48 / 19 * c ^ 4 * I514 e ≤ ev upper √(1 - e ^ 2) * √(1 - e ^ 2) ^ 7 * get_a_from_ecc e c ^ 4 := by
  constructor
  · have := gap_nonpos (p := lower) (fun s hs0 hs1 => by
      have := checks_sound lower_check (x := s) (by simpa using hs0.le) (by simpa using hs1)
      rw [ev_smul] at this; push_cast at this; linarith) c h0 h1
    unfold gap at this; linarith
  · have := gap_nonneg (p := upper) (fun s hs0 hs1 =>
      checks_sound upper_check (x := s) (by simpa using hs0.le) (by simpa using hs1)) c h0 h1
    unfold gap at this; linarith

end Legwork.evol
