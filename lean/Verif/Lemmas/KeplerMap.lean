import Mathlib.Analysis.Fourier.AddCircle
import Mathlib.Analysis.SpecialFunctions.Trigonometric.Deriv
import Mathlib.Analysis.Calculus.Deriv.MeanValue
import Mathlib.MeasureTheory.Integral.IntervalIntegral.IntegrationByParts
import Mathlib.Analysis.SpecialFunctions.Integrals.Basic

/-!
# Fourier series in the mean anomaly

Kepler's equation `M = E - e sin E` relates the mean anomaly `M` of an orbit to its eccentric
anomaly `E`.  This file contains Parseval's identity for functions of the orbit, written as
integrals over `E`, and the rule which turns derivatives with respect to `M` into powers of the
harmonic number.  Used only to prove that the harmonic powers of `utils.peters_g` add up to
`utils.peters_f`.
-/

namespace Legwork.Kepler

open Real MeasureTheory Set

/-- Mean anomaly as a function of the eccentric anomaly. -/
noncomputable def mean (e E : ℝ) : ℝ := E - e * sin E

/-- Its derivative, which is also the distance between the stars in units of the semi-major axis. -/
noncomputable def dist (e E : ℝ) : ℝ := 1 - e * cos E

theorem dist_pos {e : ℝ} (h0 : 0 ≤ e) (h1 : e < 1) (E : ℝ) : 0 < dist e E := by
  unfold dist
  nlinarith [cos_le_one E]

theorem hasDerivAt_mean (e E : ℝ) : HasDerivAt (mean e) (dist e E) E :=
  ((hasDerivAt_id E).sub ((hasDerivAt_sin E).const_mul e))

theorem continuous_mean (e : ℝ) : Continuous (mean e) := by unfold mean; fun_prop

theorem continuous_dist (e : ℝ) : Continuous (dist e) := by unfold dist; fun_prop

theorem mean_strictMono {e : ℝ} (h0 : 0 ≤ e) (h1 : e < 1) : StrictMono (mean e) :=
  strictMono_of_deriv_pos fun E => by rw [(hasDerivAt_mean e E).deriv]; exact dist_pos h0 h1 E

theorem mean_surjective {e : ℝ} (h0 : 0 ≤ e) (h1 : e < 1) : Function.Surjective (mean e) := by
  have hb : ∀ E, |e * sin E| ≤ 1 := fun E => by
    rw [abs_mul, abs_of_nonneg h0]
    nlinarith [abs_sin_le_one E, abs_nonneg (sin E)]
  refine (continuous_mean e).surjective ?_ ?_
  · refine Filter.tendsto_atTop_mono (f := fun E : ℝ => E + (-1)) (fun E => ?_)
      (Filter.tendsto_atTop_add_const_right _ _ Filter.tendsto_id)
    have := (abs_le.mp (hb E)).2
    unfold mean; linarith
  · refine Filter.tendsto_atBot_mono (f := fun E : ℝ => E + 1) (fun E => ?_)
      (Filter.tendsto_atBot_add_const_right _ _ Filter.tendsto_id)
    have := (abs_le.mp (hb E)).1
    unfold mean; linarith

/-- Kepler's equation has a continuous solution. -/
theorem exists_inverse {e : ℝ} (h0 : 0 ≤ e) (h1 : e < 1) :
    ∃ ecc : ℝ → ℝ, Continuous ecc ∧ ∀ E, ecc (mean e E) = E := by
  refine ⟨((mean_strictMono h0 h1).orderIsoOfSurjective _ (mean_surjective h0 h1)).symm,
    OrderIso.continuous _, fun E => ?_⟩
  exact ((mean_strictMono h0 h1).orderIsoOfSurjective _ (mean_surjective h0 h1)).symm_apply_apply E

theorem mean_pi (e : ℝ) : mean e π = π := by simp [mean]

theorem mean_neg_pi (e : ℝ) : mean e (-π) = -π := by simp [mean]

/-- Parseval's identity on `[-π, π]` with real integrals. -/
theorem parseval_real {f : ℝ → ℝ} (hf : Continuous f) :
    HasSum (fun n : ℤ => ((1 / (2 * π)) * ∫ x in (-π)..π, f x * cos (n * x)) ^ 2 +
      ((1 / (2 * π)) * ∫ x in (-π)..π, f x * sin (n * x)) ^ 2)
      ((1 / (2 * π)) * ∫ x in (-π)..π, f x ^ 2) := by
  have hab : -π < π := by linarith [pi_pos]
  have hL2 : MemLp (fun x => (f x : ℂ)) 2 (volume.restrict (Ioc (-π) π)) := by
    obtain ⟨C, hC⟩ := (isCompact_Icc (a := -π) (b := π)).exists_bound_of_continuousOn hf.continuousOn
    have hcont : Continuous fun x => (f x : ℂ) := by fun_prop
    refine MemLp.of_bound hcont.aestronglyMeasurable C ?_
    refine (ae_restrict_iff' measurableSet_Ioc).mpr (Filter.Eventually.of_forall fun x hx => ?_)
    rw [Complex.norm_real]
    exact hC x (Ioc_subset_Icc_self hx)
  have key := hasSum_sq_fourierCoeffOn hab hL2
  have hT : π - -π = 2 * π := by ring
  convert key using 1
  · funext n
    rw [fourierCoeffOn_eq_integral, hT]
    have hexp : ∀ x : ℝ, (fourier (-n) (x : AddCircle (2 * π)) • (f x : ℂ)) =
        ((f x * cos (n * x) : ℝ) : ℂ) - ((f x * sin (n * x) : ℝ) : ℂ) * Complex.I := by
      intro x
      rw [fourier_coe_apply]
      have harg : (2 * π * Complex.I * ((-n : ℤ) : ℂ) * x / ((2 * π : ℝ) : ℂ)) =
          ((-(n * x) : ℝ) : ℂ) * Complex.I := by
        have : (π : ℂ) ≠ 0 := by exact_mod_cast pi_ne_zero
        push_cast
        field_simp
      rw [harg, Complex.exp_mul_I, ← Complex.ofReal_cos, ← Complex.ofReal_sin, cos_neg, sin_neg,
        smul_eq_mul]
      push_cast
      ring
    have hi : (∫ x in (-π)..π, fourier (-n) (x : AddCircle (2 * π)) • (f x : ℂ)) =
        ((∫ x in (-π)..π, f x * cos (n * x) : ℝ) : ℂ) -
        ((∫ x in (-π)..π, f x * sin (n * x) : ℝ) : ℂ) * Complex.I := by
      rw [← intervalIntegral.integral_ofReal, ← intervalIntegral.integral_ofReal,
        ← intervalIntegral.integral_mul_const, ← intervalIntegral.integral_sub]
      · exact intervalIntegral.integral_congr fun x _ => hexp x
      · exact (by fun_prop : Continuous fun x => ((f x * cos (n * x) : ℝ) : ℂ)).intervalIntegrable _ _
      · exact (by fun_prop : Continuous fun x =>
          ((f x * sin (n * x) : ℝ) : ℂ) * Complex.I).intervalIntegrable _ _
    have := congrArg (fun z => ‖(1 / (2 * π)) • z‖ ^ 2) hi
    refine Eq.trans ?_ this.symm
    simp only [norm_smul, mul_pow]
    rw [← Complex.normSq_eq_norm_sq, Complex.normSq_apply]
    simp [abs_of_pos pi_pos]
    ring
  · rw [hT, smul_eq_mul, one_div]
    congr 1
    exact intervalIntegral.integral_congr fun x _ => by simp

/-- Substituting the eccentric anomaly. -/
theorem substitute {e : ℝ} {g : ℝ → ℝ} (hg : Continuous g) :
    ∫ x in (-π)..π, g x = ∫ E in (-π)..π, g (mean e E) * dist e E := by
  have := intervalIntegral.integral_comp_mul_deriv (a := -π) (b := π) (f := mean e) (f' := dist e) (g := g)
    (fun E _ => hasDerivAt_mean e E) (continuous_dist e).continuousOn hg
  rw [mean_pi, mean_neg_pi] at this
  exact this.symm

/-- Cosine and sine integrals of `F` with respect to the mean anomaly. -/
noncomputable def cosInt (e : ℝ) (n : ℤ) (F : ℝ → ℝ) : ℝ :=
  (1 / (2 * π)) * ∫ E in (-π)..π, F E * cos (n * mean e E)

noncomputable def sinInt (e : ℝ) (n : ℤ) (F : ℝ → ℝ) : ℝ :=
  (1 / (2 * π)) * ∫ E in (-π)..π, F E * sin (n * mean e E)

/-- Parseval's identity for a function of the eccentric anomaly. -/
theorem parseval {e : ℝ} (h0 : 0 ≤ e) (h1 : e < 1) {h : ℝ → ℝ} (hh : Continuous h) :
    HasSum (fun n : ℤ => cosInt e n (fun E => h E * dist e E) ^ 2 +
      sinInt e n (fun E => h E * dist e E) ^ 2)
      ((1 / (2 * π)) * ∫ E in (-π)..π, h E ^ 2 * dist e E) := by
  obtain ⟨ecc, hc, he⟩ := exists_inverse h0 h1
  have key := parseval_real (hh.comp hc)
  convert key using 1
  · funext n
    unfold cosInt sinInt
    rw [substitute (e := e) (g := fun x => (h ∘ ecc) x * cos (n * x)) (by fun_prop),
      substitute (e := e) (g := fun x => (h ∘ ecc) x * sin (n * x)) (by fun_prop)]
    simp only [Function.comp, he]
    congr 3 <;> exact intervalIntegral.integral_congr fun E _ => by ring
  · rw [substitute (e := e) (g := fun x => (h ∘ ecc) x ^ 2) (by fun_prop)]
    simp only [Function.comp, he]

/-- Differentiating once with respect to the mean anomaly. -/
theorem parts {e : ℝ} {q q' : ℝ → ℝ} (hq : ∀ E, HasDerivAt q (q' E) E) (hq' : Continuous q')
    (hper : q π = q (-π)) (n : ℤ) :
    cosInt e n q' = n * sinInt e n (fun E => q E * dist e E) ∧
    sinInt e n q' = -(n * cosInt e n (fun E => q E * dist e E)) := by
  have hqc : Continuous q := continuous_iff_continuousAt.mpr fun E => (hq E).continuousAt
  have hm := continuous_mean e
  have hd := continuous_dist e
  constructor
  · have := intervalIntegral.integral_deriv_mul_eq_sub (a := -π) (b := π) (u := q) (u' := q')
      (v := fun E => cos (n * mean e E)) (v' := fun E => -sin (n * mean e E) * (n * dist e E))
      (fun E _ => hq E) (fun E _ => ((hasDerivAt_mean e E).const_mul (n : ℝ)).cos)
      (hq'.intervalIntegrable _ _) (Continuous.intervalIntegrable (by fun_prop) _ _)
    rw [intervalIntegral.integral_add (Continuous.intervalIntegrable (by fun_prop) _ _)
      (Continuous.intervalIntegrable (by fun_prop) _ _), mean_pi, mean_neg_pi, mul_neg, cos_neg, hper, sub_self] at this
    unfold cosInt sinInt
    have e1 : ∫ E in (-π)..π, q E * (-sin (n * mean e E) * (n * dist e E)) =
        -(n * ∫ E in (-π)..π, q E * dist e E * sin (n * mean e E)) := by
      rw [← intervalIntegral.integral_const_mul, ← intervalIntegral.integral_neg]
      exact intervalIntegral.integral_congr fun E _ => by ring
    rw [e1] at this
    rw [show ∫ E in (-π)..π, q' E * cos (n * mean e E) =
      n * ∫ E in (-π)..π, q E * dist e E * sin (n * mean e E) by linarith]
    ring
  · have := intervalIntegral.integral_deriv_mul_eq_sub (a := -π) (b := π) (u := q) (u' := q')
      (v := fun E => sin (n * mean e E)) (v' := fun E => cos (n * mean e E) * (n * dist e E))
      (fun E _ => hq E) (fun E _ => ((hasDerivAt_mean e E).const_mul (n : ℝ)).sin)
      (hq'.intervalIntegrable _ _) (Continuous.intervalIntegrable (by fun_prop) _ _)
    rw [intervalIntegral.integral_add (Continuous.intervalIntegrable (by fun_prop) _ _)
      (Continuous.intervalIntegrable (by fun_prop) _ _), mean_pi, mean_neg_pi, mul_neg, sin_neg, sin_int_mul_pi] at this
    unfold cosInt sinInt
    have e1 : ∫ E in (-π)..π, q E * (cos (n * mean e E) * (n * dist e E)) =
        n * ∫ E in (-π)..π, q E * dist e E * cos (n * mean e E) := by
      rw [← intervalIntegral.integral_const_mul]
      exact intervalIntegral.integral_congr fun E _ => by ring
    rw [e1] at this
    rw [show ∫ E in (-π)..π, q' E * sin (n * mean e E) =
      -(n * ∫ E in (-π)..π, q E * dist e E * cos (n * mean e E)) by linarith]
    ring

/-- Twice more: the third derivative `h` of a periodic quantity with first derivative `q₁` has the
coefficients of `q₁` times `-n²`. -/
theorem third {e : ℝ} {q₁ u₁ u₂ h : ℝ → ℝ}
    (e₁ : ∀ E, u₁ E * dist e E = q₁ E)
    (d₁ : ∀ E, HasDerivAt u₁ (u₂ E * dist e E) E) (p₁ : u₁ π = u₁ (-π)) (c₂ : Continuous u₂)
    (d₂ : ∀ E, HasDerivAt u₂ (h E * dist e E) E) (p₂ : u₂ π = u₂ (-π)) (ch : Continuous h) (n : ℤ) :
    cosInt e n (fun E => h E * dist e E) = -(n ^ 2 * cosInt e n q₁) ∧
    sinInt e n (fun E => h E * dist e E) = -(n ^ 2 * sinInt e n q₁) := by
  have hd := continuous_dist e
  obtain ⟨a1, b1⟩ := parts (e := e) d₂ (by fun_prop) p₂ n
  obtain ⟨a2, b2⟩ := parts (e := e) d₁ (by fun_prop) p₁ n
  rw [a1, b1, a2, b2, funext e₁]
  constructor <;> ring

end Legwork.Kepler
