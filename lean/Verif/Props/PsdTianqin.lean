import Verif.Props.Psd
import Mathlib.Analysis.Real.Pi.Bounds

/-!
# C26 does not extend to TianQin
-/

namespace Legwork.Props

open Real Legwork.psd Legwork.Spec

/-- **C26** (not so for TianQin). At 1e-4 Hz the default noise of TianQin for an observation of one year is more than
1e12 times the one for half a year: the fit of Huang+20 for one year is not meant for the low end of the range for which
the code uses it. -/
theorem C26_tianqin_one_year (K : Consts) (hc : K.c = 299792458) (env : Env) (custom : Option CustomPsd) (approx : Bool) :
    ∃ x₁ x₂ : ℝ, power_spectral_density K env 1e-4 "TianQin" custom (.val (0.5 * yr)) .auto approx (.name "auto")
        = .ok (x₁ : WithTop ℝ) ∧
      power_spectral_density K env 1e-4 "TianQin" custom (.val yr) .auto approx (.name "auto") = .ok (x₂ : WithTop ℝ) ∧
      0 < x₁ ∧ 1e12 * x₁ < x₂ := by
  have hyr : (0 : ℝ) < yr := by norm_num [yr]
  set P : ℝ := 10 / (3 * (sqrt 3 * 1e5 * 1000) ^ 2) * (4 * 1e-30 / (2 * π * 1e-4) ^ 4 * (1 + 1e-4 / 1e-4) + 1e-24) *
        (1 + 0.6 * (1e-4 / (K.c / (2 * π * (sqrt 3 * 1e5 * 1000)))) ^ 2) with hP
  have key : ∀ t y, get_confusion_noise 1e-4 (some "huang20") (.val t) = .ok y →
      power_spectral_density K env 1e-4 "TianQin" custom (.val t) .auto approx (.name "auto") =
        .ok ((P + y : ℝ) : WithTop ℝ) := by
    intro t y hy
    simp only [power_spectral_density, tianqin_psd, NoiseArg.resolve, TimeArg.resolve, LenArg.resolve, noise_quantity,
      if_true, if_neg (show ¬ "TianQin" = "LISA" by decide), hy, bind, Except.bind, pure, Except.pure]
    rfl
  have near : ∀ (t : ℝ) (j : ℕ) (h : HuangFit), huangTable[j]? = some h → h.years * yr = t → ∃ h' : HuangFit, h' ∈ huangTable ∧
      h'.years = h.years ∧ get_confusion_noise 1e-4 (some "huang20") (.val t) = .ok (h'.noise 1e-4) := by
    intro t j h hj ht
    obtain ⟨k, h', h1, ⟨l, h2, h3⟩, h4⟩ := C27_huang_nearest 1e-4 t
    refine ⟨h', List.mem_of_getElem? h1, ?_, h4⟩
    have e := (h3 j t (by rw [List.getElem?_map, hj, Option.map_some, ht])).1
    rw [sub_self, abs_zero, abs_nonpos_iff, sub_eq_zero] at e
    rw [List.getElem?_map, h1, Option.map_some, Option.some.injEq] at h2
    have : h'.years * yr = h.years * yr := by rw [h2, ht, e]
    exact mul_right_cancel₀ hyr.ne' this
  have hx : log ((1e-4 : ℝ) / 1e-3) / log 10 = -1 := by
    rw [show ((1e-4 : ℝ) / 1e-3) = 10⁻¹ by norm_num, log_inv, neg_div, div_self (log_pos (by norm_num)).ne']
  obtain ⟨h₁, m₁, e₁, n₁⟩ := near (0.5 * yr) 0 _ rfl rfl
  obtain ⟨h₂, m₂, e₂, n₂⟩ := near yr 1 _ rfl (one_mul _)
  have hP0 : 0 < P := by
    have := K.c_pos
    positivity
  refine ⟨_, _, key _ _ n₁, key _ _ n₂, ?_, ?_⟩
  · have : 0 ≤ h₁.noise 1e-4 := by unfold HuangFit.noise; simp only; split_ifs <;> positivity
    linarith
  · have v₁ : h₁.noise 1e-4 ≤ 1e-46 := by
      simp only [huangTable, List.mem_cons, List.not_mem_nil, or_false] at m₁
      rcases m₁ with rfl | rfl | rfl | rfl | rfl <;> norm_num at e₁
      unfold HuangFit.noise
      simp only [hx]
      rw [if_pos (by norm_num), ← rpow_natCast, ← rpow_mul (by norm_num)]
      calc _ ≤ (10 : ℝ) ^ (-46 : ℝ) := rpow_le_rpow_of_exponent_le (by norm_num) (by norm_num)
        _ = 1e-46 := by rw [show (-46 : ℝ) = ((-46 : ℤ) : ℝ) by norm_num, rpow_intCast]; norm_num
    have v₂ : 1e-19 ≤ h₂.noise 1e-4 := by
      simp only [huangTable, List.mem_cons, List.not_mem_nil, or_false] at m₂
      rcases m₂ with rfl | rfl | rfl | rfl | rfl <;> norm_num at e₂
      unfold HuangFit.noise
      simp only [hx]
      rw [if_pos (by norm_num), ← rpow_natCast, ← rpow_mul (by norm_num)]
      calc (1e-19 : ℝ) = (10 : ℝ) ^ (-19 : ℝ) := by
            rw [show (-19 : ℝ) = ((-19 : ℤ) : ℝ) by norm_num, rpow_intCast]; norm_num
        _ ≤ _ := rpow_le_rpow_of_exponent_le (by norm_num) (by norm_num)
    have hπ := pi_gt_three
    have hπ' := pi_lt_four
    have hs : sqrt 3 ^ 2 = 3 := sq_sqrt (by norm_num)
    have b1 : 10 / (3 * (sqrt 3 * 1e5 * 1000) ^ 2) ≤ 2e-16 := by
      rw [mul_pow, mul_pow, hs]
      norm_num
    have b2 : 4 * 1e-30 / (2 * π * 1e-4) ^ 4 * (1 + 1e-4 / 1e-4) + 1e-24 ≤ 1e-16 := by
      have : 4 * 1e-30 / (2 * π * 1e-4) ^ 4 ≤ 4 * 1e-30 / (2 * 3 * 1e-4) ^ 4 := by gcongr
      calc _ ≤ (4 * 1e-30 / (2 * 3 * 1e-4) ^ 4 * (1 + 1e-4 / 1e-4) + 1e-24 : ℝ) := by gcongr
        _ ≤ _ := by norm_num
    have b3 : 1 + 0.6 * (1e-4 / (K.c / (2 * π * (sqrt 3 * 1e5 * 1000)))) ^ 2 ≤ 2 := by
      have : (1e-4 / (K.c / (2 * π * (sqrt 3 * 1e5 * 1000)))) ^ 2 ≤ 1 := by
        have : (1e-4 / (K.c / (2 * π * (sqrt 3 * 1e5 * 1000)))) ^ 2 = (2e4 / 299792458) ^ 2 * π ^ 2 * sqrt 3 ^ 2 := by
          rw [hc]
          field_simp
          norm_num
        rw [this, hs]
        have : π ^ 2 ≤ 4 ^ 2 := by gcongr
        nlinarith
      linarith
    have hPle : P ≤ 2e-16 * 1e-16 * 2 := by
      rw [hP]
      have := K.c_pos
      gcongr
    have : 1e12 * (P + h₁.noise 1e-4) ≤ 1e12 * (2e-16 * 1e-16 * 2 + 1e-46) := by gcongr
    refine lt_of_le_of_lt this (lt_of_lt_of_le ?_ (add_le_add hP0.le v₂))
    norm_num

end Legwork.Props
