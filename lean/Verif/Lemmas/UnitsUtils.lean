import Verif.Lemmas.Units

/-!
# utils.py and evol.py on quantities agree with the models on SI values
-/

namespace Legwork.units

open Real Legwork.Spec

/-- Equality of concrete dimensions. -/
macro "dims" : tactic =>
  `(tactic| norm_num [massDim, lengthDim, timeDim, freqDim, freqRateDim, betaDim, Prod.ext_iff])

theorem mass_ne : massDim ≠ 0 := by simp [massDim, Prod.ext_iff]
theorem length_ne : lengthDim ≠ 0 := by simp [lengthDim, Prod.ext_iff]
theorem time_ne : timeDim ≠ 0 := by simp [timeDim, Prod.ext_iff]
theorem freq_ne : freqDim ≠ 0 := by simp [freqDim, Prod.ext_iff]
theorem freqRate_ne : freqRateDim ≠ 0 := by simp [freqRateDim, Prod.ext_iff]
theorem beta_ne : betaDim ≠ 0 := by simp [betaDim, Prod.ext_iff]

variable {K : Consts} {m_1 m_2 m_c f_orb a : Val} {x₁ x₂ x f e : ℝ}

theorem chirp_mass_eq (h₁ : Denotes m_1 massDim x₁) (h₂ : Denotes m_2 massDim x₂) :
    chirp_mass m_1 m_2 = .ok (.qty ⟨utils.chirp_mass x₁ x₂ / Msun.scale, Msun⟩) := by
  obtain ⟨t, ht, hd⟩ := denotes_add h₁ h₂
  unfold chirp_mass
  rw [ht]
  refine denotes_simplify (d := massDim) (denotes_cast (denotes_div
    (denotes_rpow _ (denotes_mul h₁ h₂)) (denotes_rpow _ hd)) ?_ ?_) mass_ne rfl
  · dims
  · simp [utils.chirp_mass]

theorem get_a_from_f_orb_eq (hf : Denotes f_orb freqDim f) (h₁ : Denotes m_1 massDim x₁)
    (h₂ : Denotes m_2 massDim x₂) :
    get_a_from_f_orb K f_orb m_1 m_2 = .ok (.qty ⟨utils.get_a_from_f_orb K f x₁ x₂ / AU.scale, AU⟩) := by
  obtain ⟨t, ht, hd⟩ := denotes_add h₁ h₂
  unfold get_a_from_f_orb
  rw [ht]
  refine denotes_simplify (d := lengthDim) (denotes_cast (denotes_rpow _ (denotes_div
    (denotes_mul (denotes_G K) hd) (denotes_pow 2 (denotes_mul (denotes_num _) hf)))) ?_ ?_)
    length_ne rfl
  · dims
  · simp [utils.get_a_from_f_orb]

theorem get_f_orb_from_a_eq (ha : Denotes a lengthDim x) (h₁ : Denotes m_1 massDim x₁)
    (h₂ : Denotes m_2 massDim x₂) :
    get_f_orb_from_a K a m_1 m_2 = .ok (.qty ⟨utils.get_f_orb_from_a K x x₁ x₂ / Hz.scale, Hz⟩) := by
  obtain ⟨t, ht, hd⟩ := denotes_add h₁ h₂
  unfold get_f_orb_from_a
  rw [ht]
  refine denotes_simplify (d := freqDim) (denotes_cast (denotes_div (denotes_rpow _ (denotes_div
    (denotes_mul (denotes_G K) hd) (denotes_pow 3 ha))) (denotes_num _)) ?_ ?_) freq_ne rfl
  · dims
  · norm_num [utils.get_f_orb_from_a]

theorem beta_eq (h₁ : Denotes m_1 massDim x₁) (h₂ : Denotes m_2 massDim x₂) :
    beta K m_1 m_2 = .ok (.qty ⟨utils.beta K x₁ x₂ / m4_s.scale, m4_s⟩) := by
  obtain ⟨t, ht, hd⟩ := denotes_add h₁ h₂
  unfold beta
  rw [ht]
  refine denotes_simplify (d := betaDim) (denotes_cast (denotes_mul (denotes_mul (denotes_mul (denotes_div
    (denotes_mul (denotes_num _) (denotes_pow 3 (denotes_G K))) (denotes_pow 5 (denotes_c K))) h₁) h₂) hd) ?_ ?_)
    beta_ne ?_
  · dims
  · simp [utils.beta]
  · show _ = (4 : ℚ) • (0, 1, 0) - (0, 0, 1)
    dims

theorem c_0_eq (ha : Denotes a lengthDim x) :
    c_0 a e = .ok (.qty ⟨utils.c_0 x e / AU.scale, AU⟩) := by
  unfold c_0
  exact denotes_simplify (d := lengthDim) (denotes_cast (denotes_mul (denotes_mul (denotes_mul ha
    (denotes_num _)) (denotes_num _)) (denotes_num _)) (by simp) rfl) length_ne rfl

theorem get_a_from_ecc_eq (ha : Denotes a lengthDim x) :
    get_a_from_ecc e a = .ok (.qty ⟨utils.get_a_from_ecc e x / AU.scale, AU⟩) := by
  unfold get_a_from_ecc
  exact denotes_simplify (d := lengthDim) (denotes_cast (denotes_mul (denotes_div (denotes_mul ha
    (denotes_num _)) (denotes_num _)) (denotes_num _)) (by simp) rfl) length_ne rfl

theorem fn_dot_eq {n : ℤ} (hn : 1 ≤ n) (hm : Denotes m_c massDim x) (hf : Denotes f_orb freqDim f) :
    fn_dot K m_c f_orb e n = .ok (.qty ⟨utils.fn_dot_val K x f e n / (Hz / yr).scale, Hz / yr⟩) := by
  unfold fn_dot
  rw [if_neg (by omega)]
  refine denotes_simplify (d := freqRateDim) (denotes_cast (denotes_mul (denotes_mul (denotes_div (denotes_mul
    (denotes_num _) (denotes_rpow _ (denotes_mul (denotes_G K) hm))) (denotes_pow 5 (denotes_c K)))
    (denotes_rpow _ (denotes_mul (denotes_num _) hf))) (denotes_num _)) ?_ ?_) freqRate_ne ?_
  · dims
  · simp [utils.fn_dot_val]
  · show _ = ((0, 0, -1) : Dim) - (0, 0, 1)
    dims

end Legwork.units
