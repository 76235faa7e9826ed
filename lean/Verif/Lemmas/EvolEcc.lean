import Mathlib.Analysis.Calculus.InverseFunctionTheorem.Deriv
import Verif.Lemmas.EvolCirc

/-!
# Helper lemmas for eccentric evolution
-/

namespace Legwork.evol

open Real Legwork.utils Legwork.np Legwork.Spec

variable {ι : Type*}

/-- The right-hand side in the specification is the code's `de_dt`. -/
theorem de_dt_eq_spec (e b c : ℝ) : de_dt e b c
    = -(19 / 12) * (b / c ^ 4) * (e ^ (-29 / 19 : ℝ) * (1 - e ^ 2) ^ (3 / 2 : ℝ))
      / (1 + 121 / 304 * e ^ 2) ^ (1181 / 2299 : ℝ) := by
  unfold de_dt; ring

theorem _root_.Legwork.Spec.EccentricInspiral.deriv {b c t₀ t₁ : ℝ} {e : ℝ → ℝ} (h : EccentricInspiral b c t₀ t₁ e) {t : ℝ}
    (ht : t ∈ Set.Icc t₀ t₁) : HasDerivAt e (de_dt (e t) b c) t := by
  rw [de_dt_eq_spec]; exact h.ode t ht

/-- Derivative of Kepler's frequency along a separation history. -/
theorem hasDerivAt_f (K : Consts) {a : ℝ → ℝ} {a' t m₁ m₂ : ℝ} (ha : 0 < a t) (h₁ : 0 < m₁) (h₂ : 0 < m₂)
    (hd : HasDerivAt a a' t) :
    HasDerivAt (fun s => get_f_orb_from_a K (a s) m₁ m₂)
      (-(3 / 2) * get_f_orb_from_a K (a t) m₁ m₂ / a t * a') t := by
  have hG := K.G_pos
  have d1 : HasDerivAt (fun s => a s ^ 3) (3 * a t ^ 2 * a') t := (hd.pow 3).congr_deriv (by simp)
  have d2 : HasDerivAt (fun s => K.G * (m₁ + m₂) / a s ^ 3)
      (-(K.G * (m₁ + m₂) * (3 * a t ^ 2 * a')) / (a t ^ 3) ^ 2) t := by
    exact ((hasDerivAt_const t (K.G * (m₁ + m₂))).div d1 (by positivity)).congr_deriv (by simp)
  have hp : 0 < K.G * (m₁ + m₂) / a t ^ 3 := by positivity
  have d3 := (d2.rpow_const (p := 0.5) (Or.inl hp.ne')).div_const (2 * π)
  refine d3.congr_deriv ?_
  unfold get_f_orb_from_a
  rw [rpow_sub_one hp.ne']
  generalize (K.G * (m₁ + m₂) / a t ^ 3) ^ (0.5 : ℝ) = S
  field_simp
  norm_num
  ring

/-- `fn_dot` in terms of separations. -/
theorem fn_dot_val_eq (K : Consts) {f m₁ m₂ a e : ℝ} (n : ℤ) (hf : 0 < f) (ha : 0 < a) (h₁ : 0 < m₁) (h₂ : 0 < m₂)
    (hk : KeplerThird K f a m₁ m₂) :
    fn_dot_val K (chirp_mass m₁ m₂) f e n = n * (3 / 2 * f / a ^ 4 * utils.beta K m₁ m₂ * peters_f e) := by
  have hG := K.G_pos
  have hc := K.c_pos
  have hkap := kap_pos K (add_pos h₁ h₂)
  have h1 := kepler_f_pow K hf ha hk
  have h2 := kap_mul_beta K h₁ h₂
  have ha4 : a ^ 4 = f ^ (-8 / 3 : ℝ) / kap K (m₁ + m₂) := by
    rw [h1]; field_simp
  have hb : utils.beta K m₁ m₂ = 2 ^ (32 / 3 : ℝ) * π ^ (8 / 3 : ℝ) / (5 * K.c ^ 5)
      * (K.G * chirp_mass m₁ m₂) ^ (5 / 3 : ℝ) / 4 / kap K (m₁ + m₂) := by
    rw [← h2]; field_simp
  rw [ha4, hb]
  unfold fn_dot_val
  generalize (K.G * chirp_mass m₁ m₂) ^ (5 / 3 : ℝ) = X
  obtain ⟨p, hp, hpe⟩ := exists_pow_eq Real.pi_pos 3 (by norm_num)
  obtain ⟨t, ht, hte⟩ := exists_pow_eq (two_pos : (0 : ℝ) < 2) 3 (by norm_num)
  obtain ⟨y, hy, hye⟩ := exists_pow_eq hf 3 (by norm_num)
  have e2 : (2 : ℝ) ^ (32 / 3 : ℝ) = 2 ^ 10 * t ^ 2 := by
    nth_rw 1 [← hte]
    rw [pow_rpow_eq ht.le 3 32 (by norm_num), ← hte]; ring
  have e3 : π ^ (8 / 3 : ℝ) = p ^ 8 := by rw [← hpe]; exact pow_rpow_eq hp.le 3 8 (by norm_num)
  have e4 : f ^ (-8 / 3 : ℝ) = (y ^ 8)⁻¹ := by
    rw [show (-8 / 3 : ℝ) = -(8 / 3) by norm_num, rpow_neg hf.le, ← hye, pow_rpow_eq hy.le 3 8 (by norm_num)]
  have e5 : (2 * π * f) ^ (11 / 3 : ℝ) = 8 * t ^ 2 * p ^ 11 * y ^ 11 := by
    have : 2 * π * f = (t * p * y) ^ 3 := by rw [mul_pow, mul_pow, hte, hpe, hye]
    rw [this, pow_rpow_eq (by positivity) 3 11 (by norm_num)]
    have : (8 : ℝ) = t ^ 9 := by rw [show t ^ 9 = (t ^ 3) ^ 3 by ring, hte]; norm_num
    rw [this]; ring
  rw [e2, e3, e4, e5, ← hpe, ← hye]
  field_simp
  ring

/-- Decrease of the eccentricity along a solution. -/
theorem _root_.Legwork.Spec.EccentricInspiral.antitone {b c t₀ t₁ : ℝ} {e : ℝ → ℝ} (h : EccentricInspiral b c t₀ t₁ e) (hb : 0 < b)
    (hc : 0 < c) : StrictAntiOn e (Set.Icc t₀ t₁) := by
  apply strictAntiOn_of_deriv_neg (convex_Icc _ _)
  · exact fun t ht => (h.deriv ht).continuousAt.continuousWithinAt
  · intro t ht
    rw [interior_Icc] at ht
    have ht' := Set.Ioo_subset_Icc_self ht
    rw [(h.deriv ht').deriv]
    exact de_dt_neg (h.bound t ht').1 (h.bound t ht').2 hb hc.ne'

theorem _root_.Legwork.Spec.EccentricInspiral.mono {b c t₀ t₁ s₀ s₁ : ℝ} {e : ℝ → ℝ} (h : EccentricInspiral b c t₀ t₁ e)
    (h0 : t₀ ≤ s₀) (h1 : s₁ ≤ t₁) : EccentricInspiral b c s₀ s₁ e :=
  ⟨fun t ht => h.bound t ⟨h0.trans ht.1, ht.2.trans h1⟩, fun t ht => h.ode t ⟨h0.trans ht.1, ht.2.trans h1⟩⟩

/-- The exact merger time counts down. -/
theorem t_exact_countdown {b c t₀ t₁ : ℝ} {e : ℝ → ℝ} (h : EccentricInspiral b c t₀ t₁ e) (hb : 0 < b)
    (hc : 0 < c) (hle : t₀ ≤ t₁) : t_exact c b (e t₁) = t_exact c b (e t₀) - (t₁ - t₀) := by
  have key : ∀ t ∈ Set.Icc t₀ t₁, HasDerivAt (fun s => t_exact c b (e s) + s) 0 t := by
    intro t ht
    obtain ⟨h0, h1⟩ := h.bound t ht
    have d := ((hasDerivAt_I514 h0 h1).comp t (h.deriv ht)).const_mul ((12 / 19) * c ^ 4 / b)
    have d' := d.add (hasDerivAt_id t)
    refine d'.congr_deriv ?_
    have := de_dt_mul h0 h1 hb.ne' hc.ne'
    rw [← mul_assoc, this]; norm_num
  have := constant_of_derivWithin_zero (f := fun s => t_exact c b (e s) + s) (a := t₀) (b := t₁)
    (fun t ht => (key t ht).differentiableAt.differentiableWithinAt)
    (fun t ht => by
      have ht' := Set.Ico_subset_Icc_self ht
      exact (key t ht').hasDerivWithinAt.derivWithin
        (uniqueDiffOn_Icc (lt_of_le_of_lt ht.1 ht.2) t ht')) t₁ ⟨hle, le_rfl⟩
  linarith

/-- `c_0` of the evolved binary is the constant of the solution. -/
theorem c_0_of_get_a {e c : ℝ} (h0 : 0 < e) (h1 : e < 1) : c_0 (get_a_from_ecc e c) e = c :=
  Props.C02_c_roundtrip h0 h1

theorem t_exact_strictMono {b c x y : ℝ} (hb : 0 < b) (hc : 0 < c) (hx : 0 < x) (hxy : x < y) (hy : y < 1) :
    t_exact c b x < t_exact c b y := by
  have hI : I514 x < I514 y := by
    have hm : StrictMonoOn I514 (Set.Ioo 0 1) := by
      apply strictMonoOn_of_deriv_pos (convex_Ioo _ _)
      · exact fun t ht => (hasDerivAt_I514 ht.1 ht.2).continuousAt.continuousWithinAt
      · intro t ht
        rw [interior_Ioo] at ht
        rw [(hasDerivAt_I514 ht.1 ht.2).deriv]
        exact peters_5_14_pos ht.1 ht.2
    exact hm ⟨hx, hxy.trans hy⟩ ⟨hx.trans hxy, hy⟩ hxy
  unfold t_exact
  have : 0 < (12 / 19) * c ^ 4 / b := by positivity
  exact mul_lt_mul_of_pos_left hI this

theorem t_exact_pos {b c e : ℝ} (hb : 0 < b) (hc : 0 < c) (h0 : 0 < e) (h1 : e < 1) : 0 < t_exact c b e := by
  have : 0 < (12 / 19) * c ^ 4 / b := by positivity
  exact mul_pos this (I514_pos h0 h1)

/-- A solution of the eccentricity equation exists up to the exact merger time. -/
theorem exists_solution {b c e₀ : ℝ} (hb : 0 < b) (hc : 0 < c) (h0 : 0 < e₀) (h1 : e₀ < 1) :
    ∃ e : ℝ → ℝ, e 0 = e₀ ∧ ∀ t, t < t_exact c b e₀ → EccentricInspiral b c 0 t e := by
  classical
  let Φ : ℝ → ℝ := t_exact c b
  have hinj : Set.InjOn Φ (Set.Ioo 0 1) := by
    intro x hx y hy hxy
    rcases lt_trichotomy x y with h | h | h
    · exact absurd hxy (t_exact_strictMono hb hc hx.1 h hy.2).ne
    · exact h
    · exact absurd hxy.symm (t_exact_strictMono hb hc hy.1 h hx.2).ne
  let g : ℝ → ℝ := fun s => if h : ∃ x ∈ Set.Ioo (0 : ℝ) 1, Φ x = s then h.choose else 0
  have hg : ∀ x ∈ Set.Ioo (0 : ℝ) 1, g (Φ x) = x := by
    intro x hx
    have hex : ∃ y ∈ Set.Ioo (0 : ℝ) 1, Φ y = Φ x := ⟨x, hx, rfl⟩
    simp only [g, dif_pos hex]
    exact hinj hex.choose_spec.1 hx hex.choose_spec.2
  have hK : 0 < (12 / 19) * c ^ 4 / b := by positivity
  have hstrict : ∀ x ∈ Set.Ioo (0 : ℝ) 1, HasStrictDerivAt Φ ((12 / 19) * c ^ 4 / b * peters_5_14 x) x := by
    intro x hx
    have hcx : ContinuousAt peters_5_14 x :=
      (continuousOn_peters_5_14 x ⟨hx.1.le, hx.2⟩).continuousAt (Ico_mem_nhds hx.1 hx.2)
    have hm : ContinuousOn peters_5_14 (Set.Ioo 0 1) := continuousOn_peters_5_14.mono Set.Ioo_subset_Ico_self
    have := intervalIntegral.integral_hasStrictDerivAt_right (intervalIntegrable_peters_5_14 hx.1.le hx.2)
      (hm.stronglyMeasurableAtFilter isOpen_Ioo x hx) hcx
    exact this.const_mul _
  have hgd : ∀ x ∈ Set.Ioo (0 : ℝ) 1, HasDerivAt g (((12 / 19) * c ^ 4 / b * peters_5_14 x)⁻¹) (Φ x) := by
    intro x hx
    have hne : (12 / 19) * c ^ 4 / b * peters_5_14 x ≠ 0 := (mul_pos hK (peters_5_14_pos hx.1 hx.2)).ne'
    have hs := hstrict x hx
    have hev : ∀ᶠ y in nhds x, g (Φ y) = y := by
      filter_upwards [isOpen_Ioo.mem_nhds hx] with y hy using hg y hy
    exact (hs.to_local_left_inverse hne hev).hasDerivAt
  have hex : ∀ s, 0 < s → s ≤ Φ e₀ → ∃ x ∈ Set.Ioo (0 : ℝ) 1, Φ x = s := by
    intro s hs hse
    have hcont : ContinuousOn Φ (Set.Icc 0 e₀) := by
      have := intervalIntegral.continuousOn_primitive_interval' (μ := MeasureTheory.volume)
        (intervalIntegrable_peters_5_14 h0.le h1) (Set.left_mem_uIcc)
      rw [Set.uIcc_of_le h0.le] at this
      exact continuousOn_const.mul this
    have hzero : Φ 0 = 0 := by simp [Φ, t_exact]
    have := intermediate_value_Icc h0.le hcont (show s ∈ Set.Icc (Φ 0) (Φ e₀) from ⟨by rw [hzero]; exact hs.le, hse⟩)
    obtain ⟨x, hx, hxs⟩ := this
    refine ⟨x, ⟨lt_of_le_of_ne hx.1 ?_, lt_of_le_of_lt hx.2 h1⟩, hxs⟩
    rintro rfl
    rw [hzero] at hxs; linarith
  refine ⟨fun t => g (Φ e₀ - t), by simpa using hg e₀ ⟨h0, h1⟩, fun t ht => ⟨?_, ?_⟩⟩
  · intro s hs
    obtain ⟨x, hx, hxs⟩ := hex (Φ e₀ - s) (by have := hs.2; simp only [Φ]; linarith) (by linarith [hs.1])
    simp only [← hxs, hg x hx]
    exact ⟨hx.1, hx.2⟩
  · intro s hs
    obtain ⟨x, hx, hxs⟩ := hex (Φ e₀ - s) (by have := hs.2; simp only [Φ]; linarith) (by linarith [hs.1])
    have d1 := hgd x hx
    rw [hxs] at d1
    have d2 : HasDerivAt (fun r : ℝ => Φ e₀ - r) (-1) s := by simpa using (hasDerivAt_id s).const_sub (Φ e₀)
    have d3 := d1.comp s d2
    refine d3.congr_deriv ?_
    simp only [← hxs, hg x hx]
    rw [← de_dt_eq_spec]
    have hne : (12 / 19) * c ^ 4 / b * peters_5_14 x ≠ 0 := (mul_pos hK (peters_5_14_pos hx.1 hx.2)).ne'
    have := de_dt_mul hx.1 hx.2 hb.ne' hc.ne'
    rw [inv_mul_eq_iff_eq_mul₀ hne, this]

end Legwork.evol
