import Mathlib.Analysis.SpecialFunctions.Pow.Deriv
import Mathlib.Analysis.MeanInequalities
import Verif.Model.Utils
import Verif.Spec.Orbit

/-!
# Properties of `utils.py`: C01-C04
-/

namespace Legwork.Props

open Real Legwork.utils Legwork.Spec Filter Topology

/-! ## C01: Kepler conversions -/

/-- `get_a_from_f_orb` returns the unique positive semi-major axis obeying Kepler's third law. -/
theorem C01_get_a_iff_kepler (K : Consts) {f a m₁ m₂ : ℝ} (hf : 0 < f) (ha : 0 < a)
    (h₁ : 0 < m₁) (h₂ : 0 < m₂) :
    get_a_from_f_orb K f m₁ m₂ = a ↔ KeplerThird K f a m₁ m₂ := by
  have hG := K.G_pos
  have hw : 0 < 2 * π * f := by positivity
  unfold get_a_from_f_orb KeplerThird
  have hx : 0 ≤ K.G * (m₁ + m₂) / (2 * π * f) ^ 2 := by positivity
  rw [show (1 / 3 : ℝ) = ((3 : ℕ) : ℝ)⁻¹ by norm_num]
  constructor
  · intro h
    rw [← h, rpow_inv_natCast_pow hx (by norm_num)]
    field_simp
  · intro h
    rw [← h, show (2 * π * f) ^ 2 * a ^ 3 / (2 * π * f) ^ 2 = a ^ 3 by field_simp]
    exact pow_rpow_inv_natCast ha.le (by norm_num)

/-- `get_f_orb_from_a` returns the unique positive frequency obeying Kepler's third law. -/
theorem C01_get_f_iff_kepler (K : Consts) {f a m₁ m₂ : ℝ} (hf : 0 < f) (ha : 0 < a)
    (h₁ : 0 < m₁) (h₂ : 0 < m₂) :
    get_f_orb_from_a K a m₁ m₂ = f ↔ KeplerThird K f a m₁ m₂ := by
  have hG := K.G_pos
  unfold get_f_orb_from_a KeplerThird
  have hx : 0 ≤ K.G * (m₁ + m₂) / a ^ 3 := by positivity
  rw [show (0.5 : ℝ) = ((2 : ℕ) : ℝ)⁻¹ by norm_num]
  have hpi : 0 < 2 * π := by positivity
  constructor
  · intro h
    have h' : (K.G * (m₁ + m₂) / a ^ 3) ^ ((2 : ℕ) : ℝ)⁻¹ = 2 * π * f := by
      rw [← h]; field_simp
    rw [← h', rpow_inv_natCast_pow hx (by norm_num)]
    field_simp
  · intro h
    rw [← h, show (2 * π * f) ^ 2 * a ^ 3 / a ^ 3 = (2 * π * f) ^ 2 by field_simp,
      pow_rpow_inv_natCast (by positivity) (by norm_num)]
    field_simp

theorem get_a_from_f_orb_pos (K : Consts) {f m₁ m₂ : ℝ} (hf : 0 < f)
    (h₁ : 0 < m₁) (h₂ : 0 < m₂) : 0 < get_a_from_f_orb K f m₁ m₂ := by
  have hG := K.G_pos
  unfold get_a_from_f_orb
  have := Real.pi_pos
  positivity

theorem get_f_orb_from_a_pos (K : Consts) {a m₁ m₂ : ℝ} (ha : 0 < a)
    (h₁ : 0 < m₁) (h₂ : 0 < m₂) : 0 < get_f_orb_from_a K a m₁ m₂ := by
  have hG := K.G_pos
  unfold get_f_orb_from_a
  have := Real.pi_pos
  positivity

/-- Frequency → separation → frequency is the identity. -/
theorem C01_f_roundtrip (K : Consts) {f m₁ m₂ : ℝ} (hf : 0 < f) (h₁ : 0 < m₁) (h₂ : 0 < m₂) :
    get_f_orb_from_a K (get_a_from_f_orb K f m₁ m₂) m₁ m₂ = f := by
  have ha := get_a_from_f_orb_pos K hf h₁ h₂
  exact (C01_get_f_iff_kepler K hf ha h₁ h₂).2 ((C01_get_a_iff_kepler K hf ha h₁ h₂).1 rfl)

/-- Separation → frequency → separation is the identity. -/
theorem C01_a_roundtrip (K : Consts) {a m₁ m₂ : ℝ} (ha : 0 < a) (h₁ : 0 < m₁) (h₂ : 0 < m₂) :
    get_a_from_f_orb K (get_f_orb_from_a K a m₁ m₂) m₁ m₂ = a := by
  have hf := get_f_orb_from_a_pos K ha h₁ h₂
  exact (C01_get_a_iff_kepler K hf ha h₁ h₂).2 ((C01_get_f_iff_kepler K hf ha h₁ h₂).1 rfl)

/-- Non-vacuity of C01 with the constants astropy uses: two solar masses at 1 mHz. -/
example : get_f_orb_from_a .codata2018 (get_a_from_f_orb .codata2018 1e-3 2e30 2e30) 2e30 2e30 = 1e-3 :=
  C01_f_roundtrip _ (by norm_num) (by norm_num) (by norm_num)

/-! ## C02: Peters' `a(e)` curve -/

private lemma one_sub_sq_pos {e : ℝ} (h0 : 0 ≤ e) (h1 : e < 1) : 0 < 1 - e ^ 2 := by nlinarith

/-- `get_a_from_ecc` returns the point of Peters' curve (Eq. 5.11) at eccentricity `e`. -/
theorem C02_get_a_iff_peters {a e c : ℝ} (he : 0 < e) (he1 : e < 1) :
    get_a_from_ecc e c = a ↔ Peters511 a e c := by
  have h1 := one_sub_sq_pos he.le he1
  unfold get_a_from_ecc Peters511
  rw [div_mul_eq_mul_div, div_eq_iff h1.ne']
  exact eq_comm

/-- `c_0` returns the constant of the curve (Eq. 5.11) through `(a, e)`. -/
theorem C02_c_0_iff_peters {a e c : ℝ} (he : 0 < e) :
    c_0 a e = c ↔ Peters511 a e c := by
  have hk : 0 < 1 + 121 / 304 * e ^ 2 := by positivity
  have hp : 0 < e ^ (12 / 19 : ℝ) := rpow_pos_of_pos he _
  have hq : 0 < (1 + 121 / 304 * e ^ 2) ^ (870 / 2299 : ℝ) := rpow_pos_of_pos hk _
  unfold c_0 Peters511
  rw [show (-12 / 19 : ℝ) = -(12 / 19) by norm_num, show (-870 / 2299 : ℝ) = -(870 / 2299) by norm_num,
    rpow_neg he.le, rpow_neg hk.le]
  field_simp

theorem C02_a_roundtrip {a e : ℝ} (he : 0 < e) (he1 : e < 1) : get_a_from_ecc e (c_0 a e) = a :=
  (C02_get_a_iff_peters he he1).2 ((C02_c_0_iff_peters he).1 rfl)

theorem C02_c_roundtrip {c e : ℝ} (he : 0 < e) (he1 : e < 1) : c_0 (get_a_from_ecc e c) e = c :=
  (C02_c_0_iff_peters he).2 ((C02_get_a_iff_peters he he1).1 rfl)

/-- Along one curve the separation strictly increases with eccentricity. -/
theorem C02_get_a_strictMono {c e₁ e₂ : ℝ} (hc : 0 < c) (h0 : 0 ≤ e₁) (h12 : e₁ < e₂) (h1 : e₂ < 1) :
    get_a_from_ecc e₁ c < get_a_from_ecc e₂ c := by
  unfold get_a_from_ecc
  have hs1 := one_sub_sq_pos h0 (h12.trans h1)
  have hs2 := one_sub_sq_pos (h0.trans h12.le) h1
  have hp : e₁ ^ (12 / 19 : ℝ) < e₂ ^ (12 / 19 : ℝ) := rpow_lt_rpow h0 h12 (by norm_num)
  have hp0 : 0 ≤ e₁ ^ (12 / 19 : ℝ) := rpow_nonneg h0 _
  have hsq : e₁ ^ 2 < e₂ ^ 2 := by nlinarith
  have hd : c * e₁ ^ (12 / 19 : ℝ) / (1 - e₁ ^ 2) < c * e₂ ^ (12 / 19 : ℝ) / (1 - e₂ ^ 2) := by
    exact div_lt_div₀ (mul_lt_mul_of_pos_left hp hc) (by linarith) (mul_nonneg hc.le (hp0.trans hp.le)) hs2
  have hq : (1 + 121 / 304 * e₁ ^ 2) ^ (870 / 2299 : ℝ) ≤ (1 + 121 / 304 * e₂ ^ 2) ^ (870 / 2299 : ℝ) := by
    apply rpow_le_rpow (by positivity) (by nlinarith) (by norm_num)
  have hq0 : 0 < (1 + 121 / 304 * e₁ ^ 2) ^ (870 / 2299 : ℝ) := by positivity
  have hn : 0 ≤ c * e₂ ^ (12 / 19 : ℝ) / (1 - e₂ ^ 2) := by
    have : 0 ≤ e₂ ^ (12 / 19 : ℝ) := hp0.trans hp.le
    positivity
  calc _ < c * e₂ ^ (12 / 19 : ℝ) / (1 - e₂ ^ 2) * (1 + 121 / 304 * e₁ ^ 2) ^ (870 / 2299 : ℝ) :=
        mul_lt_mul_of_pos_right hd hq0
    _ ≤ _ := mul_le_mul_of_nonneg_left hq hn

/-- Non-vacuity of C02. -/
example : get_a_from_ecc 0.3 (c_0 1.5e11 0.3) = 1.5e11 := C02_a_roundtrip (by norm_num) (by norm_num)
example : get_a_from_ecc 0.3 7 < get_a_from_ecc 0.4 7 :=
  C02_get_a_strictMono (by norm_num) (by norm_num) (by norm_num) (by norm_num)

/-! ## C03: chirp mass -/

theorem C03_pos {m₁ m₂ : ℝ} (h₁ : 0 < m₁) (h₂ : 0 < m₂) : 0 < chirp_mass m₁ m₂ := by
  unfold chirp_mass; positivity

theorem C03_symm (m₁ m₂ : ℝ) : chirp_mass m₁ m₂ = chirp_mass m₂ m₁ := by
  unfold chirp_mass; rw [mul_comm, add_comm]

/-- Spec form: the chirp mass is the positive number whose fifth power is `(m₁ m₂)³/(m₁+m₂)`. -/
theorem C03_iff {m₁ m₂ x : ℝ} (h₁ : 0 < m₁) (h₂ : 0 < m₂) (hx : 0 < x) :
    chirp_mass m₁ m₂ = x ↔ x ^ 5 * (m₁ + m₂) = (m₁ * m₂) ^ 3 := by
  have hp := C03_pos h₁ h₂
  have key : chirp_mass m₁ m₂ ^ 5 * (m₁ + m₂) = (m₁ * m₂) ^ 3 := by
    unfold chirp_mass
    have ha : ((m₁ * m₂) ^ (3 / 5 : ℝ)) ^ 5 = (m₁ * m₂) ^ 3 := by
      rw [← rpow_natCast, ← rpow_mul (by positivity), ← rpow_natCast]; norm_num
    have hb : ((m₁ + m₂) ^ (1 / 5 : ℝ)) ^ 5 = m₁ + m₂ := by
      rw [← rpow_natCast, ← rpow_mul (by positivity)]; norm_num
    rw [div_pow, ha, hb]
    field_simp
  constructor
  · rintro rfl; exact key
  · intro h
    have hs : (m₁ + m₂) ≠ 0 := by positivity
    have : chirp_mass m₁ m₂ ^ 5 = x ^ 5 := mul_right_cancel₀ hs (key.trans h.symm)
    exact (pow_left_inj₀ hp.le hx.le (by norm_num)).1 this

/-- Scaling both masses scales the chirp mass. -/
theorem C03_homogeneous {m₁ m₂ k : ℝ} (h₁ : 0 < m₁) (h₂ : 0 < m₂) (hk : 0 < k) :
    chirp_mass (k * m₁) (k * m₂) = k * chirp_mass m₁ m₂ := by
  have hp := C03_pos h₁ h₂
  rw [C03_iff (by positivity) (by positivity) (by positivity)]
  have := (C03_iff h₁ h₂ hp).1 rfl
  linear_combination k ^ 6 * this

/-- The chirp mass strictly increases with either mass. -/
theorem C03_strictMono_left {m₁ m₁' m₂ : ℝ} (h₁ : 0 < m₁) (h : m₁ < m₁') (h₂ : 0 < m₂) :
    chirp_mass m₁ m₂ < chirp_mass m₁' m₂ := by
  have h₁' : 0 < m₁' := h₁.trans h
  have hp := C03_pos h₁ h₂
  have hp' := C03_pos h₁' h₂
  have e1 := (C03_iff h₁ h₂ hp).1 rfl
  have e2 := (C03_iff h₁' h₂ hp').1 rfl
  apply lt_of_pow_lt_pow_left₀ 5 hp'.le
  rw [← eq_div_iff (by positivity)] at e1 e2
  rw [e1, e2, div_lt_div_iff₀ (by positivity) (by positivity)]
  have : (m₁ * m₂) ^ 3 * (m₁' + m₂) = m₂ ^ 3 * (m₁ ^ 3 * m₁' + m₁ ^ 3 * m₂) := by ring
  rw [this, show (m₁' * m₂) ^ 3 * (m₁ + m₂) = m₂ ^ 3 * (m₁' ^ 3 * m₁ + m₁' ^ 3 * m₂) by ring]
  apply mul_lt_mul_of_pos_left _ (by positivity)
  have hc : m₁ ^ 3 < m₁' ^ 3 := pow_lt_pow_left₀ h h₁.le (by norm_num)
  have hq : m₁ ^ 2 < m₁' ^ 2 := pow_lt_pow_left₀ h h₁.le (by norm_num)
  have : m₁ ^ 3 * m₁' < m₁' ^ 3 * m₁ := by
    have := mul_lt_mul_of_pos_left hq (mul_pos h₁ h₁'); nlinarith
  nlinarith [mul_lt_mul_of_pos_right hc h₂]

theorem C03_strictMono_right {m₁ m₂ m₂' : ℝ} (h₁ : 0 < m₁) (h₂ : 0 < m₂) (h : m₂ < m₂') :
    chirp_mass m₁ m₂ < chirp_mass m₁ m₂' := by
  rw [C03_symm m₁ m₂, C03_symm m₁ m₂']; exact C03_strictMono_left h₂ h h₁

/-- The chirp mass is at most `(m₁+m₂)/2^(6/5)`, with equality exactly for equal masses. -/
theorem C03_le {m₁ m₂ : ℝ} (h₁ : 0 < m₁) (h₂ : 0 < m₂) :
    chirp_mass m₁ m₂ ≤ (m₁ + m₂) / 2 ^ (6 / 5 : ℝ) := by
  have hp := C03_pos h₁ h₂
  have e1 := (C03_iff h₁ h₂ hp).1 rfl
  have h2 : ((2 : ℝ) ^ (6 / 5 : ℝ)) ^ 5 = 64 := by
    rw [← rpow_natCast, ← rpow_mul (by norm_num)]; norm_num
  apply le_of_pow_le_pow_left₀ (n := 5) (by norm_num) (by positivity)
  rw [← eq_div_iff (by positivity)] at e1
  rw [e1, div_pow, h2, div_le_div_iff₀ (by positivity) (by positivity)]
  have hq : 4 * (m₁ * m₂) ≤ (m₁ + m₂) ^ 2 := by nlinarith [sq_nonneg (m₁ - m₂)]
  have := pow_le_pow_left₀ (by positivity) hq 3
  nlinarith [this]

theorem C03_eq_iff {m₁ m₂ : ℝ} (h₁ : 0 < m₁) (h₂ : 0 < m₂) :
    chirp_mass m₁ m₂ = (m₁ + m₂) / 2 ^ (6 / 5 : ℝ) ↔ m₁ = m₂ := by
  have h2 : ((2 : ℝ) ^ (6 / 5 : ℝ)) ^ 5 = 64 := by
    rw [← rpow_natCast, ← rpow_mul (by norm_num)]; norm_num
  rw [C03_iff h₁ h₂ (by positivity), div_pow, h2]
  constructor
  · intro h
    have h3 : ((m₁ + m₂) ^ 2) ^ 3 = (4 * (m₁ * m₂)) ^ 3 := by nlinarith
    have h4 := (pow_left_inj₀ (by positivity) (by positivity) (by norm_num)).1 h3
    have : (m₁ - m₂) ^ 2 = 0 := by nlinarith
    have := pow_eq_zero_iff (two_ne_zero) |>.1 this
    linarith
  · rintro rfl; ring

/-- Non-vacuity of C03. -/
example : 0 < chirp_mass 1.4 30 ∧ chirp_mass 1.4 30 < chirp_mass 1.4 31 :=
  ⟨C03_pos (by norm_num) (by norm_num), C03_strictMono_right (by norm_num) (by norm_num) (by norm_num)⟩

/-! ## C04: enhancement factor -/

theorem C04_zero : peters_f 0 = 1 := by simp [peters_f]

theorem C04_strictMono : StrictMonoOn peters_f (Set.Ico 0 1) := by
  rintro x ⟨hx0, hx1⟩ y ⟨hy0, hy1⟩ hxy
  unfold peters_f
  have h1 := one_sub_sq_pos hx0 hx1
  have h2 := one_sub_sq_pos hy0 hy1
  have hsq : x ^ 2 < y ^ 2 := by nlinarith
  have hq : x ^ 4 ≤ y ^ 4 := pow_le_pow_left₀ hx0 hxy.le 4
  apply div_lt_div₀
  · nlinarith
  · exact rpow_le_rpow h2.le (by linarith) (by norm_num)
  · positivity
  · positivity

theorem C04_one_le {e : ℝ} (h0 : 0 ≤ e) (h1 : e < 1) : 1 ≤ peters_f e := by
  rw [← C04_zero]
  exact C04_strictMono.monotoneOn ⟨le_rfl, by norm_num⟩ ⟨h0, h1⟩ h0

/-- The enhancement diverges as the orbit becomes parabolic. -/
theorem C04_tendsto_atTop : Tendsto peters_f (𝓝[<] 1) atTop := by
  have hden : Tendsto (fun e : ℝ => (1 - e ^ 2) ^ (7 / 2 : ℝ)) (𝓝[<] 1) (𝓝[>] 0) := by
    rw [tendsto_nhdsWithin_iff]
    constructor
    · have : ContinuousAt (fun e : ℝ => (1 - e ^ 2) ^ (7 / 2 : ℝ)) 1 :=
        ContinuousAt.rpow_const (by fun_prop) (Or.inr (by norm_num))
      have h := this.tendsto
      norm_num at h
      exact h.mono_left nhdsWithin_le_nhds
    · have : ∀ᶠ e : ℝ in 𝓝[<] 1, e ∈ Set.Ioo (0 : ℝ) 1 := Ioo_mem_nhdsLT (by norm_num)
      filter_upwards [this] with e he
      exact rpow_pos_of_pos (one_sub_sq_pos he.1.le he.2) _
  have hnum : Tendsto (fun e : ℝ => 1 + (73 / 24) * e ^ 2 + (37 / 96) * e ^ 4) (𝓝[<] 1)
      (𝓝 (1 + (73 / 24) * 1 ^ 2 + (37 / 96) * 1 ^ 4)) :=
    (Continuous.tendsto (by fun_prop) 1).mono_left nhdsWithin_le_nhds
  have := hnum.pos_mul_atTop (by norm_num) (tendsto_inv_nhdsGT_zero.comp hden)
  · exact this.congr (fun e => by simp [peters_f, div_eq_mul_inv])

/-- Non-vacuity of C04. -/
example : peters_f 0.1 < peters_f 0.9 :=
  C04_strictMono ⟨by norm_num, by norm_num⟩ ⟨by norm_num, by norm_num⟩ (by norm_num)

end Legwork.Props
