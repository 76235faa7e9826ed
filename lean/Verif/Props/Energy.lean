import Verif.Props.PetersSum
import Verif.Props.Strain
import Verif.Props.EvolEcc
import Verif.Spec.Power

/-!
# The strain of the harmonics and the loss of orbital energy: C76
-/

namespace Legwork.Props

open Real Legwork.Spec Legwork.utils Legwork.strain Legwork.evol

private lemma rpow_third_cube {x : ℝ} (hx : 0 ≤ x) (k : ℕ) : (x ^ ((k : ℝ) / 3)) ^ 3 = x ^ k := by
  rw [← rpow_natCast, ← rpow_mul hx, ← rpow_natCast]
  congr 1
  push_cast
  ring

/-- The power in one harmonic of `h_0_n`. -/
private lemma harmonic_power (K : Consts) {m₁ m₂ a f d e : ℝ} (h₁ : 0 < m₁) (h₂ : 0 < m₂) (ha : 0 < a) (hf : 0 < f)
    (hd : 0 < d) (h0 : 0 ≤ e) (h1 : e ≤ 1) (hk : KeplerThird K f a m₁ m₂) {n : ℤ} (hn : 1 ≤ n) :
    wavePower K d (n * f) (h_0_val K none (chirp_mass m₁ m₂) d f e n) =
      32 / 5 * (K.G ^ 4 * m₁ ^ 2 * m₂ ^ 2 * (m₁ + m₂) / (K.c ^ 5 * a ^ 5)) * peters_g n e := by
  have hG := K.G_pos
  have hc := K.c_pos
  have hn' : (n : ℝ) ≠ 0 := by have : (1 : ℝ) ≤ n := by exact_mod_cast hn
                               linarith
  have hM : 0 < m₁ + m₂ := by linarith
  unfold wavePower
  rw [mul_pow _ (h_0_val _ _ _ _ _ _ _) 2, h_0_val_sq K none h0 h1]
  simp only [g_vals]
  have hmc : (chirp_mass m₁ m₂ ^ (5 / 3 : ℝ)) ^ 3 = (m₁ * m₂) ^ 3 / (m₁ + m₂) := by
    rw [show (5 / 3 : ℝ) = ((5 : ℕ) : ℝ) / 3 by norm_num, rpow_third_cube (C03_pos h₁ h₂).le]
    unfold chirp_mass
    rw [div_pow, ← rpow_natCast, ← rpow_mul (by positivity), ← rpow_natCast (_ ^ (1 / 5 : ℝ)),
      ← rpow_mul hM.le]
    norm_num
  have hp : ((π * f) ^ (2 / 3 : ℝ)) ^ 3 = (π * f) ^ 2 := by
    rw [show (2 / 3 : ℝ) = ((2 : ℕ) : ℝ) / 3 by norm_num, rpow_third_cube (by positivity)]
  have hq : (K.G ^ (5 / 3 : ℝ)) ^ 3 = K.G ^ 5 := by
    rw [show (5 / 3 : ℝ) = ((5 : ℕ) : ℝ) / 3 by norm_num, rpow_third_cube hG.le]
  have hz : ((2 : ℝ) ^ (28 / 3 : ℝ)) ^ 3 = 2 ^ 28 := by
    rw [show (28 / 3 : ℝ) = ((28 : ℕ) : ℝ) / 3 by norm_num, rpow_third_cube (by norm_num)]
  have hmp : 0 < chirp_mass m₁ m₂ ^ (5 / 3 : ℝ) := rpow_pos_of_pos (C03_pos h₁ h₂) _
  have hpp : 0 < (π * f) ^ (2 / 3 : ℝ) := by positivity
  have hqp : 0 < K.G ^ (5 / 3 : ℝ) := by positivity
  have hzp : 0 < (2 : ℝ) ^ (28 / 3 : ℝ) := by positivity
  generalize chirp_mass m₁ m₂ ^ (5 / 3 : ℝ) = μ at *
  generalize (π * f) ^ (2 / 3 : ℝ) = p at *
  generalize K.G ^ (5 / 3 : ℝ) = q at *
  generalize (2 : ℝ) ^ (28 / 3 : ℝ) = z at *
  have hk' : (π * f) ^ 2 = K.G * (m₁ + m₂) / (4 * a ^ 3) := by
    unfold KeplerThird at hk
    rw [eq_div_iff (by positivity), ← hk]; ring
  have hA : K.c ^ 3 / (2 * K.G) * (π * f) ^ 2 * (z / 5 * q ^ 2 / K.c ^ 8 * μ ^ 2 * p ^ 2) =
      32 / 5 * (K.G ^ 4 * m₁ ^ 2 * m₂ ^ 2 * (m₁ + m₂) / (K.c ^ 5 * a ^ 5)) := by
    have hinj : ∀ x y : ℝ, 0 ≤ x → 0 ≤ y → x ^ 3 = y ^ 3 → x = y := fun x y hx hy h =>
      (pow_left_inj₀ hx hy (by norm_num)).1 h
    refine hinj _ _ (by positivity) (by positivity) ?_
    have : (K.c ^ 3 / (2 * K.G) * (π * f) ^ 2 * (z / 5 * q ^ 2 / K.c ^ 8 * μ ^ 2 * p ^ 2)) ^ 3 =
        (K.c ^ 3 / (2 * K.G)) ^ 3 * ((π * f) ^ 2) ^ 3 *
          (z ^ 3 / 125 * (q ^ 3) ^ 2 / K.c ^ 24 * (μ ^ 3) ^ 2 * (p ^ 3) ^ 2) := by ring
    rw [this, hz, hq, hmc, hp, hk']
    field_simp
    ring
  rw [← hA]
  field_simp

/-- What `h_0_n` returns for one harmonic of one source without orientation. -/
private lemma h_0_n_one (K : Consts) (m d f e : ℝ) {n : ℤ} (hn : 1 ≤ n) :
    h_0_n K none [n] [{ m_c := m, dist := d, steps := [(f, e)] }] = .ok [[[h_0_val K none m d f e n]]] := by
  simp [h_0_n, not_lt.2 hn, row_strain, modulation, pure, Except.pure, bind, Except.bind]

/-- **C76** (luminosity). For every bound orbit, the strains that `h_0_n` returns for the harmonics `1, 2, 3, …` carry
together exactly the power of Peters & Mathews (1963), whatever the distance. -/
theorem C76_luminosity (K : Consts) {m₁ m₂ a d e : ℝ} (h₁ : 0 < m₁) (h₂ : 0 < m₂) (ha : 0 < a) (hd : 0 < d)
    (h0 : 0 ≤ e) (h1 : e < 1) :
    let f := get_f_orb_from_a K a m₁ m₂
    ∃ x : ℕ → ℝ,
      (∀ n : ℕ, h_0_n K none [(n : ℤ) + 1] [{ m_c := chirp_mass m₁ m₂, dist := d, steps := [(f, e)] }] = .ok [[[x n]]]) ∧
      HasSum (fun n : ℕ => wavePower K d (((n : ℝ) + 1) * f) (x n)) (petersMathews K m₁ m₂ a e) := by
  intro f
  have hf : 0 < f := get_f_orb_from_a_pos K ha h₁ h₂
  have hk : KeplerThird K f a m₁ m₂ := (C01_get_f_iff_kepler K hf ha h₁ h₂).1 rfl
  refine ⟨fun n => h_0_val K none (chirp_mass m₁ m₂) d f e ((n : ℤ) + 1),
    fun n => h_0_n_one K _ _ _ _ (by omega), ?_⟩
  have hs := (C06_sum h0 h1).mul_left (32 / 5 * (K.G ^ 4 * m₁ ^ 2 * m₂ ^ 2 * (m₁ + m₂) / (K.c ^ 5 * a ^ 5)))
  convert hs using 1
  · rfl
  · funext n
    rw [← harmonic_power K h₁ h₂ ha hf hd h0 h1.le hk (by omega)]
    push_cast
    rfl
  · rfl

private lemma energy_rate (K : Consts) {m₁ m₂ : ℝ} {a : ℝ → ℝ} {t ε : ℝ} (ha : 0 < a t)
    (h : HasDerivAt a (-utils.beta K m₁ m₂ / a t ^ 3 * peters_f ε) t) :
    HasDerivAt (fun s => orbitalEnergy K m₁ m₂ (a s)) (-petersMathews K m₁ m₂ (a t) ε) t := by
  have hd := ((h.const_mul 2).inv (by positivity : 2 * a t ≠ 0)).const_mul (-(K.G * m₁ * m₂))
  have hfun : (fun s => orbitalEnergy K m₁ m₂ (a s)) = fun s => -(K.G * m₁ * m₂) * (2 * a s)⁻¹ := by
    funext s; unfold orbitalEnergy; ring
  rw [hfun]
  refine hd.congr_deriv ?_
  have hc := K.c_pos
  unfold petersMathews utils.beta peters_f
  field_simp
  ring

/-- **C76** (energy balance, eccentric). While the eccentricity follows `evol.de_dt` and the separation follows
`get_a_from_ecc`, the orbit loses energy at exactly the rate at which the harmonics of `h_0_n` carry it away. -/
theorem C76_energy_balance (K : Consts) {m₁ m₂ d c t₀ t₁ : ℝ} {e : ℝ → ℝ} (h₁ : 0 < m₁) (h₂ : 0 < m₂) (hd : 0 < d)
    (hc : 0 < c) (h : EccentricInspiral (utils.beta K m₁ m₂) c t₀ t₁ e) {t : ℝ} (ht : t ∈ Set.Icc t₀ t₁) :
    let a := fun s => get_a_from_ecc (e s) c
    let f := get_f_orb_from_a K (a t) m₁ m₂
    ∃ (x : ℕ → ℝ) (P : ℝ),
      (∀ n : ℕ, h_0_n K none [(n : ℤ) + 1] [{ m_c := chirp_mass m₁ m₂, dist := d, steps := [(f, e t)] }] =
        .ok [[[x n]]]) ∧
      HasSum (fun n : ℕ => wavePower K d (((n : ℝ) + 1) * f) (x n)) P ∧
      HasDerivAt (fun s => orbitalEnergy K m₁ m₂ (a s)) (-P) t := by
  intro a f
  obtain ⟨h0, h1⟩ := h.bound t ht
  have ha : 0 < a t := get_a_from_ecc_pos h0 h1 hc
  obtain ⟨x, hx, hs⟩ := C76_luminosity K h₁ h₂ ha hd h0.le h1
  exact ⟨x, _, hx, hs, energy_rate K ha (C15_separation_rate (beta_pos K h₁ h₂) hc h ht)⟩

/-- **C76** (energy balance, circular). The second harmonic alone carries what a circular orbit loses. -/
theorem C76_circular (K : Consts) {m₁ m₂ d a₀ T t : ℝ} {s : ℝ → ℝ} (h₁ : 0 < m₁) (h₂ : 0 < m₂) (hd : 0 < d)
    (h : CircularInspiral (utils.beta K m₁ m₂) a₀ T s) (ht : t < T) :
    ∃ x, h_0_n K none [2] [{ m_c := chirp_mass m₁ m₂, dist := d, steps := [(get_f_orb_from_a K (s t) m₁ m₂, 0)] }] =
        .ok [[[x]]] ∧
      HasDerivAt (fun τ => orbitalEnergy K m₁ m₂ (s τ))
        (-wavePower K d (2 * get_f_orb_from_a K (s t) m₁ m₂) x) t := by
  have ha := h.pos t ht
  have hf := get_f_orb_from_a_pos K ha h₁ h₂
  refine ⟨_, h_0_n_one K _ _ _ _ (by norm_num), ?_⟩
  have hp := harmonic_power K h₁ h₂ ha hf hd le_rfl zero_le_one ((C01_get_f_iff_kepler K hf ha h₁ h₂).1 rfl)
    (n := 2) (by norm_num)
  have hF : peters_f 0 = 1 := by simp [peters_f]
  have hr := energy_rate K (ε := 0) ha (by rw [hF, mul_one]; exact h.ode t ht)
  refine hr.congr_deriv ?_
  push_cast at hp
  rw [hp, C05_circular (by norm_num)]
  unfold petersMathews
  norm_num

/-- The hypotheses of `C76_energy_balance` are met by every pair of masses, distance and initial orbit. -/
example : ∃ (e : ℝ → ℝ) (T : ℝ), 0 < T ∧ e 0 = 0.6 ∧
    ∀ t < T, EccentricInspiral (utils.beta Consts.codata2018 2e30 1e30) 1e9 0 t e :=
  C15_solutions_exist (beta_pos _ (by norm_num) (by norm_num)) (by norm_num) (by norm_num) (by norm_num)

/-- The power of `C76_luminosity` is not zero. -/
example : 0 < petersMathews Consts.codata2018 2e30 1e30 1e9 0.6 := by
  have hG := Consts.codata2018.G_pos
  have hc := Consts.codata2018.c_pos
  unfold petersMathews
  have : (0 : ℝ) < 1 - 0.6 ^ 2 := by norm_num
  positivity

end Legwork.Props
