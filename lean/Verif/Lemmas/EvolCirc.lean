import Verif.Lemmas.Peters
import Verif.Spec.Peters
import Verif.Spec.Orbit

/-!
# Helper lemmas for circular evolution
-/

namespace Legwork.evol

open Real Legwork.utils Legwork.np Legwork.Spec

variable {ι : Type*}

theorem a_circ_of_lt {a b t : ℝ} (h : 4 * b * t < a ^ 4) : a_circ a b t = (a ^ 4 - 4 * b * t) ^ (1 / 4 : ℝ) := by
  unfold a_circ
  simp only
  rw [if_neg (by linarith)]

theorem a_circ_of_ge {a b t : ℝ} (h : a ^ 4 ≤ 4 * b * t) : a_circ a b t = 0 := by
  unfold a_circ
  simp only
  rw [if_pos (by linarith), zero_rpow (by norm_num)]

theorem a_circ_eq_max (a b t : ℝ) : a_circ a b t = (max 0 (a ^ 4 - 4 * b * t)) ^ (1 / 4 : ℝ) := by
  unfold a_circ
  simp only
  split_ifs with h
  · rw [max_eq_left h]
  · rw [max_eq_right (by linarith)]

theorem a_circ_pow_four (a b t : ℝ) : a_circ a b t ^ 4 = max 0 (a ^ 4 - 4 * b * t) := by
  rw [a_circ_eq_max, rpow_pow_eq (le_max_left _ _) 4 1 (by norm_num), pow_one]

theorem a_circ_nonneg (a b t : ℝ) : 0 ≤ a_circ a b t := by
  rw [a_circ_eq_max]; exact rpow_nonneg (le_max_left _ _) _

theorem a_circ_pos {a b t : ℝ} (h : 4 * b * t < a ^ 4) : 0 < a_circ a b t := by
  rw [a_circ_of_lt h]; exact rpow_pos_of_pos (by linarith) _

theorem a_circ_inspiral {a b : ℝ} (ha : 0 < a) (hb : 0 < b) :
    CircularInspiral b a (a ^ 4 / (4 * b)) (a_circ a b) := by
  have hlt : ∀ t, t < a ^ 4 / (4 * b) ↔ 4 * b * t < a ^ 4 := by
    intro t
    rw [lt_div_iff₀ (by positivity)]; constructor <;> intro h <;> linarith
  have hge : ∀ t, a ^ 4 / (4 * b) ≤ t ↔ a ^ 4 ≤ 4 * b * t := by
    intro t
    rw [div_le_iff₀ (by positivity)]; constructor <;> intro h <;> linarith
  have ha4 : 0 < a ^ 4 := by positivity
  refine ⟨?_, ?_, ?_, ?_, ?_, ?_⟩
  · rw [a_circ_of_lt (by linarith), mul_zero, sub_zero, pow_rpow_eq ha.le 4 1 (by norm_num), pow_one]
  · intro t ht; exact a_circ_pos ((hlt t).1 ht)
  · intro t ht
    have h := (hlt t).1 ht
    have hd : 0 < a ^ 4 - 4 * b * t := by linarith
    have d1 : HasDerivAt (fun x : ℝ => a ^ 4 - 4 * b * x) (-(4 * b)) t := by
      simpa using ((hasDerivAt_id t).const_mul (4 * b)).const_sub (a ^ 4)
    have d2 := d1.rpow_const (p := 1 / 4) (Or.inl hd.ne')
    have hev : (fun x : ℝ => (a ^ 4 - 4 * b * x) ^ (1 / 4 : ℝ)) =ᶠ[nhds t] a_circ a b := by
      filter_upwards [isOpen_Iio.mem_nhds (show t ∈ Set.Iio (a ^ 4 / (4 * b)) from ht)] with x hx
      rw [a_circ_of_lt ((hlt x).1 hx)]
    refine (d2.congr_of_eventuallyEq hev.symm).congr_deriv ?_
    rw [a_circ_of_lt h]
    have hp : 0 < (a ^ 4 - 4 * b * t) ^ (1 / 4 : ℝ) := by positivity
    have e1 : (a ^ 4 - 4 * b * t) ^ (1 / 4 - 1 : ℝ) = (((a ^ 4 - 4 * b * t) ^ (1 / 4 : ℝ)) ^ 3)⁻¹ := by
      rw [rpow_pow_eq' hd.le, ← rpow_neg hd.le]; norm_num
    rw [e1]
    field_simp
  · intro t ht; exact a_circ_of_ge ((hge t).1 ht)
  · have : a_circ a b = fun t => (max 0 (a ^ 4 - 4 * b * t)) ^ (1 / 4 : ℝ) := by
      ext t; exact a_circ_eq_max a b t
    rw [this]
    exact Continuous.rpow_const (by fun_prop) (fun _ => Or.inr (by norm_num))
  · intro x hx y hy hxy
    have hx' : 4 * b * x < a ^ 4 := (hlt x).1 (lt_of_lt_of_le hxy hy)
    apply lt_of_pow_lt_pow_left₀ 4 (a_circ_nonneg a b x)
    rw [a_circ_pow_four, a_circ_pow_four]
    have hbxy : 4 * b * x < 4 * b * y := by
      have : 0 < 4 * b := by positivity
      nlinarith
    exact max_lt (lt_max_of_lt_right (by linarith)) (lt_max_of_lt_right (by linarith))

/-- Composition of circular evolutions. -/
theorem a_circ_comp {a b t₁ t₂ : ℝ} (hb : 0 < b) (h₂ : 0 ≤ t₂) :
    a_circ (a_circ a b t₁) b t₂ = a_circ a b (t₁ + t₂) := by
  rw [a_circ_eq_max (a_circ a b t₁), a_circ_eq_max a b (t₁ + t₂), a_circ_pow_four]
  congr 1
  have h0 : 0 ≤ 4 * b * t₂ := by positivity
  rcases le_total 0 (a ^ 4 - 4 * b * t₁) with h | h
  · rw [max_eq_right h]; congr 1; ring
  · rw [max_eq_left h, max_eq_left (by linarith), max_eq_left (by nlinarith)]

/-- `evol_circ` with `output_vars="a"` and an explicit grid. -/
theorem evol_circ_a_grid (K : Consts) (u : ℝ) (n : ℕ) (te : Option (TEvol ι)) (ts : List ℝ) (β a : ι → ℝ)
    (m₁ m₂ f : Option (ι → ℝ)) :
    evol_circ K u te n (some (.grid ts)) (some β) m₁ m₂ (some a) f ["a"]
      = .ok (.one fun i => ts.map (a_circ (a i) (β i))) := by
  simp [evol_circ, check_mass_freq_input, wantsFreq, create_timesteps_array, construct_output, output_step, readVar, bind, Except.bind, pure,
    Except.pure]

theorem get_t_merge_circ_some (K : Consts) (β a : ι → ℝ) (m₁ m₂ f : Option (ι → ℝ)) :
    get_t_merge_circ K (some β) m₁ m₂ (some a) f = .ok fun i => a i ^ 4 / (4 * β i) := by
  simp [get_t_merge_circ, check_mass_freq_input, bind, Except.bind, pure, Except.pure]

theorem get_t_merge_circ_masses (K : Consts) (m₁ m₂ f : ι → ℝ) :
    get_t_merge_circ K none (some m₁) (some m₂) none (some f)
      = .ok fun i => get_a_from_f_orb K (f i) (m₁ i) (m₂ i) ^ 4 / (4 * utils.beta K (m₁ i) (m₂ i)) := by
  simp [get_t_merge_circ, check_mass_freq_input, bind, Except.bind, pure, Except.pure]

theorem evol_circ_f_grid (K : Consts) (u : ℝ) (n : ℕ) (te : Option (TEvol ι)) (ts : List ℝ) (m₁ m₂ f : ι → ℝ) :
    evol_circ K u te n (some (.grid ts)) none (some m₁) (some m₂) none (some f) ["f_orb"]
      = .ok (.one fun i => ts.map fun t => f_or_merged K u
          (a_circ (get_a_from_f_orb K (f i) (m₁ i) (m₂ i)) (utils.beta K (m₁ i) (m₂ i)) t) (m₁ i) (m₂ i)) := by
  simp [evol_circ, check_mass_freq_input, wantsFreq, create_timesteps_array, construct_output, output_step, readVar, bind, Except.bind, pure,
    Except.pure]
  rfl

theorem f_or_merged_zero (K : Consts) (u m₁ m₂ : ℝ) : f_or_merged K u 0 m₁ m₂ = 100 := by
  simp [f_or_merged]; norm_num

theorem f_or_merged_of_ne (K : Consts) {u a m₁ m₂ : ℝ} (h0 : a ≠ 0) (h1 : a ≠ 1e-30 * u) :
    f_or_merged K u a m₁ m₂ = get_f_orb_from_a K a m₁ m₂ := by
  simp only [f_or_merged, if_neg h0, if_neg h1]

/-- The constant relating `f^(-8/3)` and `a⁴` through Kepler's law. -/
noncomputable def kap (K : Consts) (M : ℝ) : ℝ := ((2 * π) ^ 2 / (K.G * M)) ^ (4 / 3 : ℝ)

theorem kap_pos (K : Consts) {M : ℝ} (hM : 0 < M) : 0 < kap K M := by
  have := K.G_pos
  unfold kap; positivity

theorem kepler_f_pow (K : Consts) {f a m₁ m₂ : ℝ} (hf : 0 < f) (ha : 0 < a)
    (hk : KeplerThird K f a m₁ m₂) : f ^ (-8 / 3 : ℝ) = kap K (m₁ + m₂) * a ^ 4 := by
  have hG := K.G_pos
  unfold KeplerThird at hk
  unfold kap
  rw [← hk]
  have e1 : a ^ 4 = (a ^ 3) ^ (4 / 3 : ℝ) := (pow_rpow_eq ha.le 3 4 (by norm_num)).symm
  rw [e1, ← mul_rpow (by positivity) (by positivity)]
  rw [show (2 * π) ^ 2 / ((2 * π * f) ^ 2 * a ^ 3) * a ^ 3 = (f ^ 2)⁻¹ by field_simp]
  rw [inv_rpow (by positivity), ← rpow_natCast, ← rpow_mul hf.le, ← rpow_neg hf.le]
  norm_num

/-- The constants of `evolve_f_orb_circ` and `beta` agree. -/
theorem kap_mul_beta (K : Consts) {m₁ m₂ : ℝ} (h₁ : 0 < m₁) (h₂ : 0 < m₂) :
    kap K (m₁ + m₂) * (4 * utils.beta K m₁ m₂)
      = 2 ^ (32 / 3 : ℝ) * π ^ (8 / 3 : ℝ) / (5 * K.c ^ 5) * (K.G * chirp_mass m₁ m₂) ^ (5 / 3 : ℝ) := by
  have hc := K.c_pos
  have hG := K.G_pos
  have hmc : (K.G * chirp_mass m₁ m₂) ^ (5 / 3 : ℝ)
      = K.G ^ (5 / 3 : ℝ) * (m₁ * m₂ / (m₁ + m₂) ^ (1 / 3 : ℝ)) := by
    have hmcp : 0 < chirp_mass m₁ m₂ := Props.C03_pos h₁ h₂
    rw [mul_rpow hG.le hmcp.le]
    congr 1
    unfold chirp_mass
    rw [div_rpow (by positivity) (by positivity), ← rpow_mul (by positivity), ← rpow_mul (by positivity)]
    norm_num
  rw [hmc]
  unfold kap utils.beta
  have hM : 0 < m₁ + m₂ := by positivity
  generalize hMe : m₁ + m₂ = M at hM
  obtain ⟨g, hg, hge⟩ := exists_pow_eq hG 3 (by norm_num)
  obtain ⟨N, hN, rfl⟩ := exists_pow_eq hM 3 (by norm_num)
  obtain ⟨p, hp, hpe⟩ := exists_pow_eq Real.pi_pos 3 (by norm_num)
  obtain ⟨t, ht, hte⟩ := exists_pow_eq (two_pos : (0 : ℝ) < 2) 3 (by norm_num)
  have e1 : ((2 * π) ^ 2 / (K.G * N ^ 3)) ^ (4 / 3 : ℝ) = (t ^ 2 * p ^ 2 / (g * N)) ^ 4 := by
    rw [← hpe, ← hge]
    nth_rw 1 [← hte]
    rw [show (t ^ 3 * p ^ 3) ^ 2 / (g ^ 3 * N ^ 3) = (t ^ 2 * p ^ 2 / (g * N)) ^ 3 by field_simp,
      pow_rpow_eq (by positivity) 3 4 (by norm_num)]
  have e2 : (2 : ℝ) ^ (32 / 3 : ℝ) = t ^ 32 := by
    nth_rw 1 [← hte]; exact pow_rpow_eq ht.le 3 32 (by norm_num)
  have e3 : π ^ (8 / 3 : ℝ) = p ^ 8 := by rw [← hpe]; exact pow_rpow_eq hp.le 3 8 (by norm_num)
  have e4 : K.G ^ (5 / 3 : ℝ) = g ^ 5 := by rw [← hge]; exact pow_rpow_eq hg.le 3 5 (by norm_num)
  have e5 : (N ^ 3) ^ (1 / 3 : ℝ) = N := by rw [pow_rpow_eq hN.le 3 1 (by norm_num), pow_one]
  rw [e1, e2, e3, e4, e5, ← hge]
  field_simp
  have h256 : (256 : ℝ) = t ^ 24 := by rw [show (256 : ℝ) = 2 ^ 8 by norm_num, ← hte]; ring
  rw [show (4 : ℝ) * 64 = 256 by norm_num, h256]

/-- The bracket of `evolve_f_orb_circ` in terms of separations. -/
theorem inner_part_eq (K : Consts) {f m₁ m₂ t e : ℝ} (hf : 0 < f) (h₁ : 0 < m₁) (h₂ : 0 < m₂) :
    inner_part K f (chirp_mass m₁ m₂) t e = kap K (m₁ + m₂)
      * (get_a_from_f_orb K f m₁ m₂ ^ 4 - 4 * utils.beta K m₁ m₂ * (t * peters_f e)) := by
  have ha := Props.get_a_from_f_orb_pos K hf h₁ h₂
  have hk := (Props.C01_get_a_iff_kepler K hf ha h₁ h₂).1 rfl
  unfold inner_part
  rw [kepler_f_pow K hf ha hk, mul_sub,
    show kap K (m₁ + m₂) * (4 * utils.beta K m₁ m₂ * (t * peters_f e))
      = kap K (m₁ + m₂) * (4 * utils.beta K m₁ m₂) * (t * peters_f e) by ring, kap_mul_beta K h₁ h₂]
  ring

/-- A frequency from its `-8/3` power. -/
theorem f_of_pow {f x : ℝ} (hf : 0 < f) (h : f ^ (-8 / 3 : ℝ) = x) : x ^ (-3 / 8 : ℝ) = f := by
  rw [← h, ← rpow_mul hf.le]; norm_num

end Legwork.evol
