import Verif.Lemmas.StatSnr
import Verif.Spec.Chirp
import Verif.Props.SnrCircEvolving
import Mathlib.MeasureTheory.Integral.IntervalIntegral.IntegrationByParts

/-!
# How the number of timesteps affects evolving signal-to-noise ratios
-/

namespace Legwork.snr

open Real Set Legwork.utils Legwork.strain Legwork.evol Legwork.Spec Legwork.Props

theorem chirp_pos {f₀ T t : ℝ} (hf : 0 < f₀) (hT : 0 < T) (ht : t < T) : 0 < chirp f₀ T t := by
  have : 0 < T - t := by linarith
  unfold chirp
  positivity

theorem chirp_mono {f₀ T s t : ℝ} (hf : 0 < f₀) (hT : 0 < T) (hst : s ≤ t) (ht : t < T) : chirp f₀ T s ≤ chirp f₀ T t := by
  have : 0 < T - t := by linarith
  have : 0 < T - s := by linarith
  unfold chirp
  gcongr

theorem chirp_zero {f₀ T : ℝ} (hT : 0 < T) : chirp f₀ T 0 = f₀ := by
  unfold chirp
  rw [sub_zero, div_self hT.ne', one_rpow, mul_one]

/-- The ratio of frequencies over a step grows towards merger. -/
theorem chirp_ratio {f₀ T τ h t : ℝ} (hf : 0 < f₀) (hh : 0 ≤ h) (ht : t + h ≤ τ) (hτ : τ < T) (hT : 0 < T) :
    chirp f₀ T (t + h) ≤ (1 + h / (T - τ)) ^ (3 / 8 : ℝ) * chirp f₀ T t := by
  have h1 : 0 < T - τ := by linarith
  have h2 : 0 < T - (t + h) := by linarith
  have h3 : 0 < T - t := by linarith
  have e : T / (T - (t + h)) = (1 + h / (T - (t + h))) * (T / (T - t)) := by
    field_simp
    ring
  unfold chirp
  rw [e, mul_rpow (by positivity) (by positivity)]
  have : (1 + h / (T - (t + h))) ^ (3 / 8 : ℝ) ≤ (1 + h / (T - τ)) ^ (3 / 8 : ℝ) := by
    gcongr
  calc f₀ * ((1 + h / (T - (t + h))) ^ (3 / 8 : ℝ) * (T / (T - t)) ^ (3 / 8 : ℝ))
      = (1 + h / (T - (t + h))) ^ (3 / 8 : ℝ) * (f₀ * (T / (T - t)) ^ (3 / 8 : ℝ)) := by ring
    _ ≤ _ := by gcongr

/-- The code's frequencies follow the chirp. -/
theorem f_of_a_circ (K : Consts) {f m₁ m₂ t T : ℝ} (hf : 0 < f) (h₁ : 0 < m₁) (h₂ : 0 < m₂)
    (hT : T = get_a_from_f_orb K f m₁ m₂ ^ 4 / (4 * utils.beta K m₁ m₂)) (ht : t < T) :
    get_f_orb_from_a K (a_circ (get_a_from_f_orb K f m₁ m₂) (utils.beta K m₁ m₂) t) m₁ m₂ = chirp f T t := by
  have ha := get_a_from_f_orb_pos K hf h₁ h₂
  have hb := beta_pos K h₁ h₂
  have hG := K.G_pos
  have hround : get_f_orb_from_a K (get_a_from_f_orb K f m₁ m₂) m₁ m₂ = f := C01_f_roundtrip K hf h₁ h₂
  set a := get_a_from_f_orb K f m₁ m₂ with hadef
  have hT0 : 0 < T := by rw [hT]; positivity
  have hu : 0 < (T - t) / T := div_pos (by linarith) hT0
  set u := (T - t) / T with hudef
  have hd : a ^ 4 - 4 * utils.beta K m₁ m₂ * t = a ^ 4 * u := by
    have : a ^ 4 = 4 * utils.beta K m₁ m₂ * T := by rw [hT]; field_simp
    rw [hudef, this]
    field_simp
  have hA : a_circ a (utils.beta K m₁ m₂) t = a * u ^ (1 / 4 : ℝ) := by
    unfold a_circ
    simp only
    rw [hd, if_neg (not_le.2 (by positivity)), mul_rpow (by positivity) hu.le, ← rpow_natCast a, ← rpow_mul ha.le]
    norm_num
  rw [hA]
  unfold chirp
  conv_rhs => rw [← hround]
  unfold get_f_orb_from_a
  have e3 : (a * u ^ (1 / 4 : ℝ)) ^ 3 = a ^ 3 * u ^ (3 / 4 : ℝ) := by
    rw [mul_pow, ← rpow_natCast (u ^ _), ← rpow_mul hu.le]
    norm_num
  have e4 : K.G * (m₁ + m₂) / (a ^ 3 * u ^ (3 / 4 : ℝ)) = K.G * (m₁ + m₂) / a ^ 3 * u ^ (-(3 / 4) : ℝ) := by
    rw [rpow_neg hu.le]
    field_simp
  have e5 : T / (T - t) = u⁻¹ := by rw [hudef, inv_div]
  rw [e3, e4, mul_rpow (by positivity) (by positivity), ← rpow_mul hu.le, e5, inv_rpow hu.le, ← rpow_neg hu.le]
  norm_num
  ring

theorem chirp_hasDerivAt (K : Consts) {f m₁ m₂ t T : ℝ} (hf : 0 < f) (h₁ : 0 < m₁) (h₂ : 0 < m₂)
    (hT : T = get_a_from_f_orb K f m₁ m₂ ^ 4 / (4 * utils.beta K m₁ m₂)) (ht : t < T) (k : ℤ) :
    HasDerivAt (fun s => k * chirp f T s) (fn_dot_val K (chirp_mass m₁ m₂) (chirp f T t) 0 k) t := by
  have ha := get_a_from_f_orb_pos K hf h₁ h₂
  have hb := beta_pos K h₁ h₂
  set A : ℝ → ℝ := a_circ (get_a_from_f_orb K f m₁ m₂) (utils.beta K m₁ m₂) with hA
  have hin : CircularInspiral (utils.beta K m₁ m₂) (get_a_from_f_orb K f m₁ m₂) T A := by
    rw [hT]
    exact a_circ_inspiral ha hb
  have hp : 0 < A t := hin.pos t ht
  have hfp : 0 < get_f_orb_from_a K (A t) m₁ m₂ := get_f_orb_from_a_pos K hp h₁ h₂
  have d := (hasDerivAt_f K (a := A) hp h₁ h₂ (hin.ode t ht)).const_mul (k : ℝ)
  have hloc : (fun s => (k : ℝ) * chirp f T s) =ᶠ[nhds t] fun s => (k : ℝ) * get_f_orb_from_a K (A s) m₁ m₂ := by
    filter_upwards [Iio_mem_nhds ht] with s hs
    rw [hA, f_of_a_circ K hf h₁ h₂ hT hs]
  refine (d.congr_of_eventuallyEq hloc).congr_deriv ?_
  rw [← f_of_a_circ K hf h₁ h₂ hT ht, ← hA]
  rw [fn_dot_val_eq K k hfp hp h₁ h₂ ((C01_get_f_iff_kepler K hfp hp h₁ h₂).1 rfl), C04_zero]
  field_simp

theorem linspace_mem {τ t : ℝ} (hτ : 0 ≤ τ) {n : ℕ} (hn : 2 ≤ n) (h : t ∈ np.linspace τ n) : t ∈ Icc 0 τ := by
  obtain ⟨i, hi, rfl⟩ := List.mem_map.1 h
  rw [List.mem_range] at hi
  have h1 : (0 : ℝ) < (n : ℝ) - 1 := by
    have : (2 : ℝ) ≤ n := by exact_mod_cast hn
    linarith
  have h2 : (i : ℝ) + 1 ≤ n := by exact_mod_cast hi
  refine ⟨by positivity, ?_⟩
  rw [mul_div_assoc', div_le_iff₀ h1]
  nlinarith

/-- The frequencies `snr_circ_evolving` integrates over. -/
theorem circFreqs_chirp (C : Ctx) {s : EvolSrc} (hs : EvolPhys s) (hobs : 0 ≤ C.t_obs) {T : ℝ}
    (hT : T = get_a_from_f_orb C.K s.f_orb_i s.m_1 s.m_2 ^ 4 / (4 * utils.beta C.K s.m_1 s.m_2)) (h1 : 1 ≤ T) {n : ℕ}
    (hn : 2 ≤ n) (h100 : (100 : ℝ) ∉ circRow C.K s (min (T - 1) C.t_obs) n) :
    circFreqs C n s T = (np.linspace (min (T - 1) C.t_obs) n).map (chirp s.f_orb_i T) := by
  obtain ⟨hm1, hm2, hf0, hd⟩ := hs
  have ha := get_a_from_f_orb_pos C.K hf0 hm1 hm2
  have hb := beta_pos C.K hm1 hm2
  set τ := min (T - 1) C.t_obs with hτdef
  have hτ : 0 ≤ τ := le_min (by linarith) hobs
  have hτT : τ < T := lt_of_le_of_lt (min_le_left _ _) (by linarith)
  have hin : CircularInspiral (utils.beta C.K s.m_1 s.m_2) (get_a_from_f_orb C.K s.f_orb_i s.m_1 s.m_2) T
      (a_circ (get_a_from_f_orb C.K s.f_orb_i s.m_1 s.m_2) (utils.beta C.K s.m_1 s.m_2)) := by
    rw [hT]
    exact a_circ_inspiral ha hb
  unfold circFreqs
  rw [← hτdef, drop_merged_circ_of_not_mem h100]
  unfold circRow
  apply List.map_congr_left
  intro t ht
  have htT : t < T := (linspace_mem hτ hn ht).2.trans_lt hτT
  rw [← f_of_a_circ C.K hf0 hm1 hm2 hT htT]
  apply f_or_merged_of_ne C.K (hin.pos t htT).ne'
  intro e
  apply h100
  refine List.mem_map.2 ⟨t, ht, ?_⟩
  rw [e]
  unfold f_or_merged
  simp only
  rw [ite_self, if_pos rfl]
  norm_num

/-- The SNR of an evolving circular source through the SNR per unit of frequency. -/
theorem circ_steps (C : Ctx) {s : EvolSrc} (hs : EvolPhys s) (hobs : 0 < C.t_obs) {T : ℝ}
    (hT : get_t_merge_circ C.K none (some fun _ : Fin 1 => s.m_1) (some fun _ => s.m_2) none (some fun _ => s.f_orb_i)
      = .ok fun _ => T) (h1 : 1 ≤ T) {ρ : ℝ → ℝ}
    (hρ : ∀ t ∈ Icc 0 (min (T - 1) C.t_obs),
      snr_circ_stationary C [⟨chirp_mass s.m_1 s.m_2, chirp s.f_orb_i T t, s.dist, {}⟩] = .ok [some (ρ t)]) {n : ℕ}
    (hn : 2 ≤ n) (h100 : ∀ fs, evol_circ C.K AU (some (.array fun _ : Fin 1 => min (T - 1) C.t_obs)) n none none
      (some fun _ => s.m_1) (some fun _ => s.m_2) none (some fun _ => s.f_orb_i) ["f_orb"]
      = .ok (.one fs) → (100 : ℝ) ∉ fs 0) :
    T = get_a_from_f_orb C.K s.f_orb_i s.m_1 s.m_2 ^ 4 / (4 * utils.beta C.K s.m_1 s.m_2) ∧
    snr_circ_evolving C [s] n none = .ok [some (√(trapezoid ((np.linspace (min (T - 1) C.t_obs) n).map fun t =>
      ρ t ^ 2 / C.t_obs / fn_dot_val C.K (chirp_mass s.m_1 s.m_2) (chirp s.f_orb_i T t) 0 2)
      ((np.linspace (min (T - 1) C.t_obs) n).map fun t => 2 * chirp s.f_orb_i T t)))] := by
  obtain ⟨hm1, hm2, hf0, hd⟩ := id hs
  have hmc := C03_pos hm1 hm2
  have hTi : T = get_a_from_f_orb C.K s.f_orb_i s.m_1 s.m_2 ^ 4 / (4 * utils.beta C.K s.m_1 s.m_2) := by
    rw [get_t_merge_circ_masses] at hT
    simp only [Except.ok.injEq] at hT
    exact (congrFun hT 0).symm
  refine ⟨hTi, ?_⟩
  have hT0 : 0 < T := by linarith
  have hcol : ∀ x : EvolSrc → ℝ, column [s] x = fun _ => x s := fun x => by
    funext i
    match i with
    | ⟨0, _⟩ => rfl
  have hTT : merge_times_circ C [s] none = .ok fun _ => T := by
    unfold merge_times_circ
    rw [hcol, hcol, hcol]
    exact hT
  have h100n : (100 : ℝ) ∉ circRow C.K s (min (T - 1) C.t_obs) n := by
    have e := evol_circ_snr C.K [s] (fun _ => min (T - 1) C.t_obs) n
    rw [hcol, hcol, hcol] at e
    exact h100 _ e
  have hfreq := circFreqs_chirp C hs hobs.le hTi h1 hn h100n
  set τ := min (T - 1) C.t_obs with hτdef
  have hτ : 0 ≤ τ := le_min (by linarith) hobs.le
  have hτT : τ < T := lt_of_le_of_lt (min_le_left _ _) (by linarith)
  have hD : ∀ {g : ℝ}, 0 < g → 0 < fn_dot_val C.K (chirp_mass s.m_1 s.m_2) g 0 2 := fun hg => by
    have := C.K.G_pos
    have := C.K.c_pos
    unfold fn_dot_val
    rw [C04_zero]
    push_cast
    positivity
  have hstep : ∀ t ∈ np.linspace τ n, (noise C (2 * chirp s.f_orb_i T t) >>= fun ν =>
      (pure (divNoise (h_c_val C.K C.interpolated_g (chirp_mass s.m_1 s.m_2) s.dist (chirp s.f_orb_i T t) 0 2 ^ 2)
        (ν.map fun n => (2 * chirp s.f_orb_i T t) ^ 2 * n)) : Except PyErr ℝ))
      = .ok (ρ t ^ 2 / C.t_obs / fn_dot_val C.K (chirp_mass s.m_1 s.m_2) (chirp s.f_orb_i T t) 0 2) := by
    intro t ht
    have htm := linspace_mem hτ hn ht
    have hfp : 0 < chirp s.f_orb_i T t := chirp_pos hf0 hT0 (htm.2.trans_lt hτT)
    have h := hρ t htm
    rw [snr_circ_stationary_iff, mapM_singleton_ok] at h
    unfold circ1 at h
    have hmod : modulation ({} : Orientation) = .ok 1 := rfl
    rw [hmod, ok_bind] at h
    simp only at h
    obtain ⟨ν, hν, hv⟩ := (except_bind_ok).1 h
    rw [hν, ok_bind, pure_ok]
    rw [pure_ok, one_mul] at hv
    have hDt := hD hfp
    have hsq := h_c_val_sq_mul_fn_dot C.K C.interpolated_g (d := s.dist) hmc hfp le_rfl one_pos (n := 2) (by norm_num)
    push_cast at hsq
    set X := divNoise (h_0_val C.K C.interpolated_g (chirp_mass s.m_1 s.m_2) s.dist (chirp s.f_orb_i T t) 0 2 ^ 2 * C.t_obs) ν
      with hX
    have hXn : 0 ≤ X := by
      by_contra hneg
      rw [sqrt?_neg (not_le.1 hneg)] at hv
      cases hv
    rw [sqrt?_nonneg hXn] at hv
    have hρv : ρ t ^ 2 = X := by rw [← Option.some.inj hv, sq_sqrt hXn]
    rw [hρv, hX, divNoise_map, divNoise_eq]
    have hh : h_c_val C.K C.interpolated_g (chirp_mass s.m_1 s.m_2) s.dist (chirp s.f_orb_i T t) 0 2 ^ 2
        = (2 * chirp s.f_orb_i T t) ^ 2 * h_0_val C.K C.interpolated_g (chirp_mass s.m_1 s.m_2) s.dist
          (chirp s.f_orb_i T t) 0 2 ^ 2 / fn_dot_val C.K (chirp_mass s.m_1 s.m_2) (chirp s.f_orb_i T t) 0 2 := by
      rw [eq_div_iff hDt.ne']
      exact hsq
    rw [hh]
    have := hobs.ne'
    have := hfp.ne'
    field_simp
  rw [circ_evol_one (by omega) hTT, circE1_eq, hfreq, mapM_map', mapM_ok (g := fun t => ρ t ^ 2 / C.t_obs /
    fn_dot_val C.K (chirp_mass s.m_1 s.m_2) (chirp s.f_orb_i T t) 0 2) (fun t ht => hstep t ht), ok_bind, pure_ok, List.map_map]
  refine sqrt?_nonneg (trapezoid_nonneg ?_ ?_)
  · intro y hy
    obtain ⟨t, ht, rfl⟩ := List.mem_map.1 hy
    have := hD (chirp_pos hf0 hT0 ((linspace_mem hτ hn ht).2.trans_lt hτT))
    positivity
  · rw [List.pairwise_map]
    have hle : (np.linspace τ n).Pairwise (· ≤ ·) := by
      unfold np.linspace
      rw [List.pairwise_map]
      refine List.pairwise_lt_range.imp fun {i j} hij => ?_
      have h1 : (0 : ℝ) < (n : ℝ) - 1 := by
        have : (2 : ℝ) ≤ n := by exact_mod_cast hn
        linarith
      have h2 : (i : ℝ) ≤ j := by exact_mod_cast hij.le
      exact mul_le_mul_of_nonneg_right h2 (by positivity)
    refine hle.imp_of_mem fun hx hy hxy => ?_
    have := chirp_mono hf0 hT0 hxy ((linspace_mem hτ hn hy).2.trans_lt hτT)
    simp only [Function.comp]
    linarith

theorem cell_integrable {τ : ℝ} (hτ : 0 < τ) {x' y : ℝ → ℝ} (hx' : ContinuousOn x' (Icc 0 τ)) (m : ℕ) :
    IntervalIntegrable (fun t => cell (τ / (m + 1)) y t * x' t) MeasureTheory.volume 0 τ := by
  have hm : (0 : ℝ) < m + 1 := by positivity
  set h := τ / (m + 1) with hdef
  have hh : 0 < h := by positivity
  have hpt : ∀ i : ℕ, i ≤ m + 1 → (i : ℝ) * h ∈ Icc 0 τ := by
    intro i hi
    refine ⟨by positivity, ?_⟩
    have : (i : ℝ) ≤ m + 1 := by exact_mod_cast hi
    calc _ ≤ (m + 1) * h := mul_le_mul_of_nonneg_right this hh.le
      _ = τ := by rw [hdef, mul_div_cancel₀ _ hm.ne']
  have hle : ∀ i : ℕ, (i : ℝ) * h ≤ ((i + 1 : ℕ) : ℝ) * h := fun i => by
    push_cast; nlinarith
  have hint : ∀ i < m + 1, IntervalIntegrable (fun t => cell h y t * x' t) MeasureTheory.volume ((i : ℝ) * h)
      (((i + 1 : ℕ) : ℝ) * h) := by
    intro i hi
    have hc : ContinuousOn x' (uIcc ((i : ℝ) * h) (((i + 1 : ℕ) : ℝ) * h)) := hx'.mono (by
      rw [uIcc_of_le (hle i)]
      exact Icc_subset_Icc (hpt i hi.le).1 (hpt (i + 1) hi).2)
    refine IntervalIntegrable.congr_uIoo ((hc.intervalIntegrable).const_mul
      ((y ((i + 1 : ℕ) * h) + y (i * h)) / 2)) ?_
    intro t ht
    rw [uIoo_of_le (hle i)] at ht
    simp only
    rw [cell_eq hh y ht]
  have := IntervalIntegrable.trans_iterate hint
  have e0 : ((0 : ℕ) : ℝ) * h = 0 := by simp
  have e1 : ((m + 1 : ℕ) : ℝ) * h = τ := by rw [hdef]; push_cast; field_simp
  rwa [e0, e1] at this

/-- The trapezium rule when the integrand changes by at most the factor `q` within each step. -/
theorem trapezoid_within {τ q : ℝ} (hτ : 0 < τ) {x x' y : ℝ → ℝ} (hx : ∀ t ∈ Icc 0 τ, HasDerivAt x (x' t) t)
    (hx' : ContinuousOn x' (Icc 0 τ)) (hx0 : ∀ t ∈ Icc 0 τ, 0 ≤ x' t) (hy : ContinuousOn y (Icc 0 τ)) (m : ℕ)
    (hq : ∀ s ∈ Icc 0 τ, ∀ t ∈ Icc 0 τ, s ≤ t → t ≤ s + τ / (m + 1) → WithinFactor q (y s) (y t)) :
    WithinFactor q (trapezoid ((np.linspace τ (m + 2)).map y) ((np.linspace τ (m + 2)).map x))
      (∫ t in (0 : ℝ)..τ, y t * x' t) := by
  rw [trapezoid_eq_integral hτ hx hx']
  have i1 := cell_integrable hτ (y := y) hx' m
  have i2 : IntervalIntegrable (fun t => y t * x' t) MeasureTheory.volume 0 τ := by
    apply ContinuousOn.intervalIntegrable
    rw [uIcc_of_le hτ.le]
    exact hy.mul hx'
  have key : ∀ t ∈ Ioo 0 τ, WithinFactor q (cell (τ / (m + 1)) y t) (y t) := by
    intro t ht
    obtain ⟨p1, p2, p3, p4⟩ := cell_points m ht.1.le ht.2
    have hh : 0 < τ / ((m : ℝ) + 1) := by positivity
    have l1 : (⌊t / (τ / (m + 1))⌋₊ : ℝ) * (τ / (m + 1)) ≤ t := by
      rw [← le_div_iff₀ hh]
      exact Nat.floor_le (by have := ht.1; positivity)
    have l2 : t ≤ ((⌊t / (τ / (m + 1))⌋₊ + 1 : ℕ) : ℝ) * (τ / (m + 1)) := by
      rw [← div_le_iff₀ hh]
      push_cast
      exact (Nat.lt_floor_add_one _).le
    have a := hq _ p1 t ⟨ht.1.le, ht.2.le⟩ l1 (by have := (abs_le.1 p3).1; linarith)
    have b := hq t ⟨ht.1.le, ht.2.le⟩ _ p2 l2 (by have := (abs_le.1 p4).2; linarith)
    unfold cell
    obtain ⟨a1, a2⟩ := a
    obtain ⟨b1, b2⟩ := b
    constructor <;> linarith
  constructor
  · rw [← intervalIntegral.integral_const_mul]
    refine intervalIntegral.integral_mono_on_of_le_Ioo hτ.le i1 (i2.const_mul q) fun t ht => ?_
    have := mul_le_mul_of_nonneg_right (key t ht).1 (hx0 t (Ioo_subset_Icc_self ht))
    linarith
  · rw [← intervalIntegral.integral_const_mul]
    refine intervalIntegral.integral_mono_on_of_le_Ioo hτ.le i2 (i1.const_mul q) fun t ht => ?_
    have := mul_le_mul_of_nonneg_right (key t ht).2 (hx0 t (Ioo_subset_Icc_self ht))
    linarith

/-- A curve of bounded slope is continuous. -/
theorem slope_continuousOn {k : ℝ} (hk : 0 ≤ k) {S : ℝ → ℝ} {lo hi : ℝ} (hlo : 0 < lo) (h : SlopeAtMost k S lo hi) :
    ContinuousOn S (Icc lo hi) := by
  intro f hf
  have hf0 : 0 < f := hlo.trans_le hf.1
  have hS := h.1 f hf.1 hf.2
  have hb : ∀ g ∈ Icc lo hi, S g ≤ (max (g / f) (f / g)) ^ k * S f ∧ S f / (max (g / f) (f / g)) ^ k ≤ S g := by
    intro g hg
    have hg0 : 0 < g := hlo.trans_le hg.1
    have hm : 0 < max (g / f) (f / g) := lt_max_of_lt_left (by positivity)
    rw [div_le_iff₀ (by positivity)]
    rcases le_total f g with hfg | hfg
    · obtain ⟨h1, h2⟩ := h.2 f g hf.1 hfg hg.2
      have : (g / f) ^ k ≤ (max (g / f) (f / g)) ^ k := rpow_le_rpow (by positivity) (le_max_left _ _) hk
      have hg' := h.1 g hg.1 hg.2
      constructor <;> nlinarith
    · obtain ⟨h1, h2⟩ := h.2 g f hg.1 hfg hf.2
      have : (f / g) ^ k ≤ (max (g / f) (f / g)) ^ k := rpow_le_rpow (by positivity) (le_max_right _ _) hk
      have hg' := h.1 g hg.1 hg.2
      constructor <;> nlinarith
  have hlim : Filter.Tendsto (fun g => (max (g / f) (f / g)) ^ k) (nhdsWithin f (Icc lo hi)) (nhds 1) := by
    have c : ContinuousAt (fun g => (max (g / f) (f / g)) ^ k) f := by
      have c1 : ContinuousAt (fun g : ℝ => f / g) f := continuousAt_const.div continuousAt_id hf0.ne'
      have c2 : ContinuousAt (fun g : ℝ => g / f) f := by fun_prop
      exact ContinuousAt.rpow_const (c2.sup c1) (Or.inr hk)
    have := c.tendsto.mono_left (nhdsWithin_le_nhds (s := Icc lo hi))
    simpa [div_self hf0.ne'] using this
  refine tendsto_of_tendsto_of_tendsto_of_le_of_le' (b := nhdsWithin f (Icc lo hi))
    (g := fun g => S f / (max (g / f) (f / g)) ^ k) (h := fun g => (max (g / f) (f / g)) ^ k * S f) ?_ ?_ ?_ ?_
  · have := Filter.Tendsto.div (tendsto_const_nhds (x := S f)) hlim one_ne_zero
    rw [div_one] at this
    exact this
  · simpa using hlim.mul_const (S f)
  · filter_upwards [self_mem_nhdsWithin] with g hg using (hb g hg).2
  · filter_upwards [self_mem_nhdsWithin] with g hg using (hb g hg).1

theorem cell_convex {w : ℝ → ℝ} {a b M : ℝ} (hab : a ≤ b) (hw : ContinuousOn w (Icc a b))
    (hc : ConvexOn ℝ (Icc a b) fun F => w F + M / 2 * F ^ 2) :
    ∫ F in a..b, w F ≤ (b - a) * (w b + w a) / 2 + M / 12 * (b - a) ^ 3 := by
  rcases hab.eq_or_lt with rfl | hlt
  · simp
  have hd : 0 < b - a := by linarith
  have hpt : ∀ F ∈ Icc a b, w F ≤ (w a * (b - F) + w b * (F - a)) / (b - a) + M / 2 * ((F - a) * (b - F)) := by
    intro F hF
    have n1 : 0 ≤ (b - F) / (b - a) := div_nonneg (by linarith [hF.2]) hd.le
    have n2 : 0 ≤ (F - a) / (b - a) := div_nonneg (by linarith [hF.1]) hd.le
    have h := hc.2 (left_mem_Icc.2 hab) (right_mem_Icc.2 hab) n1 n2 (by field_simp; ring)
    simp only [smul_eq_mul] at h
    have e : (b - F) / (b - a) * a + (F - a) / (b - a) * b = F := by field_simp; ring
    rw [e] at h
    have e2 : (b - F) / (b - a) * (w a + M / 2 * a ^ 2) + (F - a) / (b - a) * (w b + M / 2 * b ^ 2) - M / 2 * F ^ 2
        = (w a * (b - F) + w b * (F - a)) / (b - a) + M / 2 * ((F - a) * (b - F)) := by
      field_simp
      ring
    linarith
  have hcont : Continuous fun F : ℝ => (w a * (b - F) + w b * (F - a)) / (b - a) + M / 2 * ((F - a) * (b - F)) := by
    fun_prop
  refine (intervalIntegral.integral_mono_on hab (by
    apply ContinuousOn.intervalIntegrable
    rwa [uIcc_of_le hab]) (hcont.intervalIntegrable _ _) hpt).trans (le_of_eq ?_)
  have hder : ∀ F ∈ uIcc a b, HasDerivAt (fun F : ℝ => (w a * (b * F - F ^ 2 / 2) + w b * (F ^ 2 / 2 - a * F)) / (b - a)
      + M / 2 * ((a + b) * F ^ 2 / 2 - F ^ 3 / 3 - a * b * F))
      ((w a * (b - F) + w b * (F - a)) / (b - a) + M / 2 * ((F - a) * (b - F))) F := by
    intro F _
    have h1 : HasDerivAt (fun F : ℝ => F) 1 F := hasDerivAt_id F
    have h2 : HasDerivAt (fun F : ℝ => F ^ 2 / 2) F F := ((h1.pow 2).div_const 2).congr_deriv (by simp)
    have h3 : HasDerivAt (fun F : ℝ => F ^ 3 / 3) (F ^ 2) F := ((h1.pow 3).div_const 3).congr_deriv (by simp)
    have h4 : HasDerivAt (fun F : ℝ => (a + b) * F ^ 2 / 2) ((a + b) * F) F := by
      have := h2.const_mul (a + b)
      simpa [mul_div_assoc] using this
    refine (((((h1.const_mul b).sub h2).const_mul (w a)).add ((h2.sub (h1.const_mul a)).const_mul (w b))).div_const
      (b - a) |>.add (((h4.sub h3).sub (h1.const_mul (a * b))).const_mul (M / 2))).congr_deriv ?_
    ring
  rw [intervalIntegral.integral_eq_sub_of_hasDerivAt hder (hcont.intervalIntegrable _ _)]
  field_simp
  ring

/-- The trapezium rule on one interval. -/
theorem cell_curvature {w : ℝ → ℝ} {a b M : ℝ} (hab : a ≤ b) (hw : ContinuousOn w (Icc a b)) (hc : CurvatureAtMost M w a b) :
    |(b - a) * (w b + w a) / 2 - ∫ F in a..b, w F| ≤ M / 12 * (b - a) ^ 3 := by
  have h1 := cell_convex hab hw hc.1
  have h2 := cell_convex (w := fun F => - w F) (M := M) hab hw.neg (by
    have := hc.2.neg
    refine this.congr fun F _ => ?_
    simp only [Pi.neg_apply]
    ring)
  rw [intervalIntegral.integral_neg] at h2
  rw [abs_le]
  constructor <;> linarith

/-- The trapezium rule in terms of the curvature of the integrand and the largest step. -/
theorem trapezoid_curvature {τ M δ : ℝ} (hτ : 0 < τ) {x x' w : ℝ → ℝ} (hx : ∀ t ∈ Icc 0 τ, HasDerivAt x (x' t) t)
    (hx' : ContinuousOn x' (Icc 0 τ)) (hx0 : ∀ t ∈ Icc 0 τ, 0 ≤ x' t) (hw : ContinuousOn w (Icc (x 0) (x τ)))
    (hM : 0 ≤ M) (hc : CurvatureAtMost M w (x 0) (x τ)) (m : ℕ)
    (hδ : ∀ i < m + 1, x ((i + 1 : ℕ) * (τ / (m + 1))) - x (i * (τ / (m + 1))) ≤ δ) :
    |trapezoid ((np.linspace τ (m + 2)).map fun t => w (x t)) ((np.linspace τ (m + 2)).map x)
      - ∫ t in (0 : ℝ)..τ, w (x t) * x' t| ≤ M / 12 * (x τ - x 0) * δ ^ 2 := by
  have hm : (0 : ℝ) < m + 1 := by positivity
  set h := τ / (m + 1) with hdef
  have hh : 0 < h := by positivity
  have hpt : ∀ i : ℕ, i ≤ m + 1 → (i : ℝ) * h ∈ Icc 0 τ := by
    intro i hi
    refine ⟨by positivity, ?_⟩
    have : (i : ℝ) ≤ m + 1 := by exact_mod_cast hi
    calc _ ≤ (m + 1) * h := mul_le_mul_of_nonneg_right this hh.le
      _ = τ := by rw [hdef, mul_div_cancel₀ _ hm.ne']
  have hle : ∀ i : ℕ, (i : ℝ) * h ≤ ((i + 1 : ℕ) : ℝ) * h := fun i => by
    push_cast; nlinarith
  have hcont : ContinuousOn x (Icc 0 τ) := fun t ht => (hx t ht).continuousAt.continuousWithinAt
  have hmono : MonotoneOn x (Icc 0 τ) := by
    refine monotoneOn_of_deriv_nonneg (convex_Icc 0 τ) hcont (fun t ht => ?_) (fun t ht => ?_)
    · exact (hx t (interior_subset ht)).differentiableAt.differentiableWithinAt
    · rw [(hx t (interior_subset ht)).deriv]
      exact hx0 t (interior_subset ht)
  have hrange : ∀ t ∈ Icc 0 τ, x t ∈ Icc (x 0) (x τ) := fun t ht =>
    ⟨hmono ⟨le_rfl, hτ.le⟩ ht ht.1, hmono ht ⟨hτ.le, le_rfl⟩ ht.2⟩
  set X : ℕ → ℝ := fun i => x ((i : ℝ) * h) with hX
  have hX0 : X 0 = x 0 := by simp [hX]
  have hXm : X (m + 1) = x τ := by
    simp only [hX]
    congr 1
    rw [hdef]; push_cast; field_simp
  have hXle : ∀ i < m + 1, X i ≤ X (i + 1) := fun i hi => hmono (hpt i hi.le) (hpt (i + 1) hi) (hle i)
  have hsub : ∀ i < m + 1, Icc (X i) (X (i + 1)) ⊆ Icc (x 0) (x τ) := fun i hi =>
    Icc_subset_Icc (hrange _ (hpt i hi.le)).1 (hrange _ (hpt (i + 1) hi)).2
  have hint : ∀ i < m + 1, IntervalIntegrable w MeasureTheory.volume (X i) (X (i + 1)) := by
    intro i hi
    apply ContinuousOn.intervalIntegrable
    rw [uIcc_of_le (hXle i hi)]
    exact hw.mono (hsub i hi)
  have hsubst : ∫ t in (0 : ℝ)..τ, w (x t) * x' t = ∫ F in (x 0)..(x τ), w F := by
    refine intervalIntegral.integral_comp_mul_deriv'' (f := x) (f' := x') (g := w) ?_ ?_ ?_ ?_
    · rwa [uIcc_of_le hτ.le]
    · intro t ht
      rw [min_eq_left hτ.le, max_eq_right hτ.le] at ht
      exact (hx t (Ioo_subset_Icc_self ht)).hasDerivWithinAt
    · rwa [uIcc_of_le hτ.le]
    · rw [uIcc_of_le hτ.le]
      refine hw.mono ?_
      rintro _ ⟨t, ht, rfl⟩
      exact hrange t ht
  have hlin : np.linspace τ (m + 2) = (List.range (m + 1 + 1)).map fun i : ℕ => (i : ℝ) * h := by
    unfold np.linspace
    congr 1
    funext i
    rw [hdef]
    push_cast
    ring_nf
  rw [hsubst, hlin, List.map_map, List.map_map, trapezoid_range]
  rw [← hX0, ← hXm, ← intervalIntegral.sum_integral_adjacent_intervals hint, ← Finset.sum_sub_distrib]
  refine (Finset.abs_sum_le_sum_abs _ _).trans ?_
  have hterm : ∀ i ∈ Finset.range (m + 1), |((x ∘ fun i : ℕ => (i : ℝ) * h) (i + 1) - (x ∘ fun i : ℕ => (i : ℝ) * h) i)
      * (((fun t => w (x t)) ∘ fun i : ℕ => (i : ℝ) * h) (i + 1) + ((fun t => w (x t)) ∘ fun i : ℕ => (i : ℝ) * h) i) / 2
      - ∫ F in (X i)..(X (i + 1)), w F| ≤ M / 12 * δ ^ 2 * (X (i + 1) - X i) := by
    intro i hi
    rw [Finset.mem_range] at hi
    refine (cell_curvature (hXle i hi) (hw.mono (hsub i hi)) ⟨hc.1.subset (hsub i hi) (convex_Icc _ _),
      hc.2.subset (hsub i hi) (convex_Icc _ _)⟩).trans ?_
    have h0 := sub_nonneg.2 (hXle i hi)
    have h1 : X (i + 1) - X i ≤ δ := hδ i hi
    have h2 : (X (i + 1) - X i) ^ 2 ≤ δ ^ 2 := pow_le_pow_left₀ h0 h1 2
    calc M / 12 * (X (i + 1) - X i) ^ 3 = M / 12 * (X (i + 1) - X i) ^ 2 * (X (i + 1) - X i) := by ring
      _ ≤ _ := by gcongr
  refine (Finset.sum_le_sum hterm).trans (le_of_eq ?_)
  rw [← Finset.mul_sum, Finset.sum_range_sub]
  ring

end Legwork.snr
