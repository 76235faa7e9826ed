import Verif.Lemmas.Steps
import Verif.Props.StationarySnr
import Mathlib.Analysis.Convex.Deriv

/-!
# C94: the number of timesteps and the error of evolving signal-to-noise ratios
-/

namespace Legwork.Props

open Real Set Legwork.utils Legwork.strain Legwork.snr Legwork.evol Legwork.Spec

private lemma fn_dot_two_pos (K : Consts) {m g : ℝ} (hm : 0 < m) (hg : 0 < g) : 0 < fn_dot_val K m g 0 2 := by
  have := K.G_pos
  have := K.c_pos
  unfold fn_dot_val
  rw [C04_zero]
  push_cast
  positivity

theorem chirp_continuousOn {f T τ : ℝ} (hτ : τ < T) (hT : 0 < T) : ContinuousOn (chirp f T) (Icc 0 τ) := by
  unfold chirp
  refine continuousOn_const.mul (ContinuousOn.rpow_const (continuousOn_const.div (by fun_prop) fun t ht => ?_)
    fun _ _ => Or.inr (by norm_num))
  have := ht.2
  linarith

private lemma fn_dot_chirp (K : Consts) {m f T τ : ℝ} (hf : 0 < f) (hτ : τ < T) (hT : 0 < T) :
    ContinuousOn (fun t => fn_dot_val K m (chirp f T t) 0 2) (Icc 0 τ) := by
  have e : ∀ t ∈ Icc 0 τ, fn_dot_val K m (chirp f T t) 0 2 = (chirp f T t / f) ^ (11 / 3 : ℝ) * fn_dot_val K m f 0 2 := by
    intro t ht
    have h := chirp_pos hf hT (ht.2.trans_lt hτ)
    rw [← fn_dot_scale K m 0 2 (by positivity) hf, div_mul_cancel₀ _ hf.ne']
  refine ContinuousOn.congr ?_ e
  refine ContinuousOn.mul (ContinuousOn.rpow_const ((chirp_continuousOn hτ hT).div_const f) fun _ _ => Or.inr (by norm_num))
    continuousOn_const

theorem snr_of_noise (C : Ctx) {m d g S : ℝ} (ht : 0 ≤ C.t_obs) (hS : 0 < S) (hN : noise C (2 * g) = .ok (S : ℝ)) :
    snr_circ_stationary C [⟨m, g, d, {}⟩] = .ok [some (√(h_0_val C.K C.interpolated_g m d g 0 2 ^ 2 * C.t_obs / S))] := by
  rw [snr_circ_stationary_iff, mapM_singleton_ok]
  unfold circ1
  have hmod : modulation ({} : Orientation) = .ok 1 := rfl
  rw [hmod, ok_bind]
  simp only
  rw [hN, ok_bind, pure_ok, one_mul]
  exact sqrt?_nonneg (div_nonneg (mul_nonneg (sq_nonneg _) ht) hS.le)

/-- The frequencies of `C94` follow Peters' equation. -/
theorem C94_chirp (K : Consts) {m₁ m₂ f T : ℝ} (h₁ : 0 < m₁) (h₂ : 0 < m₂) (hf : 0 < f)
    (hT : get_t_merge_circ K none (some fun _ : Fin 1 => m₁) (some fun _ => m₂) none (some fun _ => f) = .ok fun _ => T) :
    chirp f T 0 = f ∧ ∀ t < T, ∃ r, fn_dot K (chirp_mass m₁ m₂) (chirp f T t) 0 [1] = .ok [r] ∧
      HasDerivAt (chirp f T) r t := by
  have ha := get_a_from_f_orb_pos K hf h₁ h₂
  have hb := beta_pos K h₁ h₂
  have hTi : T = get_a_from_f_orb K f m₁ m₂ ^ 4 / (4 * utils.beta K m₁ m₂) := by
    rw [get_t_merge_circ_masses] at hT
    simp only [Except.ok.injEq] at hT
    exact (congrFun hT 0).symm
  have hT0 : 0 < T := by rw [hTi]; positivity
  refine ⟨chirp_zero hT0, fun t ht => ⟨_, by simp only [fn_dot]; rfl, ?_⟩⟩
  simpa using chirp_hasDerivAt K hf h₁ h₂ hTi ht 1

/-- **C94.** Take a circular source that merges after `T` and is observed for `τ`, which ends at least one second before,
and a noise curve of slope at most `k` over its frequencies. Let `ρ t` be the SNR that `snr_circ_stationary` reports for the
source frozen at its frequency at time `t`. The SNR that `snr_circ_evolving` reports with `n` steps is within the factor
`(1 + τ/((n - 1)(T - τ)))^(3/16 (k + 7/3))` of `√(1/t_obs ∫ ρ(t)² dt)`. -/
theorem C94_steps (C : Ctx) {s : EvolSrc} (hs : EvolPhys s) (hobs : 0 < C.t_obs) {T : ℝ}
    (hT : get_t_merge_circ C.K none (some fun _ : Fin 1 => s.m_1) (some fun _ => s.m_2) none (some fun _ => s.f_orb_i)
      = .ok fun _ => T) (h1 : 1 < T) {τ : ℝ} (hτ : τ = min (T - 1) C.t_obs) {k : ℝ} (hk : 0 ≤ k) {S : ℝ → ℝ} {hi : ℝ}
    (hhi : 2 * chirp s.f_orb_i T τ ≤ hi) (hS : SlopeAtMost k S (2 * s.f_orb_i) hi)
    (hN : ∀ f, 2 * s.f_orb_i ≤ f → f ≤ hi → noise C f = .ok (S f : ℝ)) {n : ℕ} (hn : 2 ≤ n)
    (h100 : ∀ fs, evol_circ C.K AU (some (.array fun _ : Fin 1 => τ)) n none none
      (some fun _ => s.m_1) (some fun _ => s.m_2) none (some fun _ => s.f_orb_i) ["f_orb"]
      = .ok (.one fs) → (100 : ℝ) ∉ fs 0) :
    ∃ (ρ : ℝ → ℝ) (v : ℝ), (∀ t ∈ Icc 0 τ,
        snr_circ_stationary C [⟨chirp_mass s.m_1 s.m_2, chirp s.f_orb_i T t, s.dist, {}⟩] = .ok [some (ρ t)]) ∧
      snr_circ_evolving C [s] n none = .ok [some v] ∧ 0 ≤ v ∧
      WithinFactor ((1 + τ / ((n - 1) * (T - τ))) ^ (3 / 16 * (k + 7 / 3))) v
        (√(1 / C.t_obs * ∫ t in (0 : ℝ)..τ, ρ t ^ 2)) := by
  obtain ⟨hm1, hm2, hf0, hd⟩ := id hs
  have hmc := C03_pos hm1 hm2
  have hT0 : 0 < T := by linarith
  have hτ0 : 0 < τ := by rw [hτ]; exact lt_min (by linarith) hobs
  have hτT : τ < T := by rw [hτ]; exact lt_of_le_of_lt (min_le_left _ _) (by linarith)
  set f₀ := s.f_orb_i with hf₀
  set mc := chirp_mass s.m_1 s.m_2 with hmcd
  have hfp : ∀ t ∈ Icc 0 τ, 0 < chirp f₀ T t := fun t ht => chirp_pos hf0 hT0 (ht.2.trans_lt hτT)
  have hrange : ∀ t ∈ Icc 0 τ, 2 * f₀ ≤ 2 * chirp f₀ T t ∧ 2 * chirp f₀ T t ≤ hi := by
    intro t ht
    have a1 := chirp_mono hf0 hT0 ht.1 (ht.2.trans_lt hτT)
    have a2 := chirp_mono hf0 hT0 ht.2 hτT
    rw [chirp_zero hT0] at a1
    exact ⟨by linarith, by linarith⟩
  have hSp : ∀ t ∈ Icc 0 τ, 0 < S (2 * chirp f₀ T t) := fun t ht => hS.1 _ (hrange t ht).1 (hrange t ht).2
  set ρ : ℝ → ℝ := fun t => √(h_0_val C.K C.interpolated_g mc s.dist (chirp f₀ T t) 0 2 ^ 2 * C.t_obs / S (2 * chirp f₀ T t))
    with hρdef
  have hρ : ∀ t ∈ Icc 0 τ, snr_circ_stationary C [⟨mc, chirp f₀ T t, s.dist, {}⟩] = .ok [some (ρ t)] := fun t ht =>
    snr_of_noise C hobs.le (hSp t ht) (hN _ (hrange t ht).1 (hrange t ht).2)
  have hρ2 : ∀ t ∈ Icc 0 τ, ρ t ^ 2 = h_0_val C.K C.interpolated_g mc s.dist (chirp f₀ T t) 0 2 ^ 2 * C.t_obs
      / S (2 * chirp f₀ T t) := fun t ht => sq_sqrt (div_nonneg (mul_nonneg (sq_nonneg _) hobs.le) (hSp t ht).le)
  obtain ⟨hTi, hv⟩ := circ_steps C hs hobs hT h1.le (ρ := ρ) (by rw [← hτ]; exact hρ) hn (by rw [← hτ]; exact h100)
  rw [← hτ] at hv
  set D : ℝ → ℝ := fun t => fn_dot_val C.K mc (chirp f₀ T t) 0 2 with hDdef
  have hDp : ∀ t ∈ Icc 0 τ, 0 < D t := fun t ht => fn_dot_two_pos C.K hmc (hfp t ht)
  set y : ℝ → ℝ := fun t => ρ t ^ 2 / C.t_obs / D t with hy
  -- the integrand scales with the frequency
  have hscale : ∀ a ∈ Icc 0 τ, ∀ t ∈ Icc 0 τ, y t = (chirp f₀ T t / chirp f₀ T a) ^ (-7 / 3 : ℝ) *
      (h_0_val C.K C.interpolated_g mc s.dist (chirp f₀ T a) 0 2 ^ 2 / D a) / S (2 * chirp f₀ T t) := by
    intro a ha t ht
    have hfa := hfp a ha
    have hft := hfp t ht
    set r := chirp f₀ T t / chirp f₀ T a with hr
    have hr0 : 0 < r := by positivity
    have hrf : chirp f₀ T t = r * chirp f₀ T a := by rw [hr, div_mul_cancel₀ _ hfa.ne']
    have e1 : h_0_val C.K C.interpolated_g mc s.dist (chirp f₀ T t) 0 2
        = r ^ (2 / 3 : ℝ) * h_0_val C.K C.interpolated_g mc s.dist (chirp f₀ T a) 0 2 := by
      conv_lhs => rw [hrf]
      exact h_0_scale _ _ _ _ _ _ hr0 hfa
    have e2 : D t = r ^ (11 / 3 : ℝ) * D a := by
      simp only [hDdef]
      conv_lhs => rw [hrf]
      exact fn_dot_scale _ _ _ _ hr0 hfa
    have e3 : (r ^ (2 / 3 : ℝ)) ^ 2 = r ^ (-7 / 3 : ℝ) * r ^ (11 / 3 : ℝ) := by
      rw [← rpow_add hr0, ← rpow_natCast, ← rpow_mul hr0.le]
      norm_num
    have hDa := hDp a ha
    have hSt := hSp t ht
    have h11 : 0 < r ^ (11 / 3 : ℝ) := by positivity
    simp only [hy]
    rw [hρ2 t ht, e1, e2, mul_pow, e3]
    field_simp
  have h0mem : (0 : ℝ) ∈ Icc 0 τ := ⟨le_rfl, hτ0.le⟩
  have hcc := chirp_continuousOn (f := f₀) hτT hT0
  have hyc : ContinuousOn y (Icc 0 τ) := by
    refine ContinuousOn.congr ?_ (hscale 0 h0mem)
    refine ContinuousOn.div (ContinuousOn.mul (ContinuousOn.rpow_const (hcc.div_const _) fun t ht => Or.inl ?_)
      continuousOn_const) ?_ fun t ht => (hSp t ht).ne'
    · have := hfp t ht
      have := hfp 0 h0mem
      positivity
    · exact (slope_continuousOn hk (by linarith) hS).comp (continuousOn_const.mul hcc) fun t ht => hrange t ht
  have hder : ∀ t ∈ Icc 0 τ, HasDerivAt (fun t => 2 * chirp f₀ T t) (D t) t := fun t ht => by
    simpa using chirp_hasDerivAt C.K hf0 hm1 hm2 hTi (ht.2.trans_lt hτT) 2
  obtain ⟨m, rfl⟩ : ∃ m, n = m + 2 := ⟨n - 2, by omega⟩
  have hm0 : (0 : ℝ) < m + 1 := by positivity
  set q := (1 + τ / (m + 1) / (T - τ)) ^ (3 / 8 : ℝ) with hq
  have hTτ : 0 < T - τ := by linarith
  have hbase : 1 ≤ 1 + τ / (m + 1) / (T - τ) := by
    have : 0 ≤ τ / (m + 1) / (T - τ) := by positivity
    linarith
  have hq1 : 1 ≤ q := one_le_rpow hbase (by norm_num)
  have hq0 : 0 < q := by linarith
  have hstep : ∀ a ∈ Icc 0 τ, ∀ t ∈ Icc 0 τ, a ≤ t → t ≤ a + τ / (m + 1) → WithinFactor (q ^ (k + 7 / 3)) (y a) (y t) := by
    intro a ha t ht hat hta
    have hfa := hfp a ha
    have hft := hfp t ht
    set r := chirp f₀ T t / chirp f₀ T a with hr
    have hr1 : 1 ≤ r := by
      rw [hr, one_le_div hfa]
      exact chirp_mono hf0 hT0 hat (ht.2.trans_lt hτT)
    have hr0 : 0 < r := by linarith
    have hrq : r ≤ q := by
      rw [hr, div_le_iff₀ hfa]
      have := chirp_ratio (f₀ := f₀) (T := T) (τ := τ) (h := t - a) (t := a) hf0 (by linarith) (by linarith [ht.2]) hτT hT0
      rw [show a + (t - a) = t by ring] at this
      refine this.trans (mul_le_mul_of_nonneg_right (rpow_le_rpow ?_ ?_ (by norm_num)) hfa.le)
      · have : 0 ≤ (t - a) / (T - τ) := div_nonneg (by linarith) hTτ.le
        linarith
      · gcongr
        linarith
    obtain ⟨d1, d2⟩ := hS.2 (2 * chirp f₀ T a) (2 * chirp f₀ T t) (hrange a ha).1
      (by linarith [chirp_mono hf0 hT0 hat (ht.2.trans_lt hτT)]) (hrange t ht).2
    rw [mul_div_mul_left _ _ two_ne_zero, ← hr] at d1 d2
    have hSa := hSp a ha
    have hSt := hSp t ht
    have hWa : 0 ≤ h_0_val C.K C.interpolated_g mc s.dist (chirp f₀ T a) 0 2 ^ 2 / D a :=
      div_nonneg (sq_nonneg _) (hDp a ha).le
    have ya : y a = h_0_val C.K C.interpolated_g mc s.dist (chirp f₀ T a) 0 2 ^ 2 / D a / S (2 * chirp f₀ T a) := by
      rw [hscale a ha a ha, div_self hfa.ne', one_rpow, one_mul]
    have yt := hscale a ha t ht
    rw [← hr] at yt
    set W := h_0_val C.K C.interpolated_g mc s.dist (chirp f₀ T a) 0 2 ^ 2 / D a with hW
    have hk1 : r ^ (k + 7 / 3) ≤ q ^ (k + 7 / 3) := rpow_le_rpow hr0.le hrq (by linarith)
    have hk2 : r ^ k ≤ q ^ (k + 7 / 3) := (rpow_le_rpow_of_exponent_le hr1 (by linarith)).trans hk1
    have hneg : r ^ (-7 / 3 : ℝ) ≤ 1 := rpow_le_one_of_one_le_of_nonpos hr1 (by norm_num)
    have hn0 : 0 < r ^ (-7 / 3 : ℝ) := by positivity
    have hmul : r ^ (k + 7 / 3) * r ^ (-7 / 3 : ℝ) = r ^ k := by
      rw [← rpow_add hr0]
      congr 1
      ring
    constructor
    · -- y a ≤ q^… * y t
      rw [ya, yt]
      have : W / S (2 * chirp f₀ T a) ≤ r ^ k * W / S (2 * chirp f₀ T t) := by
        rw [div_le_div_iff₀ hSa hSt]
        nlinarith [mul_le_mul_of_nonneg_left d1 hWa]
      calc W / S (2 * chirp f₀ T a) ≤ r ^ k * W / S (2 * chirp f₀ T t) := this
        _ = r ^ (k + 7 / 3) * (r ^ (-7 / 3 : ℝ) * W / S (2 * chirp f₀ T t)) := by rw [← hmul]; ring
        _ ≤ _ := by gcongr
    · rw [ya, yt]
      have : W / S (2 * chirp f₀ T t) ≤ r ^ k * (W / S (2 * chirp f₀ T a)) := by
        rw [mul_div_assoc', div_le_div_iff₀ hSt hSa]
        nlinarith [mul_le_mul_of_nonneg_left d2 hWa]
      calc r ^ (-7 / 3 : ℝ) * W / S (2 * chirp f₀ T t) = r ^ (-7 / 3 : ℝ) * (W / S (2 * chirp f₀ T t)) := by ring
        _ ≤ 1 * (r ^ k * (W / S (2 * chirp f₀ T a))) := by gcongr
        _ ≤ _ := by
          rw [one_mul]
          gcongr
  have hw := trapezoid_within hτ0 hder (fn_dot_chirp C.K hf0 hτT hT0) (fun t ht => (hDp t ht).le) hyc m hstep
  have hint : ∫ t in (0 : ℝ)..τ, y t * D t = 1 / C.t_obs * ∫ t in (0 : ℝ)..τ, ρ t ^ 2 := by
    rw [← intervalIntegral.integral_const_mul]
    refine intervalIntegral.integral_congr fun t ht => ?_
    rw [uIcc_of_le hτ0.le] at ht
    have := (hDp t ht).ne'
    have := hobs.ne'
    simp only [hy]
    field_simp
  rw [hint] at hw
  refine ⟨ρ, _, hρ, hv, sqrt_nonneg _, ?_⟩
  have e : (1 + τ / (((m + 2 : ℕ) : ℝ) - 1) / (T - τ)) = 1 + τ / (m + 1) / (T - τ) := by
    push_cast
    ring_nf
  have e2 : (1 + τ / ((((m + 2 : ℕ) : ℝ) - 1) * (T - τ))) ^ (3 / 16 * (k + 7 / 3)) = √(q ^ (k + 7 / 3)) := by
    rw [← div_div, e, hq, sqrt_eq_rpow, ← rpow_mul (by linarith), ← rpow_mul (by linarith)]
    congr 1
    ring
  rw [e2]
  have hqp : (0 : ℝ) ≤ q ^ (k + 7 / 3) := by positivity
  constructor
  · rw [← sqrt_mul hqp]
    exact sqrt_le_sqrt hw.1
  · rw [← sqrt_mul hqp]
    exact sqrt_le_sqrt hw.2

theorem t_merge_eq {K : Consts} {m₁ m₂ f T : ℝ}
    (hT : get_t_merge_circ K none (some fun _ : Fin 1 => m₁) (some fun _ => m₂) none (some fun _ => f) = .ok fun _ => T) :
    T = get_a_from_f_orb K f m₁ m₂ ^ 4 / (4 * utils.beta K m₁ m₂) := by
  rw [get_t_merge_circ_masses] at hT
  simp only [Except.ok.injEq] at hT
  exact (congrFun hT 0).symm

/-- A source that stays below 1 Hz is not taken for a merged one, unless it weighs less than a microgram. -/
theorem no_marker (K : Consts) {s : EvolSrc} (hs : EvolPhys s) {T τ : ℝ}
    (hT : T = get_a_from_f_orb K s.f_orb_i s.m_1 s.m_2 ^ 4 / (4 * utils.beta K s.m_1 s.m_2)) (hτ0 : 0 ≤ τ) (hτ : τ < T)
    (hend : chirp s.f_orb_i T τ ≤ 1) (hm : 1e-20 ≤ K.G * (s.m_1 + s.m_2)) {n : ℕ} (hn : 2 ≤ n) :
    ∀ fs, evol_circ K AU (some (.array fun _ : Fin 1 => τ)) n none none
      (some fun _ => s.m_1) (some fun _ => s.m_2) none (some fun _ => s.f_orb_i) ["f_orb"]
      = .ok (.one fs) → ∀ f ∈ fs 0, s.f_orb_i ≤ f ∧ f ≤ 1 := by
  have hi : ∀ i : Fin [s].length, [s][i] = s := fun i => by simp
  have e := evol_circ_snr K [s] (fun _ => τ) n
  have hcol : ∀ x : EvolSrc → ℝ, column [s] x = fun _ => x s := fun x => by
    funext i
    match i with
    | ⟨0, _⟩ => rfl
  simp only [hcol, hi] at e
  intro fs hfs
  have he : fs = fun _ => circRow K s τ n := by simpa using hfs.symm.trans e
  rw [he]
  intro f hf
  obtain ⟨t, ht, rfl⟩ := List.mem_map.1 hf
  obtain ⟨h1, h2, h3, -⟩ := hs
  have ha := get_a_from_f_orb_pos K h3 h1 h2
  have hb := beta_pos K h1 h2
  have htm := linspace_mem hτ0 hn ht
  have htT : t < T := htm.2.trans_lt hτ
  have hT0 : 0 < T := by linarith
  have hap : 0 < a_circ (get_a_from_f_orb K s.f_orb_i s.m_1 s.m_2) (utils.beta K s.m_1 s.m_2) t := by
    have hin := a_circ_inspiral ha hb
    rw [← hT] at hin
    exact hin.pos t htT
  have hchirp := f_of_a_circ K h3 h1 h2 hT htT
  have hle : chirp s.f_orb_i T t ≤ 1 := (chirp_mono h3 hT0 htm.2 hτ).trans hend
  have hge : s.f_orb_i ≤ chirp s.f_orb_i T t := by
    have := chirp_mono h3 hT0 htm.1 htT
    rwa [chirp_zero hT0] at this
  generalize a_circ (get_a_from_f_orb K s.f_orb_i s.m_1 s.m_2) (utils.beta K s.m_1 s.m_2) t = A at *
  have hne : A ≠ 1e-30 * AU := by
    intro hA
    have hk := (C01_get_f_iff_kepler K (get_f_orb_from_a_pos K hap h1 h2) hap h1 h2).1 rfl
    unfold KeplerThird at hk
    rw [← hk, hchirp, hA] at hm
    have hc0 := chirp_pos h3 hT0 htT
    have h7 : (2 * π * chirp s.f_orb_i T t) ^ 2 ≤ (2 * 4 * 1) ^ 2 := by
      have := pi_le_four
      have := pi_pos
      apply pow_le_pow_left₀ (by positivity)
      nlinarith
    have h8 : (0 : ℝ) ≤ (1e-30 * AU) ^ 3 := by unfold AU; norm_num
    have := hm.trans (mul_le_mul_of_nonneg_right h7 h8)
    unfold AU at this
    norm_num at this
  rw [f_or_merged_of_ne K hap.ne' hne, hchirp]
  exact ⟨hge, hle⟩

/-- **C94** (LISA). With the default noise and the analytic response, observations of at least three months and at least
100 steps (the default), the SNR of every source in the band (unless it weighs less than a microgram) that is observed for
at most half the time to its merger is within 3% of the exact one. -/
theorem C94_lisa (K : Consts) (hc : K.c = 299792458) (env : psd.Env) {s : EvolSrc} (hs : EvolPhys s) {t_obs : ℝ}
    (ht : 0.25 * psd.yr ≤ t_obs) {T : ℝ}
    (hT : get_t_merge_circ K none (some fun _ : Fin 1 => s.m_1) (some fun _ => s.m_2) none (some fun _ => s.f_orb_i)
      = .ok fun _ => T) (hfar : 2 * t_obs ≤ T) (hlow : 1e-7 ≤ 2 * s.f_orb_i) (hhigh : s.f_orb_i ≤ 0.77)
    (hm : 1e-20 ≤ K.G * (s.m_1 + s.m_2)) {n : ℕ} (hn : 100 ≤ n) :
    let C : Ctx := { K := K, env := env, kw := { approximate_R := true }, t_obs := t_obs }
    ∃ (ρ : ℝ → ℝ) (v : ℝ), (∀ t ∈ Icc 0 t_obs,
        snr_circ_stationary C [⟨chirp_mass s.m_1 s.m_2, chirp s.f_orb_i T t, s.dist, {}⟩] = .ok [some (ρ t)]) ∧
      snr_circ_evolving C [s] n none = .ok [some v] ∧
      WithinFactor 1.03 v (√(1 / t_obs * ∫ t in (0 : ℝ)..t_obs, ρ t ^ 2)) := by
  intro C
  have ht1 : 1 ≤ t_obs := le_trans (by norm_num [psd.yr]) ht
  obtain ⟨hm1, hm2, hf0, hd⟩ := id hs
  have hmin : min (T - 1) t_obs = t_obs := min_eq_right (by linarith)
  have hT0 : 0 < T := by linarith
  have hTt : 0 < T - t_obs := by linarith
  obtain ⟨S, h1, h2⟩ := (C91_lisa_slope K hc env none t_obs).2 ht
  have hend : 2 * chirp s.f_orb_i T t_obs ≤ 2 := by
    have hr : T / (T - t_obs) ≤ 2 := by rw [div_le_iff₀ hTt]; linarith
    have hp : (T / (T - t_obs)) ^ (3 / 8 : ℝ) ≤ 1.2969 := by
      calc (T / (T - t_obs)) ^ (3 / 8 : ℝ) ≤ (2 : ℝ) ^ (3 / 8 : ℝ) := rpow_le_rpow (by positivity) hr (by norm_num)
        _ = ((2 : ℝ) ^ (3 : ℕ)) ^ (1 / 8 : ℝ) := by
            rw [← rpow_natCast, ← rpow_mul (by norm_num)]
            norm_num
        _ ≤ ((1.2969 : ℝ) ^ (8 : ℕ)) ^ (1 / 8 : ℝ) := rpow_le_rpow (by positivity) (by norm_num) (by norm_num)
        _ = 1.2969 := by
            rw [← rpow_natCast, ← rpow_mul (by norm_num)]
            norm_num
    have : chirp s.f_orb_i T t_obs ≤ 0.77 * 1.2969 := by
      unfold chirp
      have : 0 ≤ (T / (T - t_obs)) ^ (3 / 8 : ℝ) := by positivity
      gcongr
    norm_num at this ⊢
    linarith
  obtain ⟨ρ, v, hρ, hv, hv0, hw⟩ := C94_steps C hs (by change 0 < t_obs; linarith) hT (by linarith) (τ := t_obs) hmin.symm
    (k := 13) (by norm_num) hend (⟨fun f a b => h2.1 f (hlow.trans a) b,
      fun f f' a b c => h2.2 f f' (hlow.trans a) b c⟩) (fun f a b => h1 f (hlow.trans a) b) (by omega : 2 ≤ n) (by
      intro fs hfs hmem
      have := (no_marker K hs (t_merge_eq hT) (by linarith) (by linarith) (by linarith) hm (by omega) fs hfs _ hmem).2
      norm_num at this)
  refine ⟨ρ, v, hρ, hv, ?_⟩
  have hn' : (99 : ℝ) ≤ (n : ℝ) - 1 := by
    have : (100 : ℝ) ≤ n := by exact_mod_cast hn
    linarith
  have hq : (1 + t_obs / ((n - 1) * (T - t_obs))) ^ (3 / 16 * (13 + 7 / 3) : ℝ) ≤ 1.03 := by
    have hb : t_obs / ((n - 1) * (T - t_obs)) ≤ 1 / 99 := by
      rw [div_le_div_iff₀ (by positivity) (by norm_num)]
      nlinarith
    have hb0 : 0 ≤ t_obs / (((n : ℝ) - 1) * (T - t_obs)) := div_nonneg (by linarith) (by positivity)
    calc (1 + t_obs / ((n - 1) * (T - t_obs))) ^ (3 / 16 * (13 + 7 / 3) : ℝ)
        ≤ (1 + 1 / 99 : ℝ) ^ (3 / 16 * (13 + 7 / 3) : ℝ) := rpow_le_rpow (by linarith) (by linarith) (by norm_num)
      _ = ((1 + 1 / 99 : ℝ) ^ (23 : ℕ)) ^ (1 / 8 : ℝ) := by
          rw [← rpow_natCast, ← rpow_mul (by norm_num)]
          norm_num
      _ ≤ ((1.03 : ℝ) ^ (8 : ℕ)) ^ (1 / 8 : ℝ) := rpow_le_rpow (by positivity) (by norm_num) (by norm_num)
      _ = 1.03 := by
          rw [← rpow_natCast, ← rpow_mul (by norm_num)]
          norm_num
  exact ⟨hw.1.trans (mul_le_mul_of_nonneg_right hq (sqrt_nonneg _)), hw.2.trans (mul_le_mul_of_nonneg_right hq hv0)⟩

/-- **C94** (curvature). A twice differentiable curve has curvature at most `M` if its second derivative is between `-M` and
`M`. -/
theorem C94_curvature {M lo hi : ℝ} {w w' w'' : ℝ → ℝ} (hc : ContinuousOn w (Icc lo hi))
    (h1 : ∀ F ∈ Ioo lo hi, HasDerivAt w (w' F) F) (h2 : ∀ F ∈ Ioo lo hi, HasDerivAt w' (w'' F) F)
    (hM : ∀ F ∈ Ioo lo hi, |w'' F| ≤ M) : CurvatureAtMost M w lo hi := by
  have hp : ∀ F, HasDerivAt (fun F : ℝ => M / 2 * F ^ 2) (M * F) F := fun F =>
    ((hasDerivAt_pow 2 F).const_mul (M / 2)).congr_deriv (by ring)
  have hq : ∀ F, HasDerivAt (fun F : ℝ => M * F) M F := fun F => by simpa using (hasDerivAt_id F).const_mul M
  have hpc : ContinuousOn (fun F : ℝ => M / 2 * F ^ 2) (Icc lo hi) := by fun_prop
  constructor
  · refine convexOn_of_hasDerivWithinAt2_nonneg (convex_Icc lo hi) (f' := fun F => w' F + M * F) (f'' := fun F => w'' F + M)
      (hc.add hpc) ?_ ?_ ?_ <;> rw [interior_Icc] <;> intro F hF
    · exact ((h1 F hF).add (hp F)).hasDerivWithinAt
    · exact ((h2 F hF).add (hq F)).hasDerivWithinAt
    · linarith [(abs_le.1 (hM F hF)).1]
  · refine concaveOn_of_hasDerivWithinAt2_nonpos (convex_Icc lo hi) (f' := fun F => w' F - M * F) (f'' := fun F => w'' F - M)
      (hc.sub hpc) ?_ ?_ ?_ <;> rw [interior_Icc] <;> intro F hF
    · exact ((h1 F hF).sub (hp F)).hasDerivWithinAt
    · exact ((h2 F hF).sub (hq F)).hasDerivWithinAt
    · linarith [(abs_le.1 (hM F hF)).2]

/-- **C94** (second order). Let `w F` be the SNR² per unit of signal frequency: `ρ² = t_obs w dF/dt`, with `ρ` the SNR that
`snr_circ_stationary` reports for the source frozen at signal frequency `F` and `dF/dt` from `utils.fn_dot`. If the
curvature of `w` is at most `M` and the signal frequencies of the source in successive steps differ by at most `δ`, the
square of the SNR that `snr_circ_evolving` reports is within `M/12 (F_end - F_start) δ²` of `1/t_obs ∫ ρ(t)² dt`. -/
theorem C94_second_order (C : Ctx) {s : EvolSrc} (hs : EvolPhys s) (hobs : 0 < C.t_obs) {T : ℝ}
    (hT : get_t_merge_circ C.K none (some fun _ : Fin 1 => s.m_1) (some fun _ => s.m_2) none (some fun _ => s.f_orb_i)
      = .ok fun _ => T) (h1 : 1 < T) {τ : ℝ} (hτ : τ = min (T - 1) C.t_obs) {ρ w : ℝ → ℝ}
    (hρ : ∀ t ∈ Icc 0 τ,
      snr_circ_stationary C [⟨chirp_mass s.m_1 s.m_2, chirp s.f_orb_i T t, s.dist, {}⟩] = .ok [some (ρ t)])
    (hw : ∀ t ∈ Icc 0 τ, ∃ r, fn_dot C.K (chirp_mass s.m_1 s.m_2) (chirp s.f_orb_i T t) 0 [2] = .ok [r] ∧
      ρ t ^ 2 = C.t_obs * (w (2 * chirp s.f_orb_i T t) * r))
    {M : ℝ} (hM : 0 ≤ M) (hcont : ContinuousOn w (Icc (2 * s.f_orb_i) (2 * chirp s.f_orb_i T τ)))
    (hcurv : CurvatureAtMost M w (2 * s.f_orb_i) (2 * chirp s.f_orb_i T τ)) {n : ℕ} (hn : 2 ≤ n) {δ : ℝ}
    (hfs : ∀ fs, evol_circ C.K AU (some (.array fun _ : Fin 1 => τ)) n none none
      (some fun _ => s.m_1) (some fun _ => s.m_2) none (some fun _ => s.f_orb_i) ["f_orb"] = .ok (.one fs) →
      (100 : ℝ) ∉ fs 0 ∧ ∀ i f f', (fs 0)[i]? = some f → (fs 0)[i + 1]? = some f' → 2 * f' - 2 * f ≤ δ) :
    ∃ v : ℝ, snr_circ_evolving C [s] n none = .ok [some v] ∧
      |v ^ 2 - 1 / C.t_obs * ∫ t in (0 : ℝ)..τ, ρ t ^ 2| ≤ M / 12 * (2 * chirp s.f_orb_i T τ - 2 * s.f_orb_i) * δ ^ 2 := by
  obtain ⟨hm1, hm2, hf0, hd⟩ := id hs
  have hmc := C03_pos hm1 hm2
  have hT0 : 0 < T := by linarith
  have hτ0 : 0 < τ := by rw [hτ]; exact lt_min (by linarith) hobs
  have hτT : τ < T := by rw [hτ]; exact lt_of_le_of_lt (min_le_left _ _) (by linarith)
  obtain ⟨hTi, hv⟩ := circ_steps C hs hobs hT h1.le (ρ := ρ) (by rw [← hτ]; exact hρ) hn
    (by rw [← hτ]; exact fun fs h => (hfs fs h).1)
  rw [← hτ] at hv
  have hcol : ∀ x : EvolSrc → ℝ, column [s] x = fun _ => x s := fun x => by
    funext i
    match i with
    | ⟨0, _⟩ => rfl
  obtain ⟨h100, hδ⟩ := hfs _ (by
    have e := evol_circ_snr C.K [s] (fun _ => τ) n
    rw [hcol, hcol, hcol] at e
    exact e)
  change (100 : ℝ) ∉ circRow C.K s τ n at h100
  change ∀ i f f', (circRow C.K s τ n)[i]? = some f → (circRow C.K s τ n)[i + 1]? = some f' → 2 * f' - 2 * f ≤ δ at hδ
  have hrow := circFreqs_chirp C hs hobs.le hTi h1.le hn (by rw [← hτ]; exact h100)
  unfold circFreqs at hrow
  rw [← hτ, drop_merged_circ_of_not_mem h100] at hrow
  set f₀ := s.f_orb_i with hf₀
  set mc := chirp_mass s.m_1 s.m_2 with hmcd
  set D : ℝ → ℝ := fun t => fn_dot_val C.K mc (chirp f₀ T t) 0 2 with hDdef
  have hDp : ∀ t ∈ Icc 0 τ, 0 < D t := fun t ht => fn_dot_two_pos C.K hmc (chirp_pos hf0 hT0 (ht.2.trans_lt hτT))
  have hwρ : ∀ t ∈ Icc 0 τ, ρ t ^ 2 / C.t_obs / D t = w (2 * chirp f₀ T t) := by
    intro t ht
    obtain ⟨r, hr, he⟩ := hw t ht
    have hrD : r = D t := by
      simp only [fn_dot] at hr
      simpa using hr.symm
    have := (hDp t ht).ne'
    have := hobs.ne'
    rw [he, hrD]
    field_simp
  have hder : ∀ t ∈ Icc 0 τ, HasDerivAt (fun t => 2 * chirp f₀ T t) (D t) t := fun t ht => by
    simpa using chirp_hasDerivAt C.K hf0 hm1 hm2 hTi (ht.2.trans_lt hτT) 2
  obtain ⟨m, rfl⟩ : ∃ m, n = m + 2 := ⟨n - 2, by omega⟩
  have hz : 2 * chirp f₀ T 0 = 2 * f₀ := by rw [chirp_zero hT0]
  have key := trapezoid_curvature (x := fun t => 2 * chirp f₀ T t) (w := w) (M := M) (δ := δ) hτ0 hder
    (fn_dot_chirp C.K hf0 hτT hT0) (fun t ht => (hDp t ht).le) (by rw [hz]; exact hcont) hM (by rw [hz]; exact hcurv) m (by
      intro i hi
      have hg : ∀ j : ℕ, j < m + 2 → (circRow C.K s τ (m + 2))[j]? = some (chirp f₀ T (j * (τ / (m + 1)))) := by
        intro j hj
        rw [hrow]
        unfold np.linspace
        rw [List.map_map, List.getElem?_map, List.getElem?_range hj]
        simp only [Option.map_some, Function.comp]
        congr 3
        push_cast
        ring_nf
      exact hδ i _ _ (hg i (by omega)) (hg (i + 1) (by omega)))
  simp only [hz] at key
  have e1 : (np.linspace τ (m + 2)).map (fun t => ρ t ^ 2 / C.t_obs / fn_dot_val C.K mc (chirp f₀ T t) 0 2)
      = (np.linspace τ (m + 2)).map fun t => w (2 * chirp f₀ T t) :=
    List.map_congr_left fun t ht => hwρ t (linspace_mem hτ0.le hn ht)
  rw [e1] at hv
  have hint : ∫ t in (0 : ℝ)..τ, w (2 * chirp f₀ T t) * D t = 1 / C.t_obs * ∫ t in (0 : ℝ)..τ, ρ t ^ 2 := by
    rw [← intervalIntegral.integral_const_mul]
    refine intervalIntegral.integral_congr fun t ht => ?_
    rw [uIcc_of_le hτ0.le] at ht
    rw [← hwρ t ht]
    have := (hDp t ht).ne'
    have := hobs.ne'
    field_simp
  rw [hint] at key
  refine ⟨_, hv, ?_⟩
  rw [sq_sqrt]
  · exact key
  · apply trapezoid_nonneg
    · intro y hy
      obtain ⟨t, ht, rfl⟩ := List.mem_map.1 hy
      have htm := linspace_mem hτ0.le hn ht
      rw [← hwρ t htm]
      have := hDp t htm
      positivity
    · rw [List.pairwise_map]
      have hle : (np.linspace τ (m + 2)).Pairwise (· ≤ ·) := by
        unfold np.linspace
        rw [List.pairwise_map]
        refine List.pairwise_lt_range.imp fun {i j} hij => ?_
        have h2 : (i : ℝ) ≤ j := by exact_mod_cast hij.le
        refine mul_le_mul_of_nonneg_right h2 (div_nonneg hτ0.le ?_)
        push_cast
        linarith
      refine hle.imp_of_mem fun hx hy hxy => ?_
      have := chirp_mono hf0 hT0 hxy ((linspace_mem hτ0.le hn hy).2.trans_lt hτT)
      linarith

/-- **C94** (trapezium rule). If the SNR² per unit of signal frequency is a linear function of the frequency, the SNR that
`snr_circ_evolving` reports is exact, for every number of steps. -/
theorem C94_linear (C : Ctx) {s : EvolSrc} (hs : EvolPhys s) (hobs : 0 < C.t_obs) {T : ℝ}
    (hT : get_t_merge_circ C.K none (some fun _ : Fin 1 => s.m_1) (some fun _ => s.m_2) none (some fun _ => s.f_orb_i)
      = .ok fun _ => T) (h1 : 1 < T) {τ : ℝ} (hτ : τ = min (T - 1) C.t_obs) {ρ : ℝ → ℝ}
    (hρ : ∀ t ∈ Icc 0 τ,
      snr_circ_stationary C [⟨chirp_mass s.m_1 s.m_2, chirp s.f_orb_i T t, s.dist, {}⟩] = .ok [some (ρ t)]) {a b : ℝ}
    (hw : ∀ t ∈ Icc 0 τ, ∃ r, fn_dot C.K (chirp_mass s.m_1 s.m_2) (chirp s.f_orb_i T t) 0 [2] = .ok [r] ∧
      ρ t ^ 2 = C.t_obs * ((a + b * (2 * chirp s.f_orb_i T t)) * r)) {n : ℕ} (hn : 2 ≤ n)
    (h100 : ∀ fs, evol_circ C.K AU (some (.array fun _ : Fin 1 => τ)) n none none
      (some fun _ => s.m_1) (some fun _ => s.m_2) none (some fun _ => s.f_orb_i) ["f_orb"]
      = .ok (.one fs) → (100 : ℝ) ∉ fs 0) :
    ∃ v : ℝ, snr_circ_evolving C [s] n none = .ok [some v] ∧ v ^ 2 = 1 / C.t_obs * ∫ t in (0 : ℝ)..τ, ρ t ^ 2 := by
  have hcol : ∀ x : EvolSrc → ℝ, column [s] x = fun _ => x s := fun x => by
    funext i
    match i with
    | ⟨0, _⟩ => rfl
  have e := evol_circ_snr C.K [s] (fun _ => τ) n
  rw [hcol, hcol, hcol] at e
  set L := circRow C.K s τ n with hL
  have hsum : ∀ f ∈ L, |f| ≤ (L.map fun f => |f|).sum := fun f hf =>
    List.single_le_sum (fun x hx => by obtain ⟨y, -, rfl⟩ := List.mem_map.1 hx; exact abs_nonneg _) _
      (List.mem_map.2 ⟨f, hf, rfl⟩)
  obtain ⟨v, hv, hb⟩ := C94_second_order C hs hobs hT h1 hτ (w := fun F => a + b * F) hρ hw (M := 0) le_rfl (by fun_prop)
    (by
      have hlin : ∀ F : ℝ, a + b * F = b * F + a := fun F => add_comm _ _
      have hcv : Convex ℝ (Icc (2 * s.f_orb_i) (2 * chirp s.f_orb_i T τ)) := convex_Icc _ _
      constructor
      · refine ⟨hcv, fun x _ y _ c d _ _ hcd => le_of_eq ?_⟩
        simp only [smul_eq_mul]
        linear_combination (-a) * hcd
      · refine ⟨hcv, fun x _ y _ c d _ _ hcd => le_of_eq ?_⟩
        simp only [smul_eq_mul]
        linear_combination a * hcd)
    hn (δ := 4 * (L.map fun f => |f|).sum) (by
      intro fs hfs
      refine ⟨h100 fs hfs, fun i f f' hf hf' => ?_⟩
      have hL' : fs 0 = L := by
        have := hfs.symm.trans e
        simp only [Except.ok.injEq, EvolOut.one.injEq] at this
        rw [this]
        rfl
      rw [hL'] at hf hf'
      have a1 := hsum f (List.mem_of_getElem? hf)
      have a2 := hsum f' (List.mem_of_getElem? hf')
      have b1 := neg_abs_le f
      have b2 := le_abs_self f'
      linarith)
  refine ⟨v, hv, ?_⟩
  rw [zero_div, zero_mul, zero_mul] at hb
  linarith [abs_nonpos_iff.1 hb]

set_option maxHeartbeats 1000000 in
/-- **C94** (the last step). For a source that merges during the observation the last step ends one second before the
merger; let it begin `u` seconds before it. If the noise is at least `Slo` at all frequencies of the source and at most
`Shi` at the frequency at which the last step begins, the square of the reported SNR exceeds the exact one by more than a
factor `2/3 (u/T)^(1/2) (u^(3/8) - 1) Slo/Shi`, that is by about `0.07 u^(3/8)` for 100 steps and white noise. -/
theorem C94_last_step (C : Ctx) {s : EvolSrc} (hs : EvolPhys s) (hobs : 0 < C.t_obs) {T : ℝ}
    (hT : get_t_merge_circ C.K none (some fun _ : Fin 1 => s.m_1) (some fun _ => s.m_2) none (some fun _ => s.f_orb_i)
      = .ok fun _ => T) (hT1 : 1 < T) (hmerge : T - 1 ≤ C.t_obs) {n : ℕ} (hn : 2 ≤ n) {u : ℝ} (hu : u = 1 + (T - 1) / (n - 1))
    {S : ℝ → ℝ} {Slo Shi : ℝ} (hSlo : 0 < Slo)
    (hcont : ContinuousOn S (Icc (2 * s.f_orb_i) (2 * chirp s.f_orb_i T (T - 1))))
    (hN : ∀ f, 2 * s.f_orb_i ≤ f → f ≤ 2 * chirp s.f_orb_i T (T - 1) → Slo ≤ S f ∧ noise C f = .ok (S f : ℝ))
    (hShi : S (2 * chirp s.f_orb_i T (T - u)) ≤ Shi) (hig : C.interpolated_g = none)
    (h100 : ∀ fs, evol_circ C.K AU (some (.array fun _ : Fin 1 => T - 1)) n none none
      (some fun _ => s.m_1) (some fun _ => s.m_2) none (some fun _ => s.f_orb_i) ["f_orb"]
      = .ok (.one fs) → (100 : ℝ) ∉ fs 0) :
    ∃ (ρ : ℝ → ℝ) (v : ℝ), (∀ t ∈ Icc 0 (T - 1),
        snr_circ_stationary C [⟨chirp_mass s.m_1 s.m_2, chirp s.f_orb_i T t, s.dist, {}⟩] = .ok [some (ρ t)]) ∧
      snr_circ_evolving C [s] n none = .ok [some v] ∧ 0 ≤ v ∧
      0 < 1 / C.t_obs * ∫ t in (0 : ℝ)..(T - 1), ρ t ^ 2 ∧
      2 / 3 * (u / T) ^ (1 / 2 : ℝ) * (u ^ (3 / 8 : ℝ) - 1) * (Slo / Shi) * (1 / C.t_obs * ∫ t in (0 : ℝ)..(T - 1), ρ t ^ 2)
        < v ^ 2 := by
  obtain ⟨hm1, hm2, hf0, hd⟩ := id hs
  have hmc := C03_pos hm1 hm2
  have hT0 : 0 < T := by linarith
  have hmin : T - 1 = min (T - 1) C.t_obs := (min_eq_left hmerge).symm
  set τ := T - 1 with hτ
  have hτ0 : 0 < τ := by linarith
  have hτT : τ < T := by linarith
  set f₀ := s.f_orb_i with hf₀
  set mc := chirp_mass s.m_1 s.m_2 with hmcd
  have hfp : ∀ t ∈ Icc 0 τ, 0 < chirp f₀ T t := fun t ht => chirp_pos hf0 hT0 (ht.2.trans_lt hτT)
  have hrange : ∀ t ∈ Icc 0 τ, 2 * f₀ ≤ 2 * chirp f₀ T t ∧ 2 * chirp f₀ T t ≤ 2 * chirp f₀ T τ := by
    intro t ht
    have a1 := chirp_mono hf0 hT0 ht.1 (ht.2.trans_lt hτT)
    have a2 := chirp_mono hf0 hT0 ht.2 hτT
    rw [chirp_zero hT0] at a1
    exact ⟨by linarith, by linarith⟩
  set W := h_0_val C.K C.interpolated_g mc s.dist f₀ 0 2 ^ 2 with hW
  have hW0 : 0 < W := by
    have := C.K.G_pos
    have := C.K.c_pos
    have hg : g_vals C.interpolated_g 2 0 = 1 := by
      rw [hig]
      show utils.peters_g 2 0 = 1
      rw [C05_circular (by norm_num)]
      simp
    rw [hW]
    unfold h_0_val
    simp only
    rw [hg]
    push_cast
    positivity
  have hSp : ∀ t ∈ Icc 0 τ, Slo ≤ S (2 * chirp f₀ T t) := fun t ht => (hN _ (hrange t ht).1 (hrange t ht).2).1
  have hSp0 : ∀ t ∈ Icc 0 τ, 0 < S (2 * chirp f₀ T t) := fun t ht => hSlo.trans_le (hSp t ht)
  set ρ : ℝ → ℝ := fun t => √(h_0_val C.K C.interpolated_g mc s.dist (chirp f₀ T t) 0 2 ^ 2 * C.t_obs
    / S (2 * chirp f₀ T t)) with hρdef
  have hρ : ∀ t ∈ Icc 0 τ, snr_circ_stationary C [⟨mc, chirp f₀ T t, s.dist, {}⟩] = .ok [some (ρ t)] := fun t ht =>
    snr_of_noise C hobs.le (hSp0 t ht) (hN _ (hrange t ht).1 (hrange t ht).2).2
  obtain ⟨hTi, hv⟩ := circ_steps C hs hobs hT (by linarith) (ρ := ρ) (by rw [← hmin]; exact hρ) hn (by rw [← hmin]; exact h100)
  rw [← hmin] at hv
  have hut : ∀ t ∈ Icc 0 τ, 0 < T / (T - t) := fun t ht => div_pos hT0 (by linarith [ht.2])
  have hratio : ∀ t ∈ Icc 0 τ, chirp f₀ T t = (T / (T - t)) ^ (3 / 8 : ℝ) * f₀ := fun t _ => mul_comm _ _
  have hρ2 : ∀ t ∈ Icc 0 τ, ρ t ^ 2 = (T / (T - t)) ^ (1 / 2 : ℝ) * (W * C.t_obs / S (2 * chirp f₀ T t)) := by
    intro t ht
    have hut := hut t ht
    have e : (((T / (T - t)) ^ (3 / 8 : ℝ)) ^ (2 / 3 : ℝ)) ^ 2 = (T / (T - t)) ^ (1 / 2 : ℝ) := by
      rw [← rpow_natCast, ← rpow_mul (by positivity), ← rpow_mul hut.le]
      norm_num
    simp only [hρdef]
    have hS0 := (hSp0 t ht).ne'
    rw [sq_sqrt (div_nonneg (mul_nonneg (sq_nonneg _) hobs.le) (hSp0 t ht).le),  hratio t ht,
      h_0_scale _ _ _ _ _ _ (by positivity) hf0, mul_pow, e, ← hW]
    ring
  set D := fn_dot_val C.K mc f₀ 0 2 with hD
  have ha := get_a_from_f_orb_pos C.K hf0 hm1 hm2
  have hb := beta_pos C.K hm1 hm2
  have hDT : D = 3 * f₀ / (4 * T) := by
    have h4 : get_a_from_f_orb C.K f₀ s.m_1 s.m_2 ^ 4 = 4 * utils.beta C.K s.m_1 s.m_2 * T := by
      rw [hTi, ← hf₀]
      field_simp
    rw [hD, fn_dot_val_eq C.K 2 hf0 ha hm1 hm2 ((C01_get_a_iff_kepler C.K hf0 ha hm1 hm2).1 rfl), C04_zero, h4]
    push_cast
    field_simp
  have hD0 : 0 < D := by rw [hDT]; positivity
  -- the exact value
  have hρc : ContinuousOn (fun t => ρ t ^ 2) (Icc 0 τ) := by
    have c1 : ContinuousOn (fun t => S (2 * chirp f₀ T t)) (Icc 0 τ) :=
      hcont.comp (continuousOn_const.mul (chirp_continuousOn hτT hT0)) fun t ht => hrange t ht
    refine ContinuousOn.congr (ContinuousOn.mul (ContinuousOn.rpow_const (continuousOn_const.div (by fun_prop) fun t ht => ?_)
      fun _ _ => Or.inr (by norm_num)) (continuousOn_const.div c1 fun t ht => (hSp0 t ht).ne')) hρ2
    have := ht.2
    linarith
  have hexact : 1 / C.t_obs * ∫ t in (0 : ℝ)..τ, ρ t ^ 2 ≤ W / Slo * (2 * T - 2 * √T) := by
    have hder : ∀ t ∈ uIcc 0 τ, HasDerivAt (fun t => -2 * √(T - t)) (1 / √(T - t)) t := by
      intro t ht
      rw [uIcc_of_le hτ0.le] at ht
      have hTt : 0 < T - t := by linarith [ht.2]
      have h1 : HasDerivAt (fun t => T - t) (-1) t := by simpa using (hasDerivAt_id t).const_sub T
      refine ((h1.sqrt hTt.ne').const_mul (-2)).congr_deriv ?_
      have := sqrt_pos.2 hTt
      field_simp
    have hcont : ContinuousOn (fun t => 1 / √(T - t)) (uIcc 0 τ) := by
      refine continuousOn_const.div (by fun_prop) fun t ht => ?_
      rw [uIcc_of_le hτ0.le] at ht
      exact (sqrt_pos.2 (by linarith [ht.2])).ne'
    have e1 : ∫ t in (0 : ℝ)..τ, ρ t ^ 2 ≤ ∫ t in (0 : ℝ)..τ, W * C.t_obs / Slo * √T * (1 / √(T - t)) := by
      refine intervalIntegral.integral_mono_on hτ0.le (by
        rw [← uIcc_of_le hτ0.le] at hρc
        exact hρc.intervalIntegrable) (hcont.intervalIntegrable.const_mul _) fun t ht => ?_
      have hTt : 0 < T - t := by linarith [ht.2]
      rw [hρ2 t ht, ← sqrt_eq_rpow, sqrt_div hT0.le]
      have hle : W * C.t_obs / S (2 * chirp f₀ T t) ≤ W * C.t_obs / Slo := by
        have := hSp t ht
        gcongr
      have hr : 0 ≤ √T / √(T - t) := by positivity
      calc _ ≤ √T / √(T - t) * (W * C.t_obs / Slo) := mul_le_mul_of_nonneg_left hle hr
        _ = _ := by ring
    rw [intervalIntegral.integral_const_mul, intervalIntegral.integral_eq_sub_of_hasDerivAt hder hcont.intervalIntegrable] at e1
    have e2 : T - τ = 1 := by rw [hτ]; ring
    rw [e2, sqrt_one, sub_zero] at e1
    have e3 : √T * √T = T := mul_self_sqrt hT0.le
    have h4 : 1 / C.t_obs * (W * C.t_obs / Slo * √T * (-2 * 1 - -2 * √T)) = W / Slo * (2 * (√T * √T) - 2 * √T) := by
      have := hobs.ne'
      field_simp
      ring
    rw [e3] at h4
    rw [← h4]
    exact mul_le_mul_of_nonneg_left e1 (by positivity)
  have hpos : 0 < 1 / C.t_obs * ∫ t in (0 : ℝ)..τ, ρ t ^ 2 := by
    refine mul_pos (by positivity) (intervalIntegral.intervalIntegral_pos_of_pos_on (by
      rw [← uIcc_of_le hτ0.le] at hρc
      exact hρc.intervalIntegrable) (fun t ht => ?_) hτ0)
    have ht' : t ∈ Icc 0 τ := ⟨ht.1.le, ht.2.le⟩
    have a1 := hut t ht'
    have a2 := hSp0 t ht'
    rw [hρ2 t ht']
    positivity
  -- the last step
  obtain ⟨m, rfl⟩ : ∃ m, n = m + 2 := ⟨n - 2, by omega⟩
  have hm0 : (0 : ℝ) < m + 1 := by positivity
  set h := τ / (m + 1) with hh
  have hh0 : 0 < h := by positivity
  have hlin : np.linspace τ (m + 2) = (List.range (m + 1 + 1)).map fun i : ℕ => (i : ℝ) * h := by
    unfold np.linspace
    congr 1
    funext i
    rw [hh]
    push_cast
    ring_nf
  have hpt : ∀ i : ℕ, i ≤ m + 1 → (i : ℝ) * h ∈ Icc 0 τ := by
    intro i hi
    refine ⟨by positivity, ?_⟩
    have : (i : ℝ) ≤ m + 1 := by exact_mod_cast hi
    calc _ ≤ (m + 1) * h := mul_le_mul_of_nonneg_right this hh0.le
      _ = τ := by rw [hh, mul_div_cancel₀ _ hm0.ne']
  set x : ℝ → ℝ := fun t => 2 * chirp f₀ T t with hx
  set y : ℝ → ℝ := fun t => ρ t ^ 2 / C.t_obs / fn_dot_val C.K mc (chirp f₀ T t) 0 2 with hy
  have hyval : ∀ t ∈ Icc 0 τ, y t = (T / (T - t)) ^ (-7 / 8 : ℝ) * (W / S (2 * chirp f₀ T t) / D) := by
    intro t ht
    have hut := hut t ht
    have e : fn_dot_val C.K mc (chirp f₀ T t) 0 2 = (T / (T - t)) ^ (11 / 8 : ℝ) * D := by
      have e' : ((T / (T - t)) ^ (3 / 8 : ℝ)) ^ (11 / 3 : ℝ) = (T / (T - t)) ^ (11 / 8 : ℝ) := by
        rw [← rpow_mul hut.le]
        norm_num
      rw [hratio t ht, fn_dot_scale _ _ _ _ (by positivity) hf0, e']
    have e2 : (T / (T - t)) ^ (-7 / 8 : ℝ) * (T / (T - t)) ^ (11 / 8 : ℝ) = (T / (T - t)) ^ (1 / 2 : ℝ) := by
      rw [← rpow_add hut]
      norm_num
    have hS0 := (hSp0 t ht).ne'
    have h11 : 0 < (T / (T - t)) ^ (11 / 8 : ℝ) := by positivity
    have := hobs.ne'
    simp only [hy]
    rw [hρ2 t ht, e, ← e2]
    field_simp
  have hy0 : ∀ t ∈ Icc 0 τ, 0 ≤ y t := fun t ht => by
    rw [hyval t ht]
    have := hut t ht
    have := hSp0 t ht
    positivity
  rw [hlin, List.map_map, List.map_map, trapezoid_range] at hv
  simp only [Function.comp] at hv
  have hterm : ∀ i ∈ Finset.range (m + 1), 0 ≤ (x (((i + 1 : ℕ) : ℝ) * h) - x ((i : ℝ) * h)) * (y (((i + 1 : ℕ) : ℝ) * h)
      + y ((i : ℝ) * h)) / 2 := by
    intro i hi
    rw [Finset.mem_range] at hi
    have p1 := hpt i hi.le
    have p2 := hpt (i + 1) hi
    have hle : (i : ℝ) * h ≤ ((i + 1 : ℕ) : ℝ) * h := by push_cast; nlinarith
    have c := chirp_mono hf0 hT0 hle (p2.2.trans_lt hτT)
    have d1 := hy0 _ p1
    have d2 := hy0 _ p2
    have c' : 0 ≤ x (((i + 1 : ℕ) : ℝ) * h) - x ((i : ℝ) * h) := by
      simp only [hx]
      linarith
    positivity
  set R := ∑ i ∈ Finset.range (m + 1), (x (((i + 1 : ℕ) : ℝ) * h) - x ((i : ℝ) * h)) * (y (((i + 1 : ℕ) : ℝ) * h)
      + y ((i : ℝ) * h)) / 2 with hR
  have hlast : (x (((m + 1 : ℕ) : ℝ) * h) - x ((m : ℝ) * h)) * (y (((m + 1 : ℕ) : ℝ) * h) + y ((m : ℝ) * h)) / 2 ≤ R :=
    Finset.single_le_sum hterm (Finset.self_mem_range_succ m)
  have hend : ((m + 1 : ℕ) : ℝ) * h = τ := by rw [hh]; push_cast; field_simp
  rw [hend] at hlast
  have hudef : u = 1 + h := by
    rw [hu, hh]
    push_cast
    ring
  have hu0 : 0 < u := by linarith
  have hu1 : 1 < u := by linarith
  have htm : T - (m : ℝ) * h = u := by
    have : ((m : ℝ) + 1) * h = τ := by rw [hh]; field_simp
    linarith
  have hxτ : x τ = u ^ (3 / 8 : ℝ) * x (m * h) := by
    simp only [hx]
    unfold chirp
    rw [htm, show T - τ = 1 by rw [hτ]; ring, div_one, div_rpow hT0.le hu0.le]
    have : 0 < u ^ (3 / 8 : ℝ) := by positivity
    field_simp
  have hxm : x (m * h) = 2 * f₀ * (T / u) ^ (3 / 8 : ℝ) := by
    simp only [hx]
    unfold chirp
    rw [htm]
    ring
  have hSm : S (2 * chirp f₀ T (m * h)) ≤ Shi := by
    have : T - u = m * h := by linarith
    rwa [this] at hShi
  have hSm0 := hSp0 _ (hpt m (by omega))
  have hShi0 : 0 < Shi := hSm0.trans_le hSm
  have hTu : 0 < T / u := by positivity
  have hym : (T / u) ^ (-7 / 8 : ℝ) * (W / Shi / D) ≤ y (m * h) := by
    rw [hyval _ (hpt m (by omega)), htm]
    gcongr
  have hprod : (u / T) ^ (1 / 2 : ℝ) * (W / Shi) * (8 / 3 * T) ≤ x (m * h) * y (m * h) := by
    have e : (u / T) ^ (1 / 2 : ℝ) = (T / u) ^ (3 / 8 : ℝ) * (T / u) ^ (-7 / 8 : ℝ) := by
      rw [← rpow_add hTu, ← inv_div T u, inv_rpow hTu.le, ← rpow_neg hTu.le]
      norm_num
    calc _ = x (m * h) * ((T / u) ^ (-7 / 8 : ℝ) * (W / Shi / D)) := by
          rw [hxm, hDT, e]
          field_simp
          ring
      _ ≤ _ := mul_le_mul_of_nonneg_left hym (by rw [hxm]; positivity)
  have hroot : 0 < (u / T) ^ (1 / 2 : ℝ) := by positivity
  have hgap : 0 < u ^ (3 / 8 : ℝ) - 1 := by linarith [one_lt_rpow hu1 (by norm_num : (0 : ℝ) < 3 / 8)]
  have hxm0 : 0 ≤ x (m * h) := by rw [hxm]; positivity
  have hcell : (u ^ (3 / 8 : ℝ) - 1) * (x (m * h) * y (m * h)) / 2 ≤ R := by
    refine le_trans ?_ hlast
    rw [hxτ]
    have : 0 ≤ (u ^ (3 / 8 : ℝ) * x (m * h) - x (m * h)) * y τ := by
      refine mul_nonneg ?_ (hy0 τ ⟨hτ0.le, le_rfl⟩)
      nlinarith
    nlinarith
  have hR0 : 0 ≤ R := Finset.sum_nonneg hterm
  refine ⟨ρ, √R, hρ, hv, sqrt_nonneg _, hpos, ?_⟩
  rw [sq_sqrt hR0]
  have hK0 : 0 < 2 / 3 * (u / T) ^ (1 / 2 : ℝ) * (u ^ (3 / 8 : ℝ) - 1) * (Slo / Shi) := by positivity
  have hsqT : 0 < √T := sqrt_pos.2 hT0
  calc _ ≤ 2 / 3 * (u / T) ^ (1 / 2 : ℝ) * (u ^ (3 / 8 : ℝ) - 1) * (Slo / Shi) * (W / Slo * (2 * T - 2 * √T)) :=
        mul_le_mul_of_nonneg_left hexact hK0.le
    _ < 2 / 3 * (u / T) ^ (1 / 2 : ℝ) * (u ^ (3 / 8 : ℝ) - 1) * (Slo / Shi) * (W / Slo * (2 * T)) := by
        have : 0 < W / Slo := by positivity
        gcongr
        linarith
    _ = (u ^ (3 / 8 : ℝ) - 1) * ((u / T) ^ (1 / 2 : ℝ) * (W / Shi) * (8 / 3 * T)) / 2 := by
        field_simp
        ring
    _ ≤ (u ^ (3 / 8 : ℝ) - 1) * (x (m * h) * y (m * h)) / 2 := by gcongr
    _ ≤ R := hcell

/-- The noise of LISA with the default settings: never below 1.2e-40, and at most 2.1e-40 between 6 mHz and 18 mHz. -/
private lemma lisa_between (K : Consts) (hc : K.c = 299792458) (env : psd.Env) {t : ℝ} (ht : 0.25 * psd.yr ≤ t) :
    ∃ S : ℝ → ℝ, (∀ f, 1e-7 ≤ f → f ≤ 2 →
        noise { K := K, env := env, kw := { approximate_R := true }, t_obs := t } f = .ok (S f : ℝ)) ∧
      SlopeAtMost 13 S 1e-7 2 ∧ (∀ f, 1e-7 ≤ f → f ≤ 2 → 1.2e-40 ≤ S f) ∧ ∀ f, 6e-3 ≤ f → f ≤ 1.8e-2 → S f ≤ 2.1e-40 := by
  have hfs : 0.019 ≤ K.c / (2 * π * 2.5e9) := by
    rw [hc, le_div_iff₀ (by positivity)]
    have := pi_lt_d4
    nlinarith
  have hpsd : ∀ f, 1e-7 ≤ f → f ≤ 2 → noise { K := K, env := env, kw := { approximate_R := true }, t_obs := t } f
      = .ok ((psd.lisa_J 2.5e9 (K.c / (2 * π * 2.5e9)) f + psd.get_confusion_noise_karnesis21 f t : ℝ)) := by
    intro f h1 h2
    have hb : f ≥ 1e-7 ∧ f ≤ 2e0 := ⟨h1, by linarith⟩
    have hval : psd.lisa_J 2.5e9 (K.c / (2 * π * 2.5e9)) f = (1 / 2.5e9 ^ 2 * (psd.lisa_Poms f
        + 2 * (1 + cos (f / (K.c / (2 * π * 2.5e9))) ^ 2) * psd.lisa_Pacc f / (2 * π * f) ^ 4))
        / psd.approximate_response_function f (K.c / (2 * π * 2.5e9)) := by
      unfold psd.lisa_J psd.lisa_M psd.lisa_Q
      rw [mul_div_assoc']
    simp only [noise, psd.power_spectral_density, if_true, psd.lisa_psd, psd.NoiseArg.resolve, psd.TimeArg.resolve,
      psd.LenArg.resolve, psd.lisa_response, psd.noise_bare, psd.get_confusion_noise, bind, Except.bind, pure, Except.pure,
      if_pos hb, hval]
    simp
  refine ⟨_, hpsd, SlopeAtMost.of_hasSlope (by norm_num) fun f hf =>
    psd.slope_lisa (by norm_num) le_rfl hfs ht (lt_of_lt_of_le (by norm_num) hf.1) hf.2, fun f h1 h2 => ?_,
    fun f h1 h2 => psd.lisa_mid hfs ht h1 h2⟩
  have hf : 0 < f := lt_of_lt_of_le (by norm_num) h1
  have a := psd.floorJ_le (L := 2.5e9) (by norm_num) le_rfl (by linarith : 0 < K.c / (2 * π * 2.5e9)) hf
  have b := psd.karnesis_pos hf t
  have c : (1.2e-40 : ℝ) ≤ psd.floorJ f := by
    unfold psd.floorJ
    have : (0 : ℝ) < 8e-51 / f ^ 4 := by positivity
    linarith
  linarith

/-- With at most 100 steps the factor of `C94_last_step` grows with the time to merger. -/
private lemma last_factor {T u b w : ℝ} (hT : 1 < T) {n : ℕ} (hn : 2 ≤ n) (hn' : n ≤ 100) (hu : u = 1 + (T - 1) / (n - 1))
    (hb : 0 ≤ b) (hbT : 99 * b + 1 ≤ T) (hw : 0 ≤ w) (hwb : w ^ 8 ≤ b ^ 3) :
    1 / 15 * (w - 1) ≤ 2 / 3 * (u / T) ^ (1 / 2 : ℝ) * (u ^ (3 / 8 : ℝ) - 1) := by
  have hn0 : (0 : ℝ) < (n : ℝ) - 1 := by
    have : (2 : ℝ) ≤ n := by exact_mod_cast hn
    linarith
  have hn99 : (n : ℝ) - 1 ≤ 99 := by
    have : (n : ℝ) ≤ 100 := by exact_mod_cast hn'
    linarith
  have hu1 : 1 < u := by
    rw [hu]
    have : 0 < (T - 1) / (n - 1) := div_pos (by linarith) hn0
    linarith
  have hub : b ≤ u := by
    rw [hu]
    have : b ≤ (T - 1) / (n - 1) := by
      rw [le_div_iff₀ hn0]
      nlinarith
    linarith
  have hTu : 1 / 100 ≤ u / T := by
    rw [le_div_iff₀ (by linarith), hu]
    have : (T - 1) / 99 ≤ (T - 1) / (n - 1) := div_le_div_of_nonneg_left (by linarith) hn0 hn99
    linarith
  have hroot : (1 / 10 : ℝ) ≤ (u / T) ^ (1 / 2 : ℝ) := by
    calc (1 / 10 : ℝ) = (1 / 100 : ℝ) ^ (1 / 2 : ℝ) := by
          rw [← sqrt_eq_rpow, show (1 / 100 : ℝ) = (1 / 10) ^ 2 by norm_num, sqrt_sq (by norm_num)]
      _ ≤ _ := rpow_le_rpow (by norm_num) hTu (by norm_num)
  have hpow : w ≤ u ^ (3 / 8 : ℝ) := by
    calc w = (w ^ (8 : ℕ)) ^ (1 / 8 : ℝ) := by
          rw [← rpow_natCast, ← rpow_mul hw]
          norm_num
      _ ≤ (u ^ (3 : ℕ)) ^ (1 / 8 : ℝ) := rpow_le_rpow (by positivity) (hwb.trans (by gcongr)) (by norm_num)
      _ = u ^ (3 / 8 : ℝ) := by
          rw [← rpow_natCast, ← rpow_mul (by linarith)]
          norm_num
  have h1 : 0 ≤ u ^ (3 / 8 : ℝ) - 1 := by linarith [one_le_rpow hu1.le (by norm_num : (0 : ℝ) ≤ 3 / 8)]
  calc 1 / 15 * (w - 1) ≤ 1 / 15 * (u ^ (3 / 8 : ℝ) - 1) := by gcongr
    _ = 2 / 3 * (1 / 10) * (u ^ (3 / 8 : ℝ) - 1) := by ring
    _ ≤ _ := by gcongr

/-- **C94** (fails for sources that merge, white noise). Take white noise and a source that merges during the observation.
With 100 steps (the default) or less and at least 10⁷ seconds to merger the reported SNR is more than twice the exact
one. -/
theorem C94_merging (C : Ctx) {s : EvolSrc} (hs : EvolPhys s) (hobs : 0 < C.t_obs) {T : ℝ}
    (hT : get_t_merge_circ C.K none (some fun _ : Fin 1 => s.m_1) (some fun _ => s.m_2) none (some fun _ => s.f_orb_i)
      = .ok fun _ => T) (hbig : 1e7 ≤ T) (hmerge : T - 1 ≤ C.t_obs) {S : ℝ} (hS : 0 < S)
    (hN : ∀ f, 2 * s.f_orb_i ≤ f → f ≤ 2 * chirp s.f_orb_i T (T - 1) → noise C f = .ok (S : ℝ))
    (hig : C.interpolated_g = none) {n : ℕ} (hn : 2 ≤ n) (hn' : n ≤ 100)
    (h100 : ∀ fs, evol_circ C.K AU (some (.array fun _ : Fin 1 => T - 1)) n none none
      (some fun _ => s.m_1) (some fun _ => s.m_2) none (some fun _ => s.f_orb_i) ["f_orb"]
      = .ok (.one fs) → (100 : ℝ) ∉ fs 0) :
    ∃ (ρ : ℝ → ℝ) (v : ℝ), (∀ t ∈ Icc 0 (T - 1),
        snr_circ_stationary C [⟨chirp_mass s.m_1 s.m_2, chirp s.f_orb_i T t, s.dist, {}⟩] = .ok [some (ρ t)]) ∧
      snr_circ_evolving C [s] n none = .ok [some v] ∧
      0 < √(1 / C.t_obs * ∫ t in (0 : ℝ)..(T - 1), ρ t ^ 2) ∧
      2 * √(1 / C.t_obs * ∫ t in (0 : ℝ)..(T - 1), ρ t ^ 2) < v := by
  norm_num at hbig
  obtain ⟨ρ, v, h1, h2, h3, h4, h5⟩ := C94_last_step C hs hobs hT (by linarith) hmerge hn rfl (S := fun _ => S) hS
    continuousOn_const (fun f a b => ⟨le_rfl, hN f a b⟩) le_rfl hig h100
  have hf := last_factor (T := T) (by linarith) hn hn' rfl (b := 101000) (w := 75) (by norm_num) (by linarith) (by norm_num)
    (by norm_num)
  refine ⟨ρ, v, h1, h2, sqrt_pos.2 h4, ?_⟩
  rw [div_self hS.ne', mul_one] at h5
  refine lt_of_pow_lt_pow_left₀ 2 h3 (lt_of_le_of_lt ?_ h5)
  rw [mul_pow, sq_sqrt h4.le]
  exact mul_le_mul_of_nonneg_right (by linarith) h4.le

/-- **C94** (fails for sources that merge, LISA). LISA with the default settings (analytic response), observing for at least
a year, and the default 100 steps: take a source that merges during the observation, more than 0.95 years after its
beginning, reaches 6 mHz before a fiftieth of that time is left and is still below 2 Hz in the last second (black holes of
some hundred to thousand solar masses). The reported SNR is more than twice the exact one. -/
theorem C94_merging_lisa (K : Consts) (hc : K.c = 299792458) (env : psd.Env) {s : EvolSrc} (hs : EvolPhys s) {t_obs : ℝ}
    (ht : psd.yr ≤ t_obs) {T : ℝ}
    (hT : get_t_merge_circ K none (some fun _ : Fin 1 => s.m_1) (some fun _ => s.m_2) none (some fun _ => s.f_orb_i)
      = .ok fun _ => T) (hbig : 0.95 * psd.yr ≤ T) (hmerge : T - 1 ≤ t_obs)
    (hlow : 6e-3 ≤ 2 * chirp s.f_orb_i T (0.98 * T)) (hhigh : 2 * chirp s.f_orb_i T (T - 1) ≤ 2)
    (hm : 3.375e-6 * K.c ^ 3 ≤ K.G * chirp_mass s.m_1 s.m_2) :
    let C : Ctx := { K := K, env := env, kw := { approximate_R := true }, t_obs := t_obs }
    ∃ (ρ : ℝ → ℝ) (v : ℝ), (∀ t ∈ Icc 0 (T - 1),
        snr_circ_stationary C [⟨chirp_mass s.m_1 s.m_2, chirp s.f_orb_i T t, s.dist, {}⟩] = .ok [some (ρ t)]) ∧
      snr_circ_evolving C [s] 100 none = .ok [some v] ∧
      0 < √(1 / t_obs * ∫ t in (0 : ℝ)..(T - 1), ρ t ^ 2) ∧
      2 * √(1 / t_obs * ∫ t in (0 : ℝ)..(T - 1), ρ t ^ 2) < v := by
  intro C
  have hyr : psd.yr = 31557600 := by unfold psd.yr; norm_num
  rw [hyr] at hbig
  norm_num at hbig
  have hT0 : 0 < T := by linarith
  obtain ⟨hm1, hm2, hf0, hd⟩ := id hs
  have hπ := pi_pos
  have hbase : 1e-7 ≤ 2 * s.f_orb_i := by
    have e : (T / (T - 0.98 * T)) ^ (3 / 8 : ℝ) ≤ 50 := by
      rw [show T / (T - 0.98 * T) = 50 by field_simp; norm_num]
      calc (50 : ℝ) ^ (3 / 8 : ℝ) ≤ (50 : ℝ) ^ (1 : ℝ) := rpow_le_rpow_of_exponent_le (by norm_num) (by norm_num)
        _ = 50 := rpow_one _
    unfold chirp at hlow
    have : s.f_orb_i * (T / (T - 0.98 * T)) ^ (3 / 8 : ℝ) ≤ s.f_orb_i * 50 := by gcongr
    norm_num at hlow this ⊢
    linarith
  obtain ⟨S, h1, h2, h3, h4⟩ := lisa_between K hc env (t := t_obs) (le_trans (by rw [hyr]; norm_num) ht)
  set u : ℝ := 1 + (T - 1) / ((100 : ℕ) - 1) with hu
  have hu' : u = 1 + (T - 1) / 99 := by rw [hu]; norm_num
  have huT : T - u < T := by rw [hu']; linarith
  have hmid : 6e-3 ≤ 2 * chirp s.f_orb_i T (T - u) :=
    hlow.trans (by have := chirp_mono hf0 hT0 (show 0.98 * T ≤ T - u by rw [hu']; norm_num; linarith) huT; linarith)
  have hmid' : 2 * chirp s.f_orb_i T (T - u) ≤ 1.8e-2 := by
    have hu0 : 0 < u := by rw [hu']; linarith
    have e : chirp s.f_orb_i T (T - 1) = u ^ (3 / 8 : ℝ) * chirp s.f_orb_i T (T - u) := by
      unfold chirp
      rw [show T - (T - u) = u by ring, show T - (T - 1) = 1 by ring, div_one, div_rpow hT0.le hu0.le]
      have : 0 < u ^ (3 / 8 : ℝ) := by positivity
      field_simp
    have hc0 := chirp_pos hf0 hT0 huT
    have h112 : (112 : ℝ) ≤ u ^ (3 / 8 : ℝ) := by
      calc (112 : ℝ) = ((112 : ℝ) ^ (8 : ℕ)) ^ (1 / 8 : ℝ) := by
            rw [← rpow_natCast, ← rpow_mul (by norm_num)]
            norm_num
        _ ≤ (u ^ (3 : ℕ)) ^ (1 / 8 : ℝ) := by
            refine rpow_le_rpow (by positivity) ?_ (by norm_num)
            have : (300000 : ℝ) ≤ u := by rw [hu']; linarith
            calc (112 : ℝ) ^ 8 ≤ 300000 ^ 3 := by norm_num
              _ ≤ _ := by gcongr
        _ = u ^ (3 / 8 : ℝ) := by
            rw [← rpow_natCast, ← rpow_mul hu0.le]
            norm_num
    rw [e] at hhigh
    norm_num at hhigh ⊢
    nlinarith
  have hmono := chirp_mono hf0 hT0 (show 0 ≤ T - 1 by linarith) (by linarith)
  rw [chirp_zero hT0] at hmono
  have h100 : ∀ fs, evol_circ K AU (some (.array fun _ : Fin 1 => T - 1)) 100 none none
      (some fun _ => s.m_1) (some fun _ => s.m_2) none (some fun _ => s.f_orb_i) ["f_orb"]
      = .ok (.one fs) → (100 : ℝ) ∉ fs 0 := by
    have hi : ∀ i : Fin [s].length, [s][i] = s := fun i => by simp
    obtain ⟨fs', e, hlt⟩ := C62_below_100Hz K (by rw [hc]; norm_num) [s] 100 t_obs (by simpa using hs)
      (T := fun _ => T) (by simp only [hi]; exact hT) (by simpa using hm) (fun _ => le_min (by linarith) (by
        rw [hyr] at ht
        linarith))
    simp only [hi, min_eq_left hmerge] at e
    intro fs hfs hmem
    have : fs = fs' := by simpa using hfs.symm.trans e
    subst this
    exact lt_irrefl _ (hlt 0 _ hmem)
  obtain ⟨ρ, v, r1, r2, r3, r4, r5⟩ := C94_last_step C hs (by
      show 0 < t_obs
      rw [hyr] at ht
      linarith) hT (by linarith) hmerge (by norm_num : 2 ≤ 100) hu (S := S) (Slo := 1.2e-40) (by norm_num)
    (slope_continuousOn (by norm_num : (0 : ℝ) ≤ 13) (by linarith)
      ⟨fun f a b => h2.1 f (hbase.trans a) (b.trans hhigh), fun f f' a b c => h2.2 f f' (hbase.trans a) b (c.trans hhigh)⟩)
    (fun f a b => ⟨h3 f (hbase.trans a) (b.trans hhigh), h1 f (hbase.trans a) (b.trans hhigh)⟩)
    (h4 _ hmid hmid') rfl h100
  have hf := last_factor (T := T) (by linarith) (by norm_num : 2 ≤ 100) le_rfl hu (b := 302000) (w := 112) (by norm_num)
    (by linarith) (by norm_num) (by norm_num)
  refine ⟨ρ, v, r1, r2, sqrt_pos.2 r4, ?_⟩
  refine lt_of_pow_lt_pow_left₀ 2 r3 (lt_of_le_of_lt ?_ r5)
  rw [mul_pow, sq_sqrt r4.le]
  refine mul_le_mul_of_nonneg_right ?_ r4.le
  have : (2 : ℝ) ^ 2 ≤ 1 / 15 * (112 - 1) * (1.2e-40 / 2.1e-40) := by norm_num
  exact this.trans (mul_le_mul_of_nonneg_right hf (by norm_num))

/-- Two black holes of 1e31 kg (five solar masses) at a separation between 3e7 m and 1e10 m. -/
private lemma sample {a : ℝ} (h1 : 3e7 ≤ a) (h2 : a ≤ 1e10) :
    ∃ (s : EvolSrc) (T : ℝ), EvolPhys s ∧ get_t_merge_circ .codata2018 none (some fun _ : Fin 1 => s.m_1)
      (some fun _ => s.m_2) none (some fun _ => s.f_orb_i) = .ok (fun _ => T) ∧ T = a ^ 4 / (4 * utils.beta .codata2018 1e31 1e31) ∧
      3.375e-6 * Consts.codata2018.c ^ 3 ≤ Consts.codata2018.G * chirp_mass s.m_1 s.m_2 ∧
      1e-6 ≤ s.f_orb_i ∧ s.f_orb_i ≤ 0.1 := by
  norm_num at h1 h2
  have hm : (0 : ℝ) < 1e31 := by norm_num
  have ha : (0 : ℝ) < a := by linarith
  set f := get_f_orb_from_a .codata2018 a 1e31 1e31 with hf
  have hf0 : 0 < f := get_f_orb_from_a_pos .codata2018 ha hm hm
  have hr : f = √(Consts.codata2018.G * (1e31 + 1e31) / a ^ 3) / (2 * π) := by
    rw [hf, get_f_orb_from_a, sqrt_eq_rpow]
    norm_num
  have hG : Consts.codata2018.G = 6.67430e-11 := rfl
  have hc : Consts.codata2018.c = 299792458 := rfl
  have hπ := pi_gt_three
  have hπ' := pi_lt_four
  have a3 : a ^ 3 ≤ 1e10 ^ 3 := pow_le_pow_left₀ ha.le (by norm_num; linarith) 3
  have a3' : (3e7 : ℝ) ^ 3 ≤ a ^ 3 := pow_le_pow_left₀ (by norm_num) (by norm_num; linarith) 3
  have hroot : get_a_from_f_orb .codata2018 f 1e31 1e31 = a := C01_a_roundtrip .codata2018 ha hm hm
  have hch : (5e30 : ℝ) ≤ chirp_mass 1e31 1e31 := by
    have hp := C03_pos hm hm
    have e := (C03_iff hm hm hp).1 rfl
    apply le_of_pow_le_pow_left₀ (n := 5) (by norm_num) hp.le
    norm_num at e ⊢
    linarith
  refine ⟨{ m_1 := 1e31, m_2 := 1e31, f_orb_i := f, dist := 1e19, ecc := 0 }, _, ⟨hm, hm, hf0, by norm_num⟩,
    by rw [get_t_merge_circ_masses], by simp only; rw [hroot], ?_, ?_, ?_⟩
  · show _ ≤ _ * chirp_mass 1e31 1e31
    rw [hG, hc]
    norm_num at hch ⊢
    linarith
  · show (1e-6 : ℝ) ≤ f
    have hlo : (1e-5 : ℝ) ≤ √(Consts.codata2018.G * (1e31 + 1e31) / a ^ 3) := by
      apply le_sqrt_of_sq_le
      rw [hG, le_div_iff₀ (by positivity)]
      norm_num at a3 ⊢
      linarith
    rw [hr, le_div_iff₀ (by positivity)]
    norm_num at hlo ⊢
    linarith
  · show f ≤ 0.1
    have hhi : √(Consts.codata2018.G * (1e31 + 1e31) / a ^ 3) ≤ 0.5 := by
      rw [sqrt_le_left (by norm_num), hG, div_le_iff₀ (by positivity)]
      norm_num at a3' ⊢
      linarith
    rw [hr, div_le_iff₀ (by positivity)]
    norm_num at hhi ⊢
    linarith

private lemma sample_100 {s : EvolSrc} (hs : EvolPhys s) {T : ℝ} (hT : get_t_merge_circ .codata2018 none
    (some fun _ : Fin 1 => s.m_1) (some fun _ => s.m_2) none (some fun _ => s.f_orb_i) = .ok (fun _ => T))
    (hm : 3.375e-6 * Consts.codata2018.c ^ 3 ≤ Consts.codata2018.G * chirp_mass s.m_1 s.m_2) {t_obs τ : ℝ}
    (hτ : τ = min (T - 1) t_obs) (hτ0 : 0 ≤ τ) (n : ℕ) :
    ∀ fs, evol_circ .codata2018 AU (some (.array fun _ : Fin 1 => τ)) n none none
      (some fun _ => s.m_1) (some fun _ => s.m_2) none (some fun _ => s.f_orb_i) ["f_orb"]
      = .ok (.one fs) → (100 : ℝ) ∉ fs 0 := by
  have hi : ∀ i : Fin [s].length, [s][i] = s := fun i => by simp
  obtain ⟨fs', e, hlt⟩ := C62_below_100Hz .codata2018 (by show (1 : ℝ) ≤ 299792458; norm_num) [s] n t_obs (by simpa using hs)
    (T := fun _ => T) (by simp only [hi]; exact hT) (by simpa using hm) (fun _ => hτ ▸ hτ0)
  simp only [hi, ← hτ] at e
  intro fs hfs hmem
  have : fs = fs' := by simpa using hfs.symm.trans e
  subst this
  exact lt_irrefl _ (hlt 0 _ hmem)

/-- Non-vacuity of `C94_lisa`: black holes of five solar masses, 1e10 m apart, observed for a year. -/
example (env : psd.Env) : ∃ (s : EvolSrc) (T v : ℝ) (ρ : ℝ → ℝ),
    let C : Ctx := { K := .codata2018, env := env, kw := { approximate_R := true }, t_obs := psd.yr }
    EvolPhys s ∧ snr_circ_stationary C [⟨chirp_mass s.m_1 s.m_2, chirp s.f_orb_i T psd.yr, s.dist, {}⟩]
      = .ok [some (ρ psd.yr)] ∧ snr_circ_evolving C [s] 100 none = .ok [some v] ∧
      WithinFactor 1.03 v (√(1 / psd.yr * ∫ t in (0 : ℝ)..psd.yr, ρ t ^ 2)) := by
  obtain ⟨s, T, hs, hT, hTv, hm, h1, h2⟩ := sample (a := 1e10) (by norm_num) le_rfl
  have hyr : psd.yr = 31557600 := by unfold psd.yr; norm_num
  have hbig : 1e15 ≤ T := by
    rw [hTv, utils.beta, show Consts.codata2018.G = 6.67430e-11 from rfl, show Consts.codata2018.c = 299792458 from rfl]
    norm_num
  norm_num at hbig h1 h2
  obtain ⟨ρ, v, hρ, hv, hw⟩ := C94_lisa .codata2018 rfl env hs (t_obs := psd.yr) (by rw [hyr]; norm_num) hT
    (by rw [hyr]; linarith) (by norm_num; linarith) (by norm_num; linarith) (by
      refine le_trans (le_trans ?_ hm) (mul_le_mul_of_nonneg_left ((C03_le hs.1 hs.2.1).trans (div_le_self
        (add_pos hs.1 hs.2.1).le (one_le_rpow (by norm_num) (by norm_num)))) Consts.codata2018.G_pos.le)
      rw [show Consts.codata2018.c = 299792458 from rfl]
      norm_num) (n := 100) le_rfl
  exact ⟨s, T, v, ρ, hs, hρ _ ⟨by rw [hyr]; norm_num, le_rfl⟩, hv, hw⟩

/-- Non-vacuity of `C94_merging`: the same, 3e7 m apart, which merge after two years and are observed for four by an
instrument with the user's white noise. -/
example (env : psd.Env) : ∃ (s : EvolSrc) (T v : ℝ) (ρ : ℝ → ℝ),
    let C : Ctx := { K := .codata2018, env := env, kw := { instrument := "custom", custom_psd := (some fun _ _ _ _ _ =>
      (.ok ((1e-40 : ℝ) : WithTop ℝ))) }, t_obs := 4 * psd.yr }
    EvolPhys s ∧ snr_circ_stationary C [⟨chirp_mass s.m_1 s.m_2, chirp s.f_orb_i T 0, s.dist, {}⟩] = .ok [some (ρ 0)] ∧
      snr_circ_evolving C [s] 100 none = .ok [some v] ∧
      0 < √(1 / C.t_obs * ∫ t in (0 : ℝ)..(T - 1), ρ t ^ 2) ∧
      2 * √(1 / C.t_obs * ∫ t in (0 : ℝ)..(T - 1), ρ t ^ 2) < v := by
  obtain ⟨s, T, hs, hT, hTv, hm, h1, h2⟩ := sample (a := 3e7) le_rfl (by norm_num)
  have hyr : psd.yr = 31557600 := by unfold psd.yr; norm_num
  have hT' : (6e7 : ℝ) ≤ T ∧ T ≤ 7e7 := by
    rw [hTv, utils.beta, show Consts.codata2018.G = 6.67430e-11 from rfl, show Consts.codata2018.c = 299792458 from rfl]
    norm_num
  norm_num at hT'
  let C : Ctx := { K := .codata2018, env := env, kw := { instrument := "custom", custom_psd := (some fun _ _ _ _ _ =>
    (.ok ((1e-40 : ℝ) : WithTop ℝ))) }, t_obs := 4 * psd.yr }
  obtain ⟨ρ, v, hρ, hv, hp, hw⟩ := C94_merging C hs (by show 0 < 4 * psd.yr; rw [hyr]; norm_num) hT (by norm_num; linarith)
    (by show _ ≤ 4 * psd.yr; rw [hyr]; linarith) (S := 1e-40) (by norm_num) (fun f _ _ => rfl) rfl (n := 100) (by norm_num)
    le_rfl (sample_100 hs hT hm (t_obs := 4 * psd.yr) (by rw [min_eq_left]; rw [hyr]; linarith) (by linarith) 100)
  exact ⟨s, T, v, ρ, hs, hρ 0 ⟨le_rfl, by linarith⟩, hv, hp, hw⟩

/-- Non-vacuity of `C94_merging_lisa`: black holes of 3e33 kg (1500 solar masses), 1.8e9 m apart, which merge after
0.98 years, observed for one year. -/
example (env : psd.Env) : ∃ (s : EvolSrc) (T v : ℝ) (ρ : ℝ → ℝ),
    let C : Ctx := { K := .codata2018, env := env, kw := { approximate_R := true }, t_obs := psd.yr }
    EvolPhys s ∧ snr_circ_stationary C [⟨chirp_mass s.m_1 s.m_2, chirp s.f_orb_i T 0, s.dist, {}⟩] = .ok [some (ρ 0)] ∧
      snr_circ_evolving C [s] 100 none = .ok [some v] ∧
      0 < √(1 / C.t_obs * ∫ t in (0 : ℝ)..(T - 1), ρ t ^ 2) ∧
      2 * √(1 / C.t_obs * ∫ t in (0 : ℝ)..(T - 1), ρ t ^ 2) < v := by
  have hm : (0 : ℝ) < 3e33 := by norm_num
  have ha : (0 : ℝ) < 1.8e9 := by norm_num
  have hG : Consts.codata2018.G = 6.67430e-11 := rfl
  have hc : Consts.codata2018.c = 299792458 := rfl
  set f := get_f_orb_from_a .codata2018 1.8e9 3e33 3e33 with hf
  have hf0 : 0 < f := get_f_orb_from_a_pos .codata2018 ha hm hm
  have hr : f = √(Consts.codata2018.G * (3e33 + 3e33) / 1.8e9 ^ 3) / (2 * π) := by
    rw [hf, get_f_orb_from_a, sqrt_eq_rpow]
    norm_num
  have hπ := pi_gt_d2
  have hπ' := pi_lt_d2
  have hflo : 1.3e-3 ≤ f := by
    have : (8.28e-3 : ℝ) ≤ √(Consts.codata2018.G * (3e33 + 3e33) / 1.8e9 ^ 3) := by
      apply le_sqrt_of_sq_le
      rw [hG]
      norm_num
    rw [hr, le_div_iff₀ (by positivity)]
    norm_num at this hπ' ⊢
    linarith
  have hfhi : f ≤ 1.33e-3 := by
    have : √(Consts.codata2018.G * (3e33 + 3e33) / 1.8e9 ^ 3) ≤ 8.3e-3 := by
      rw [sqrt_le_left (by norm_num), hG]
      norm_num
    rw [hr, div_le_iff₀ (by positivity)]
    norm_num at this hπ ⊢
    linarith
  have hroot : get_a_from_f_orb .codata2018 f 3e33 3e33 = 1.8e9 := C01_a_roundtrip .codata2018 ha hm hm
  let s : EvolSrc := { m_1 := 3e33, m_2 := 3e33, f_orb_i := f, dist := 1e25, ecc := 0 }
  have hs : EvolPhys s := ⟨hm, hm, hf0, by norm_num [s]⟩
  set T : ℝ := 1.8e9 ^ 4 / (4 * utils.beta .codata2018 3e33 3e33) with hTd
  have hT : get_t_merge_circ .codata2018 none (some fun _ : Fin 1 => s.m_1) (some fun _ => s.m_2) none
      (some fun _ => s.f_orb_i) = .ok fun _ => T := by
    rw [get_t_merge_circ_masses]
    simp only [s, hroot]
    rfl
  have hyr : psd.yr = 31557600 := by unfold psd.yr; norm_num
  have hTv : (3.05e7 : ℝ) ≤ T ∧ T ≤ 3.12e7 := by
    rw [hTd, utils.beta, hG, hc]
    norm_num
  norm_num at hTv
  have hT0 : 0 < T := by linarith
  have hch : (5e30 : ℝ) ≤ chirp_mass 3e33 3e33 := by
    have hp := C03_pos hm hm
    have e := (C03_iff hm hm hp).1 rfl
    apply le_of_pow_le_pow_left₀ (n := 5) (by norm_num) hp.le
    norm_num at e ⊢
    linarith
  have hlow : 6e-3 ≤ 2 * chirp s.f_orb_i T (0.98 * T) := by
    unfold chirp
    rw [show T / (T - 0.98 * T) = 50 by field_simp; norm_num]
    have : (4 : ℝ) ≤ (50 : ℝ) ^ (3 / 8 : ℝ) := by
      calc (4 : ℝ) = ((4 : ℝ) ^ (8 : ℕ)) ^ (1 / 8 : ℝ) := by
            rw [← rpow_natCast, ← rpow_mul (by norm_num)]
            norm_num
        _ ≤ ((50 : ℝ) ^ (3 : ℕ)) ^ (1 / 8 : ℝ) := rpow_le_rpow (by positivity) (by norm_num) (by norm_num)
        _ = (50 : ℝ) ^ (3 / 8 : ℝ) := by
            rw [← rpow_natCast, ← rpow_mul (by norm_num)]
            norm_num
    show 6e-3 ≤ 2 * (f * _)
    norm_num at hflo ⊢
    nlinarith
  have hhigh : 2 * chirp s.f_orb_i T (T - 1) ≤ 2 := by
    unfold chirp
    rw [show T - (T - 1) = 1 by ring, div_one]
    have : T ^ (3 / 8 : ℝ) ≤ 700 := by
      calc T ^ (3 / 8 : ℝ) = (T ^ (3 : ℕ)) ^ (1 / 8 : ℝ) := by
            rw [← rpow_natCast, ← rpow_mul hT0.le]
            norm_num
        _ ≤ ((700 : ℝ) ^ (8 : ℕ)) ^ (1 / 8 : ℝ) := by
            refine rpow_le_rpow (by positivity) ?_ (by norm_num)
            calc T ^ 3 ≤ 31200000 ^ 3 := by gcongr; exact hTv.2
              _ ≤ _ := by norm_num
        _ = 700 := by
            rw [← rpow_natCast, ← rpow_mul (by norm_num)]
            norm_num
    have h0 : 0 ≤ T ^ (3 / 8 : ℝ) := by positivity
    show 2 * (f * _) ≤ 2
    norm_num at hfhi
    nlinarith
  obtain ⟨ρ, v, h1, h2, h3, h4⟩ := C94_merging_lisa .codata2018 hc env hs (t_obs := psd.yr) le_rfl hT
    (by rw [hyr]; norm_num; linarith) (by rw [hyr]; linarith) hlow hhigh (by
      show _ ≤ _ * chirp_mass 3e33 3e33
      rw [hG, hc]
      norm_num at hch ⊢
      linarith)
  exact ⟨s, T, v, ρ, hs, h1 0 ⟨le_rfl, by linarith⟩, h2, h3, h4⟩

/-- Non-vacuity of `C94_linear`, and thus of `C94_second_order`: an instrument of the user that weighs the signal
frequency `F` with `1 + F`. -/
example (env : psd.Env) : ∃ (s : EvolSrc) (T v : ℝ) (ρ : ℝ → ℝ) (C : Ctx), EvolPhys s ∧ 1 < T ∧ 0 < C.t_obs ∧
    (∀ t ∈ Icc 0 C.t_obs, snr_circ_stationary C [⟨chirp_mass s.m_1 s.m_2, chirp s.f_orb_i T t, s.dist, {}⟩]
      = .ok [some (ρ t)]) ∧
    snr_circ_evolving C [s] 3 none = .ok [some v] ∧ v ^ 2 = 1 / C.t_obs * ∫ t in (0 : ℝ)..C.t_obs, ρ t ^ 2 := by
  obtain ⟨s, T, hs, hT, hTv, hm, h1, h2⟩ := sample (a := 3e7) le_rfl (by norm_num)
  have hyr : psd.yr = 31557600 := by unfold psd.yr; norm_num
  have hT' : (6e7 : ℝ) ≤ T ∧ T ≤ 7e7 := by
    rw [hTv, utils.beta, show Consts.codata2018.G = 6.67430e-11 from rfl, show Consts.codata2018.c = 299792458 from rfl]
    norm_num
  norm_num at hT'
  obtain ⟨hm1, hm2, hf0, hd⟩ := id hs
  have hmc := C03_pos hm1 hm2
  set mc := chirp_mass s.m_1 s.m_2 with hmcd
  let S : ℝ → ℝ := fun F => h_0_val .codata2018 none mc s.dist (F / 2) 0 2 ^ 2 / ((1 + 1 * F) * fn_dot_val .codata2018 mc (F / 2) 0 2)
  let C : Ctx := { K := .codata2018, env := env, kw := { instrument := "custom", custom_psd := (some fun F _ _ _ _ =>
    (.ok ((S F : ℝ) : WithTop ℝ))) }, t_obs := psd.yr }
  have hmin : psd.yr = min (T - 1) psd.yr := by rw [min_eq_right]; rw [hyr]; linarith
  have hW : ∀ g : ℝ, 0 < g → 0 < h_0_val .codata2018 none mc s.dist g 0 2 := by
    intro g hg
    have := Consts.codata2018.G_pos
    have := Consts.codata2018.c_pos
    have hg : g_vals none 2 0 = 1 := by
      show utils.peters_g 2 0 = 1
      rw [C05_circular (by norm_num)]
      simp
    unfold h_0_val
    simp only
    rw [hg]
    push_cast
    positivity
  have hyr0 : 0 < psd.yr := by rw [hyr]; norm_num
  set ρ : ℝ → ℝ := fun t => √(h_0_val .codata2018 none mc s.dist (chirp s.f_orb_i T t) 0 2 ^ 2 * psd.yr
    / S (2 * chirp s.f_orb_i T t)) with hρd
  have hfp : ∀ t ∈ Icc 0 psd.yr, 0 < chirp s.f_orb_i T t := fun t ht => chirp_pos hf0 (by linarith) (by
    have := ht.2
    rw [hyr] at this
    linarith)
  have hSp : ∀ t ∈ Icc 0 psd.yr, 0 < S (2 * chirp s.f_orb_i T t) := by
    intro t ht
    have hf := hfp t ht
    have := hW _ (by positivity : 0 < 2 * chirp s.f_orb_i T t / 2)
    have := fn_dot_two_pos .codata2018 hmc (by positivity : 0 < 2 * chirp s.f_orb_i T t / 2)
    simp only [S]
    positivity
  have hρ : ∀ t ∈ Icc 0 psd.yr, snr_circ_stationary C [⟨mc, chirp s.f_orb_i T t, s.dist, {}⟩] = .ok [some (ρ t)] :=
    fun t ht => snr_of_noise C hyr0.le (hSp t ht) rfl
  obtain ⟨v, hv, he⟩ := C94_linear C hs hyr0 hT (by linarith) (τ := psd.yr) hmin (ρ := ρ) hρ (a := 1) (b := 1) (by
    intro t ht
    have hf := hfp t ht
    refine ⟨_, by simp only [fn_dot]; rfl, ?_⟩
    simp only [hρd]
    have p := hSp t ht
    rw [sq_sqrt (by positivity)]
    have w := hW _ hf
    have d := fn_dot_two_pos .codata2018 hmc hf
    simp only [S, C]
    rw [show 2 * chirp s.f_orb_i T t / 2 = chirp s.f_orb_i T t by ring]
    have pos : 0 < 1 + 1 * (2 * chirp s.f_orb_i T t) := by positivity
    have alg : ∀ x y a r : ℝ, x ≠ 0 → a ≠ 0 → r ≠ 0 → x ^ 2 * y / (x ^ 2 / (a * r)) = y * (a * r) := by
      intro x y a r hx ha hr
      field_simp
    exact alg _ _ _ _ w.ne' pos.ne' d.ne') (n := 3) (by norm_num) (sample_100 hs hT hm (t_obs := psd.yr) hmin hyr0.le 3)
  exact ⟨s, T, v, ρ, C, hs, by linarith, hyr0, hρ, hv, he⟩

end Legwork.Props
