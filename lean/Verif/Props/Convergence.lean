import Verif.Lemmas.Convergence
import Verif.Lemmas.SnrEvolving
import Verif.Lemmas.EvolEcc
import Verif.Props.SnrCircEvolving
import Verif.Props.SnrStationary
import Verif.Props.SnrEccEvolving
import Verif.Props.EvolEcc
import Verif.Props.NoiseRegular

/-!
# Evolving signal-to-noise ratios converge as the number of steps grows: C85
-/

namespace Legwork.Props

open Real MeasureTheory Filter Topology Set Legwork.utils Legwork.strain Legwork.snr Legwork.evol Legwork.Spec

private lemma mem_linspace {τ t : ℝ} (hτ : 0 ≤ τ) {n : ℕ} (h : t ∈ np.linspace τ n) : t ∈ Icc 0 τ := by
  unfold np.linspace at h
  obtain ⟨k, hk, rfl⟩ := List.mem_map.1 h
  rw [List.mem_range] at hk
  rcases Nat.lt_or_ge n 2 with h2 | h2
  · have : k = 0 := by omega
    simp [this, hτ]
  · have hn : (0 : ℝ) < (n : ℝ) - 1 := by
      have : (2 : ℝ) ≤ n := by exact_mod_cast h2
      linarith
    have hk' : (k : ℝ) ≤ (n : ℝ) - 1 := by
      have : ((k + 1 : ℕ) : ℝ) ≤ n := by exact_mod_cast hk
      push_cast at this
      linarith
    refine ⟨by positivity, ?_⟩
    rw [← mul_div_assoc, div_le_iff₀ hn]
    nlinarith

private lemma linspace_le {τ : ℝ} (hτ : 0 ≤ τ) (n : ℕ) : (np.linspace τ n).Pairwise (· ≤ ·) := by
  rcases hτ.eq_or_lt with rfl | h
  · apply List.pairwise_of_forall_mem_list
    intro x hx y hy
    have h1 := mem_linspace le_rfl hx
    have h2 := mem_linspace le_rfl hy
    rw [Icc_self, mem_singleton_iff] at h1 h2
    rw [h1, h2]
  · exact (linspace_mono h n).imp fun h => h.le

private lemma harmonicY_nonneg {C : Ctx} {N : ℝ → WithTop ℝ} (hN : Curve C N) (ig : Option (ℤ → ℝ → ℝ)) (m d : ℝ)
    {k : ℤ} {f e : ℝ → ℝ} {t : ℝ} (h : 0 < k * f t) : 0 ≤ harmonicY C.K ig N m d k f e t := by
  unfold harmonicY
  apply divNoise_nonneg (sq_nonneg _)
  have := hN.pos _ h
  cases hn : N (k * f t) with
  | top => exact le_top
  | coe y =>
    rw [hn] at this
    have hy : 0 < y := by exact_mod_cast this
    show ((0 : ℝ) : WithTop ℝ) ≤ (((k * f t) ^ 2 * y : ℝ) : WithTop ℝ)
    exact_mod_cast (by positivity : 0 ≤ (k * f t) ^ 2 * y)

/-- **C85.** Take any positive noise curve that is bounded away from zero on bands and has countably many jumps, sources
of which number `i` is physical and at least one second from merger, and let no orbital frequency reported for it by
`evol_circ` be exactly the 100 Hz that stands for merged binaries. Let `f` be its orbital frequency: it starts at `f_orb_i`
and grows at the rate `utils.fn_dot`. Let `ρ t` be the SNR that `snr_circ_stationary` reports for the source frozen at
frequency `f t`. As the number of steps grows, the SNR that `snr_circ_evolving` reports tends to
`√(1/t_obs ∫ ρ(t)² dt)` over the time observed (up to one second before merger). -/
theorem C85_circular (C : Ctx) (srcs : List EvolSrc) (hobs : 0 < C.t_obs) {N : ℝ → WithTop ℝ} (hN : Curve C N)
    (hreg : Tame N) {T : Fin srcs.length → ℝ}
    (hT : get_t_merge_circ C.K none (some fun i => srcs[i].m_1) (some fun i => srcs[i].m_2) none
      (some fun i => srcs[i].f_orb_i) = .ok T)
    {t_merge : Option (List ℝ)} (htm : t_merge = none ∨ t_merge = some (List.ofFn T)) (i : Fin srcs.length)
    (hs : EvolPhys srcs[i]) (h1 : 1 ≤ T i)
    (h100 : ∀ n fs, evol_circ C.K AU (some (.array fun i => min (T i - 1) C.t_obs)) n none none
      (some fun i => srcs[i].m_1) (some fun i => srcs[i].m_2) none (some fun i => srcs[i].f_orb_i) ["f_orb"]
      = .ok (.one fs) → (100 : ℝ) ∉ fs i) :
    ∃ (f ρ : ℝ → ℝ) (v : ℕ → ℝ), f 0 = srcs[i].f_orb_i ∧
      (∀ t ∈ Icc 0 (min (T i - 1) C.t_obs),
        ∃ r, fn_dot C.K (chirp_mass srcs[i].m_1 srcs[i].m_2) (f t) 0 [1] = .ok [r] ∧ HasDerivAt f r t) ∧
      (∀ t ∈ Icc 0 (min (T i - 1) C.t_obs),
        snr_circ_stationary C [⟨chirp_mass srcs[i].m_1 srcs[i].m_2, f t, srcs[i].dist, {}⟩] = .ok [some (ρ t)]) ∧
      (∀ n ≥ 1, ∃ vs, snr_circ_evolving C srcs n t_merge = .ok vs ∧ vs[i]? = some (some (v n))) ∧
      Tendsto v atTop (𝓝 (√(1 / C.t_obs * ∫ t in (0 : ℝ)..min (T i - 1) C.t_obs, ρ t ^ 2))) := by
  have hTT : merge_times_circ C srcs t_merge = .ok T := by
    rcases htm with rfl | rfl
    · exact hT
    · simp [merge_times_circ, pure, Except.pure]
  have hTi : T i = get_a_from_f_orb C.K srcs[i].f_orb_i srcs[i].m_1 srcs[i].m_2 ^ 4
      / (4 * utils.beta C.K srcs[i].m_1 srcs[i].m_2) := by
    rw [get_t_merge_circ_masses] at hT
    simp only [Except.ok.injEq] at hT
    rw [← hT]
  obtain ⟨hm1, hm2, hf0, hd⟩ := hs
  have hmc := C03_pos hm1 hm2
  have ha := get_a_from_f_orb_pos C.K hf0 hm1 hm2
  have hb := beta_pos C.K hm1 hm2
  set s := srcs[i] with hsdef
  set τ := min (T i - 1) C.t_obs with hτdef
  have hτ : 0 ≤ τ := le_min (by linarith) hobs.le
  have hτT : τ < T i := lt_of_le_of_lt (min_le_left _ _) (by linarith)
  set A : ℝ → ℝ := a_circ (get_a_from_f_orb C.K s.f_orb_i s.m_1 s.m_2) (utils.beta C.K s.m_1 s.m_2) with hA
  have hin : CircularInspiral (utils.beta C.K s.m_1 s.m_2) (get_a_from_f_orb C.K s.f_orb_i s.m_1 s.m_2) (T i) A := by
    rw [hTi]
    exact a_circ_inspiral ha hb
  have hAp : ∀ t ∈ Icc 0 τ, 0 < A t := fun t ht => hin.pos t (ht.2.trans_lt hτT)
  set f : ℝ → ℝ := fun t => get_f_orb_from_a C.K (A t) s.m_1 s.m_2 with hfdef
  have hfp : ∀ t ∈ Icc 0 τ, 0 < f t := fun t ht => get_f_orb_from_a_pos C.K (hAp t ht) hm1 hm2
  have hder : ∀ (k : ℤ), ∀ t ∈ Icc 0 τ, HasDerivAt (fun s => k * f s)
      (fn_dot_val C.K (chirp_mass s.m_1 s.m_2) (f t) 0 k) t := by
    intro k t ht
    have d := (hasDerivAt_f C.K (a := A) (hAp t ht) hm1 hm2 (hin.ode t (ht.2.trans_lt hτT))).const_mul (k : ℝ)
    refine d.congr_deriv ?_
    have hf := hfp t ht
    have hp := hAp t ht
    rw [fn_dot_val_eq C.K k hf hp hm1 hm2 ((C01_get_f_iff_kepler C.K hf hp hm1 hm2).1 rfl), C04_zero]
    change _ = _ * (3 / 2 * get_f_orb_from_a C.K (A t) s.m_1 s.m_2 / A t ^ 4 * _ * 1)
    field_simp
  have hg : ContinuousOn (fun _ : ℝ => g_vals C.interpolated_g 2 0) (Icc 0 τ) := continuousOn_const
  have hreg2 := harmonic_regular C.K C.interpolated_g hreg s.dist (k := 2) hmc hτ (by norm_num) (f := f) (e := fun _ => 0)
    hfp (hder 2) (fun _ _ => ⟨le_rfl, one_pos⟩) continuousOn_const hg
  obtain ⟨-, hmono, -⟩ := hreg2
  obtain ⟨-, hlim, -⟩ := harmonic_tendsto C.K C.interpolated_g hreg s.dist (k := 2) hmc hτ (by norm_num) (f := f)
    (e := fun _ => 0) hfp (hder 2) (fun _ _ => ⟨le_rfl, one_pos⟩) continuousOn_const hg
  -- the code's frequencies are those of the inspiral
  have hrow : ∀ n, drop_merged_circ (circRow C.K s τ n) = (np.linspace τ n).map f := by
    intro n
    have h100n : (100 : ℝ) ∉ circRow C.K s τ n :=
      h100 n _ (evol_circ_snr C.K srcs (fun i => min (T i - 1) C.t_obs) n)
    rw [drop_merged_circ_of_not_mem h100n]
    unfold circRow
    apply List.map_congr_left
    intro t ht
    apply f_or_merged_of_ne C.K (hAp t (mem_linspace hτ ht)).ne'
    intro e
    apply h100n
    refine List.mem_map.2 ⟨t, ht, ?_⟩
    rw [← hA, e]
    unfold f_or_merged
    simp only
    rw [ite_self, if_pos rfl]
    norm_num
  have hpos2 : ∀ t ∈ Icc 0 τ, (0 : ℝ) < (2 : ℤ) * f t := fun t ht => mul_pos (by norm_num) (hfp t ht)
  have hnn : ∀ n, 0 ≤ trapezoid ((np.linspace τ n).map (harmonicY C.K C.interpolated_g N (chirp_mass s.m_1 s.m_2) s.dist 2
      f fun _ => 0)) ((np.linspace τ n).map fun t => ((2 : ℤ) : ℝ) * f t) := by
    intro n
    apply trapezoid_nonneg
    · intro y hy
      obtain ⟨t, ht, rfl⟩ := List.mem_map.1 hy
      exact harmonicY_nonneg hN _ _ _ (hpos2 t (mem_linspace hτ ht))
    · rw [List.pairwise_map]
      exact (linspace_le hτ n).imp_of_mem fun hx hy hxy =>
        hmono.monotoneOn (mem_linspace hτ hx) (mem_linspace hτ hy) hxy
  refine ⟨f, fun t => √(circ2 C N 1 ⟨chirp_mass s.m_1 s.m_2, f t, s.dist, {}⟩), fun n => √(trapezoid
    ((np.linspace τ n).map (harmonicY C.K C.interpolated_g N (chirp_mass s.m_1 s.m_2) s.dist 2 f fun _ => 0))
    ((np.linspace τ n).map fun t => ((2 : ℤ) : ℝ) * f t)), ?_, ?_, ?_, ?_, ?_⟩
  · show get_f_orb_from_a C.K (A 0) s.m_1 s.m_2 = _
    rw [hin.start]
    exact C01_f_roundtrip C.K hf0 hm1 hm2
  · intro t ht
    refine ⟨fn_dot_val C.K (chirp_mass s.m_1 s.m_2) (f t) 0 1, by simp [fn_dot], ?_⟩
    have := hder 1 t ht
    simpa using this
  · intro t ht
    have hp : (0 : ℝ) < 2 * f t := by have := hfp t ht; linarith
    rw [snr_circ_stationary_eq C _ (N := N) (μ := fun _ => 1) (fun _ _ => hN.ok _)
      (by intro s' hs'; rw [List.mem_singleton] at hs'; subst hs'; rfl)]
    simp only [List.map_cons, List.map_nil]
    rw [sqrt?_nonneg]
    exact divNoise_nonneg (by positivity) (hN.pos _ hp).le
  · intro n hn
    refine ⟨_, snr_circ_evolving_eq C srcs (by omega) t_merge hN.ok hTT, ?_⟩
    simp only [Fin.getElem?_fin, List.getElem?_ofFn, Fin.is_lt, dif_pos, Fin.eta, Option.some.injEq]
    rw [hrow n, List.map_map, List.map_map, ← sqrt?_nonneg (hnn n)]
    rfl
  · have h := (continuous_sqrt.tendsto _).comp hlim
    have e : 1 / C.t_obs * ∫ t in (0 : ℝ)..τ, √(circ2 C N 1 ⟨chirp_mass s.m_1 s.m_2, f t, s.dist, {}⟩) ^ 2
        = ∫ t in (0 : ℝ)..τ, divNoise (h_0_val C.K C.interpolated_g (chirp_mass s.m_1 s.m_2) s.dist (f t) 0 2 ^ 2)
          (N ((2 : ℤ) * f t)) := by
      rw [← intervalIntegral.integral_const_mul]
      apply intervalIntegral.integral_congr
      intro t ht
      rw [uIcc_of_le hτ] at ht
      have hp : (0 : ℝ) < 2 * f t := by have := hfp t ht; linarith
      simp only
      have h0 : 0 ≤ circ2 C N 1 ⟨chirp_mass s.m_1 s.m_2, f t, s.dist, {}⟩ :=
        divNoise_nonneg (by positivity) (hN.pos _ hp).le
      rw [sq_sqrt h0]
      unfold circ2
      rw [divNoise_eq, divNoise_eq]
      push_cast
      field_simp
    rw [e]
    exact h

private lemma mem_repeatLast {τ t : ℝ} (hτ : 0 ≤ τ) {n : ℕ} (h : t ∈ repeatLast τ n) : t ∈ Icc 0 τ := by
  obtain ⟨k, hk, rfl⟩ := List.mem_map.1 h
  rw [List.mem_range] at hk
  apply mem_linspace hτ (n := n)
  refine List.mem_map.2 ⟨if k + 1 < n then k else n - 2, ?_, rfl⟩
  rw [List.mem_range]
  split_ifs <;> omega

private lemma repeatLast_le {τ : ℝ} (hτ : 0 ≤ τ) (n : ℕ) : (repeatLast τ n).Pairwise (· ≤ ·) := by
  unfold repeatLast
  rw [List.pairwise_map]
  refine List.pairwise_lt_range.imp_of_mem ?_
  intro a b ha hb hab
  rw [List.mem_range] at ha hb
  have h2 : 0 ≤ τ / ((n : ℝ) - 1) := by
    apply div_nonneg hτ
    have : (2 : ℝ) ≤ n := by exact_mod_cast (by omega : 2 ≤ n)
    linarith
  apply mul_le_mul_of_nonneg_right _ h2
  have : (if a + 1 < n then a else n - 2) ≤ (if b + 1 < n then b else n - 2) := by split_ifs <;> omega
  exact_mod_cast this

private lemma drop_merged_ecc_of_not_mem {es row : List ℝ} (hl : es.length = row.length) (h : (100 : ℝ) ∉ row) :
    drop_merged_ecc es row = row := by
  unfold drop_merged_ecc
  rcases es with _ | ⟨e, es⟩
  · have : row = [] := List.length_eq_zero_iff.1 hl.symm
    subst this
    rfl
  rcases row with _ | ⟨x, xs⟩
  · simp at hl
  · simp only [List.zipWith_cons_cons]
    conv_rhs => rw [← List.map_id (x :: xs)]
    apply List.map_congr_left
    intro f hf
    rw [if_neg]
    · rfl
    · intro e
      apply h
      norm_num at e
      exact e ▸ hf

/-- **C85** (eccentric). The same for an eccentric source and `snr_ecc_evolving`, when the integrator reproduces the exact
solution `e` of Peters' equation over the time observed (up to 0.1 yr before the merger time used): the SNR over any set
of harmonics tends to `√(1/t_obs ∫ ρ(t)² dt)`, where `ρ t` is the SNR that `snr_ecc_stationary` reports with the same
harmonics for the source frozen at its frequency and eccentricity at time `t`. -/
theorem C85_eccentric (C : Ctx) (odeint : Odeint) (srcs : List EvolSrc) (H : ℕ) (hobs : 0 < C.t_obs)
    {N : ℝ → WithTop ℝ} (hN : Curve C N) (hreg : Tame N) (hig : ContinuousG C.interpolated_g) (np : ℕ) (order : List ℕ)
    (hall : np > 1 → ∀ i < srcs.length, i ∈ order) {T : Fin srcs.length → ℝ} {t_merge : Option (List ℝ)}
    (hT : t_merge = some (List.ofFn T) ∨ t_merge = none ∧ get_t_merge_ecc C.K (fun i => srcs[i].ecc) none
      (some fun i => srcs[i].f_orb_i) none (some fun i => srcs[i].m_1) (some fun i => srcs[i].m_2) 0.15 (1 - 1e-4) true
      = .ok T) (i : Fin srcs.length) (hs : EvolPhys srcs[i]) (h1 : 0.1 * psd.yr ≤ T i) {e : ℝ → ℝ}
    (he0 : e 0 = srcs[i].ecc)
    (he : EccentricInspiral (utils.beta C.K srcs[i].m_1 srcs[i].m_2)
      (c_0 (get_a_from_f_orb C.K srcs[i].f_orb_i srcs[i].m_1 srcs[i].m_2) srcs[i].ecc) 0
      (min (T i - 0.1 * psd.yr) C.t_obs) e)
    (ho : Reproduces odeint (min (T i - 0.1 * psd.yr) C.t_obs) e)
    (h100 : ∀ n ≥ 1, ∀ es fs, evol_ecc C.K odeint (fun i => srcs[i].ecc)
      (some (.array fun i => min (T i - 0.1 * psd.yr) C.t_obs)) n none none
      (some fun i => srcs[i].m_1) (some fun i => srcs[i].m_2) none (some fun i => srcs[i].f_orb_i) ["ecc", "f_orb"]
      np order true false (0.1 * psd.yr) (some T) = .ok (.many [es, fs]) → (100 : ℝ) ∉ fs i) :
    ∃ (f ρ : ℝ → ℝ) (v : ℕ → ℝ), f 0 = srcs[i].f_orb_i ∧
      (∀ t ∈ Icc 0 (min (T i - 0.1 * psd.yr) C.t_obs),
        ∃ r, fn_dot C.K (chirp_mass srcs[i].m_1 srcs[i].m_2) (f t) (e t) [1] = .ok [r] ∧ HasDerivAt f r t) ∧
      (∀ t ∈ Icc 0 (min (T i - 0.1 * psd.yr) C.t_obs),
        snr_ecc_stationary C [⟨chirp_mass srcs[i].m_1 srcs[i].m_2, f t, e t, srcs[i].dist⟩] H false false
          = .ok (.total [some (ρ t)])) ∧
      (∀ n ≥ 1, ∃ vs, snr_ecc_evolving C odeint srcs H n t_merge np order false false = .ok (.total vs) ∧
        vs[i]? = some (some (v n))) ∧
      Tendsto v atTop (𝓝 (√(1 / C.t_obs * ∫ t in (0 : ℝ)..min (T i - 0.1 * psd.yr) C.t_obs, ρ t ^ 2))) := by
  have hTT : merge_times_ecc C srcs t_merge = .ok T := by
    rcases hT with rfl | ⟨rfl, hT⟩
    · simp [merge_times_ecc, pure, Except.pure]
    · exact hT
  obtain ⟨hm1, hm2, hf0, hd⟩ := hs
  have hmc := C03_pos hm1 hm2
  have ha := get_a_from_f_orb_pos C.K hf0 hm1 hm2
  set s := srcs[i] with hsdef
  set τ := min (T i - 0.1 * psd.yr) C.t_obs with hτdef
  have hτ : 0 ≤ τ := le_min (by linarith) hobs.le
  have hb0 := he.bound 0 ⟨le_rfl, hτ⟩
  rw [he0] at hb0
  set c := c_0 (get_a_from_f_orb C.K s.f_orb_i s.m_1 s.m_2) s.ecc with hcdef
  have hc : 0 < c := c_0_pos hb0.1 hb0.2 ha
  set f : ℝ → ℝ := fun t => get_f_orb_from_a C.K (get_a_from_ecc (e t) c) s.m_1 s.m_2 with hfdef
  have hap : ∀ t ∈ Icc 0 τ, 0 < get_a_from_ecc (e t) c := fun t ht =>
    get_a_from_ecc_pos (he.bound t ht).1 (he.bound t ht).2 hc
  have hfp : ∀ t ∈ Icc 0 τ, 0 < f t := fun t ht => get_f_orb_from_a_pos C.K (hap t ht) hm1 hm2
  have hder : ∀ (k : ℤ), 1 ≤ k → ∀ t ∈ Icc 0 τ, HasDerivAt (fun s => k * f s)
      (fn_dot_val C.K (chirp_mass s.m_1 s.m_2) (f t) (e t) k) t := by
    intro k hk t ht
    obtain ⟨r, hr, hd⟩ := C15_frequency_rate C.K hm1 hm2 hc he ht k hk
    simp only [fn_dot, List.any_cons, List.any_nil, not_lt.2 hk, Bool.or_false, if_false, List.map_cons,
      List.map_nil, Except.ok.injEq, List.cons.injEq, and_true, decide_false, Bool.false_eq_true] at hr
    rw [hr]
    exact hd
  have heb : ∀ t ∈ Icc 0 τ, 0 ≤ e t ∧ e t < 1 := fun t ht => ⟨(he.bound t ht).1.le, (he.bound t ht).2⟩
  have hec : ContinuousOn e (Icc 0 τ) := fun t ht => (he.ode t ht).continuousAt.continuousWithinAt
  have hg : ∀ k, ContinuousOn (fun t => g_vals C.interpolated_g k (e t)) (Icc 0 τ) := fun k =>
    (continuousOn_g_vals hig k).comp hec heb
  have hk1 : ∀ k ∈ harmonics H, 1 ≤ k := by
    intro k hk
    obtain ⟨j, -, rfl⟩ := List.mem_map.1 hk
    omega
  -- the times
  obtain ⟨L, hL, hLdef⟩ : ∃ L : ℕ → List ℝ, (∀ n, eccTimes C (T i) n = L n) ∧
      ((∀ n, L n = Legwork.np.linspace τ n) ∨ (∀ n, L n = repeatLast τ n)) := by
    refine ⟨fun n => if τ < T i - 0.1 * psd.yr then Legwork.np.linspace τ n else repeatLast τ n, fun n => ?_, ?_⟩
    · exact clamp_linspace hτ rfl (min_le_left _ _) n
    · by_cases h : τ < T i - 0.1 * psd.yr
      · exact Or.inl fun n => if_pos h
      · exact Or.inr fun n => if_neg h
  have hLmem : ∀ n, ∀ t ∈ L n, t ∈ Icc 0 τ := by
    intro n t ht
    rcases hLdef with h | h
    · rw [h] at ht; exact mem_linspace hτ ht
    · rw [h] at ht; exact mem_repeatLast hτ ht
  have hLle : ∀ n, (L n).Pairwise (· ≤ ·) := by
    intro n
    rcases hLdef with h | h
    · rw [h]; exact linspace_le hτ n
    · rw [h]; exact repeatLast_le hτ n
  -- what the integrator returns
  have hrow : ∀ n, eccRow C odeint s (T i) n = (L n).map e := by
    intro n
    unfold eccRow
    rw [hL, ← he0, ho _ _ ?_ ?_ ⟨hLle n, fun t ht => ?_⟩ (hLmem n), List.map_map]
    · rfl
    · rw [he0]
      exact ⟨_, _, beta_pos C.K hm1 hm2, hc, rfl⟩
    · rw [he0]
      exact (C15_de_dt_is_peters he.bound).2 he
    · rw [← hL, List.head?_eq_getElem?] at ht
      rcases Nat.eq_zero_or_pos n with rfl | hn
      · simp [eccTimes, clamp_row, Legwork.np.linspace] at ht
      · rw [eccTimes_head hn.ne'] at ht
        exact (Option.some.inj ht).symm
  have hnot : ∀ n, 1 ≤ n → (100 : ℝ) ∉ ((L n).map e).map (eccFreq C.K s) := by
    intro n hn
    rw [← hrow]
    exact h100 n hn _ _ (evol_ecc_snr C odeint srcs (by omega) np order hall T)
  have hfreq : ∀ n, 1 ≤ n → eccFreqs C odeint s (T i) n = (L n).map f := by
    intro n hn
    unfold eccFreqs
    rw [hrow, drop_merged_ecc_of_not_mem (by simp) (hnot n hn), List.map_map]
    apply List.map_congr_left
    intro t ht
    refine f_or_merged_of_ne C.K (hap t (hLmem n t ht)).ne' ?_
    intro e'
    apply hnot n hn
    rw [List.map_map]
    refine List.mem_map.2 ⟨t, ht, ?_⟩
    show f_or_merged _ _ (get_a_from_ecc (e t) c) _ _ = 100
    rw [e']
    unfold f_or_merged
    simp only
    rw [ite_self, if_pos rfl]
    norm_num
  have hsnr : ∀ n, 1 ≤ n → ∀ k, eccSnr2 C odeint N s (T i) n k
      = trapezoid ((L n).map (harmonicY C.K C.interpolated_g N (chirp_mass s.m_1 s.m_2) s.dist k f e))
        ((L n).map fun t => k * f t) := by
    intro n hn k
    unfold eccSnr2
    rw [hfreq n hn, hrow, List.map_map, List.zip_map', List.map_map]
    rfl
  have hlim : ∀ k ∈ harmonics H,
      IntervalIntegrable (fun t => divNoise (h_0_val C.K C.interpolated_g (chirp_mass s.m_1 s.m_2) s.dist (f t) (e t) k ^ 2)
        (N (k * f t))) volume 0 τ ∧
      Tendsto (fun n => trapezoid
        ((L n).map (harmonicY C.K C.interpolated_g N (chirp_mass s.m_1 s.m_2) s.dist k f e))
        ((L n).map fun t => k * f t)) atTop (𝓝 (∫ t in (0 : ℝ)..τ,
          divNoise (h_0_val C.K C.interpolated_g (chirp_mass s.m_1 s.m_2) s.dist (f t) (e t) k ^ 2) (N (k * f t)))) := by
    intro k hk
    obtain ⟨t1, t2, t3⟩ := harmonic_tendsto C.K C.interpolated_g hreg s.dist hmc hτ (hk1 k hk) hfp (hder k (hk1 k hk)) heb
      hec (hg k)
    refine ⟨t1, ?_⟩
    rcases hLdef with h | h
    · simp only [h]; exact t2
    · simp only [h]; exact t3
  have hkp : ∀ k ∈ harmonics H, ∀ t ∈ Icc 0 τ, (0 : ℝ) < k * f t := fun k hk t ht =>
    mul_pos (by exact_mod_cast (by have := hk1 k hk; omega : 0 < k)) (hfp t ht)
  have hnn : ∀ n, 0 ≤ ((harmonics H).map fun k => trapezoid
      ((L n).map (harmonicY C.K C.interpolated_g N (chirp_mass s.m_1 s.m_2) s.dist k f e))
      ((L n).map fun t => k * f t)).sum := by
    intro n
    apply List.sum_nonneg
    intro x hx
    obtain ⟨k, hk, rfl⟩ := List.mem_map.1 hx
    obtain ⟨-, hmono, -⟩ := harmonic_regular C.K C.interpolated_g hreg s.dist hmc hτ (hk1 k hk) hfp (hder k (hk1 k hk)) heb
      hec (hg k)
    apply trapezoid_nonneg
    · intro y hy
      obtain ⟨t, ht, rfl⟩ := List.mem_map.1 hy
      exact harmonicY_nonneg hN _ _ _ (hkp k hk t (hLmem n t ht))
    · rw [List.pairwise_map]
      exact (hLle n).imp_of_mem fun hx hy hxy => hmono.monotoneOn (hLmem n _ hx) (hLmem n _ hy) hxy
  have hst : ∀ t ∈ Icc 0 τ, 0 ≤ ((harmonics H).map fun k =>
      ecc2 C N ⟨chirp_mass s.m_1 s.m_2, f t, e t, s.dist⟩ k).sum := by
    intro t ht
    apply List.sum_nonneg
    intro x hx
    obtain ⟨k, hk, rfl⟩ := List.mem_map.1 hx
    exact divNoise_nonneg (by positivity) (hN.pos _ (hkp k hk t ht)).le
  refine ⟨f, fun t => √(((harmonics H).map fun k =>
      ecc2 C N ⟨chirp_mass s.m_1 s.m_2, f t, e t, s.dist⟩ k).sum), fun n => √(((harmonics H).map fun k => trapezoid
      ((L n).map (harmonicY C.K C.interpolated_g N (chirp_mass s.m_1 s.m_2) s.dist k f e))
      ((L n).map fun t => k * f t)).sum), ?_, ?_, ?_, ?_, ?_⟩
  · show get_f_orb_from_a C.K (get_a_from_ecc (e 0) c) s.m_1 s.m_2 = _
    rw [he0, hcdef, C02_a_roundtrip hb0.1 hb0.2]
    exact C01_f_roundtrip C.K hf0 hm1 hm2
  · intro t ht
    refine ⟨fn_dot_val C.K (chirp_mass s.m_1 s.m_2) (f t) (e t) 1, by simp [fn_dot], ?_⟩
    have := hder 1 le_rfl t ht
    simpa using this
  · intro t ht
    rw [snr_ecc_stationary_eq C _ H false false hN.ok]
    simp only [finish, Bool.false_eq_true, if_false, List.map_cons, List.map_nil, pure, Except.pure]
    rw [sqrt?_nonneg (hst t ht)]
  · intro n hn
    rw [snr_ecc_evolving_eq C odeint srcs H (by omega) t_merge np order hall false false hN.ok hTT]
    simp only [finish, Bool.false_eq_true, if_false, pure, Except.pure]
    refine ⟨_, rfl, ?_⟩
    simp only [List.map_ofFn, Fin.getElem?_fin, List.getElem?_ofFn, Fin.is_lt, dif_pos, Fin.eta, Option.some.injEq,
      Function.comp]
    rw [← sqrt?_nonneg (hnn n)]
    simp only [← hsnr n hn]
    rfl
  · have h := (continuous_sqrt.tendsto _).comp (list_tendsto hlim).2
    have e1 : 1 / C.t_obs * ∫ t in (0 : ℝ)..τ, √(((harmonics H).map fun k =>
          ecc2 C N ⟨chirp_mass s.m_1 s.m_2, f t, e t, s.dist⟩ k).sum) ^ 2
        = ∫ t in (0 : ℝ)..τ, ((harmonics H).map fun k => divNoise (h_0_val C.K C.interpolated_g (chirp_mass s.m_1 s.m_2)
          s.dist (f t) (e t) k ^ 2) (N (k * f t))).sum := by
      rw [← intervalIntegral.integral_const_mul]
      apply intervalIntegral.integral_congr
      intro t ht
      rw [uIcc_of_le hτ] at ht
      simp only
      rw [sq_sqrt (hst t ht), ← List.sum_map_mul_left]
      congr 1
      apply List.map_congr_left
      intro k _
      unfold ecc2
      rw [divNoise_eq, divNoise_eq]
      field_simp
    rw [e1]
    exact h

/-- **C85** (default LISA). The hypotheses of `C85_circular` hold for the default LISA curve with the analytic response and
every binary at least one second from merger with a chirp mass of at least `3.375e-6 c³/G` (0.69 solar masses). -/
theorem C85_circular_lisa (K : Consts) (hc1 : 1 ≤ K.c) (env : psd.Env) {t_obs : ℝ} (hobs : 0 < t_obs) (s : EvolSrc)
    (hs : EvolPhys s) (hm : 3.375e-6 * K.c ^ 3 ≤ K.G * chirp_mass s.m_1 s.m_2) {T : ℝ}
    (hT : get_t_merge_circ K none (some fun _ : Fin 1 => s.m_1) (some fun _ => s.m_2) none (some fun _ => s.f_orb_i)
      = .ok fun _ => T) (h1 : 1 ≤ T) :
    let C : Ctx := { K := K, env := env, kw := { approximate_R := true }, t_obs := t_obs }
    ∃ (f ρ : ℝ → ℝ) (v : ℕ → ℝ), f 0 = s.f_orb_i ∧
      (∀ t ∈ Icc 0 (min (T - 1) t_obs), ∃ r, fn_dot K (chirp_mass s.m_1 s.m_2) (f t) 0 [1] = .ok [r] ∧ HasDerivAt f r t) ∧
      (∀ t ∈ Icc 0 (min (T - 1) t_obs),
        snr_circ_stationary C [⟨chirp_mass s.m_1 s.m_2, f t, s.dist, {}⟩] = .ok [some (ρ t)]) ∧
      (∀ n ≥ 1, snr_circ_evolving C [s] n none = .ok [some (v n)]) ∧
      Tendsto v atTop (𝓝 (√(1 / t_obs * ∫ t in (0 : ℝ)..min (T - 1) t_obs, ρ t ^ 2))) := by
  intro C
  obtain ⟨N, hN, hreg⟩ := C85_builtin_noise C rfl (fun L h => by cases h)
    (Or.inl ⟨rfl, by simp [C, psd.NoiseArg.resolve, Recognised], fun _ _ => Or.inl rfl⟩)
  have hi : ∀ i : Fin [s].length, [s][i] = s := fun i => by simp
  have hT' : get_t_merge_circ K none (some fun i : Fin [s].length => [s][i].m_1) (some fun i => [s][i].m_2) none
      (some fun i => [s][i].f_orb_i) = .ok fun _ => T := by
    simp only [hi]
    exact hT
  have hb : ∀ n, _ := fun n => C62_below_100Hz K hc1 [s] n t_obs (by simpa using hs) (T := fun _ => T)
    hT' (by simpa using hm) (fun _ => le_min (by linarith) hobs.le)
  obtain ⟨f, ρ, v, h0, hd, hst, hev, hlim⟩ := C85_circular C [s] hobs hN hreg (T := fun _ => T)
    hT' (Or.inl rfl) 0 hs h1 (by
      intro n fs hfs hmem
      obtain ⟨fs', e, hlt⟩ := hb n
      have : fs = fs' := by simpa using hfs.symm.trans e
      subst this
      exact lt_irrefl _ (hlt 0 _ hmem))
  refine ⟨f, ρ, v, h0, hd, hst, fun n hn => ?_, hlim⟩
  obtain ⟨vs, e, hv⟩ := hev n hn
  rw [e]
  have hl : vs.length = 1 := by
    rw [snr_circ_evolving_eq C [s] (by omega) none hN.ok (T := fun _ => T) hT'] at e
    simp only [Except.ok.injEq] at e
    rw [← e]
    simp
  obtain ⟨x, rfl⟩ := List.length_eq_one_iff.1 hl
  have : x = some (v n) := by simpa using hv
  rw [this]

/-- Non-vacuity of `C85_eccentric`: every eccentric source below 100 Hz (and not at a separation of exactly
1e-30 AU, the code's other marker) and every merger time beyond 0.1 yr have an
observation time, a solution of Peters' equation and an integrator that meet its hypotheses. -/
theorem C85_eccentric_hypotheses (K : Consts) (s : EvolSrc) (hs : EvolPhys s) (h0 : 0 < s.ecc) (h1 : s.ecc < 1)
    (hf : s.f_orb_i < 100) (hmark : get_a_from_f_orb K s.f_orb_i s.m_1 s.m_2 ≠ 1e-30 * AU) {T : ℝ} (hT : 0.1 * psd.yr < T) (np : ℕ) (order : List ℕ) (hall : np > 1 → 0 ∈ order) :
    ∃ (t_obs : ℝ) (e : ℝ → ℝ) (odeint : Odeint), 0 < t_obs ∧ e 0 = s.ecc ∧
      EccentricInspiral (utils.beta K s.m_1 s.m_2) (c_0 (get_a_from_f_orb K s.f_orb_i s.m_1 s.m_2) s.ecc) 0
        (min (T - 0.1 * psd.yr) t_obs) e ∧
      Reproduces odeint (min (T - 0.1 * psd.yr) t_obs) e ∧
      ∀ n ≥ 1, ∀ es fs, evol_ecc K odeint (fun i : Fin [s].length => [s][i].ecc)
        (some (.array fun _ => min (T - 0.1 * psd.yr) t_obs)) n none none (some fun i => [s][i].m_1)
        (some fun i => [s][i].m_2) none (some fun i => [s][i].f_orb_i) ["ecc", "f_orb"]
        np order true false (0.1 * psd.yr) (some fun _ => T) = .ok (.many [es, fs]) → (100 : ℝ) ∉ fs 0 := by
  obtain ⟨hm1, hm2, hf0, -⟩ := hs
  have ha := get_a_from_f_orb_pos K hf0 hm1 hm2
  have hb := beta_pos K hm1 hm2
  have hc := c_0_pos h0 h1 ha
  set c := c_0 (get_a_from_f_orb K s.f_orb_i s.m_1 s.m_2) s.ecc with hcdef
  obtain ⟨e, Te, hTe, he0, hsol⟩ := C15_solutions_exist hb hc h0 h1
  -- separations stay above the code's marker and frequencies below 100 Hz for a while
  have hec : ContinuousAt e 0 := ((hsol 0 hTe).deriv ⟨le_rfl, le_rfl⟩).continuousAt
  have had := C15_separation_rate hb hc (hsol 0 hTe) (t := 0) ⟨le_rfl, le_rfl⟩
  have hap : 0 < get_a_from_ecc (e 0) c := by rw [he0]; exact get_a_from_ecc_pos h0 h1 hc
  have hfd := hasDerivAt_f K (a := fun s => get_a_from_ecc (e s) c) hap hm1 hm2 had
  have hf00 : get_f_orb_from_a K (get_a_from_ecc (e 0) c) s.m_1 s.m_2 = s.f_orb_i := by
    rw [he0, hcdef, C02_a_roundtrip h0 h1]
    exact C01_f_roundtrip K hf0 hm1 hm2
  have hev : ∀ᶠ t in 𝓝 (0 : ℝ), get_f_orb_from_a K (get_a_from_ecc (e t) c) s.m_1 s.m_2 < 100 :=
    hfd.continuousAt.eventually (gt_mem_nhds (by simp only; rw [hf00]; exact hf))
  have hev' : ∀ᶠ t in 𝓝 (0 : ℝ), get_a_from_ecc (e t) c ≠ 1e-30 * AU :=
    had.continuousAt.eventually_ne (by rw [he0, hcdef, C02_a_roundtrip h0 h1]; exact hmark)
  obtain ⟨δ, hδ, hball⟩ := Metric.eventually_nhds_iff.1 (hev.and hev')
  have hto : 0 < min Te δ / 2 := by have := lt_min hTe hδ; linarith
  have hlt1 : min Te δ / 2 < Te := by have := lt_min hTe hδ; have := min_le_left Te δ; linarith
  have hlt2 : min Te δ / 2 < δ := by have := lt_min hTe hδ; have := min_le_right Te δ; linarith
  have hsol' := hsol (min (T - 0.1 * psd.yr) (min Te δ / 2)) ((min_le_right _ _).trans_lt hlt1)
  have hrep : Reproduces (fun _ _ ts => ts.map fun t => some (e t)) (min (T - 0.1 * psd.yr) (min Te δ / 2)) e :=
    fun _ _ _ _ _ _ => rfl
  refine ⟨min Te δ / 2, e, fun _ _ ts => ts.map fun t => some (e t), hto, he0, hsol', hrep, ?_⟩
  intro n hn es fs h hmem
  have hτ : 0 ≤ min (T - 0.1 * psd.yr) (min Te δ / 2) := le_min (by linarith) hto.le
  have heq := evol_ecc_snr { K := K, env := ⟨.error .TypeError, fun _ _ _ => 0⟩, t_obs := min Te δ / 2 }
    (fun _ _ ts => ts.map fun t => some (e t)) [s] (n := n) (by omega) np order
    (by
      intro h i hi
      have : i = 0 := by simpa using hi
      subst this
      exact hall h) (fun _ => T)
  have := h.symm.trans heq
  simp only [Except.ok.injEq, EvolOut.many.injEq, List.cons.injEq, and_true] at this
  rw [this.2] at hmem
  obtain ⟨x, hx, hx100⟩ := List.mem_map.1 hmem
  unfold eccRow at hx
  rw [List.map_map] at hx
  obtain ⟨t, ht, rfl⟩ := List.mem_map.1 hx
  have ht' : t ∈ Icc 0 (min (T - 0.1 * psd.yr) (min Te δ / 2)) := by
    unfold eccTimes at ht
    rw [clamp_linspace hτ rfl (min_le_left _ _)] at ht
    split_ifs at ht
    · exact mem_linspace hτ ht
    · exact mem_repeatLast hτ ht
  have hb' := hball (y := t) (by
    rw [dist_zero_right, norm_eq_abs, abs_of_nonneg ht'.1]
    exact (ht'.2.trans (min_le_right _ _)).trans_lt hlt2)
  have hpos := get_a_from_ecc_pos (hsol'.bound t ht').1 (hsol'.bound t ht').2 hc
  have : eccFreq K s (e t) < 100 := by
    unfold eccFreq
    rw [← hcdef, f_or_merged_of_ne K hpos.ne' hb'.2]
    exact hb'.1
  exact absurd hx100 this.ne

end Legwork.Props
