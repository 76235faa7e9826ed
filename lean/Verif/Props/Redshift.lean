import Verif.Lemmas.Redshift
import Verif.Props.Steps
import Verif.Spec.Strain

/-!
# Redshifted binaries (C103)
-/

namespace Legwork.Props

open Real Legwork.snr Legwork.strain Legwork.utils Legwork.evol Legwork.Spec Legwork.Lemmas

variable {κ : ℝ} {ι : Type}

/-- **C103** (orbits). With `κ` times the masses and `κ` times lower frequencies, chirp mass and separation are `κ` times as
large, the frequency of a separation `κ` times as large is `κ` times lower, and the chirp of every harmonic is `κ²` times
slower. -/
theorem C103_orbits (K : Consts) (hκ : 0 < κ) {m₁ m₂ f a : ℝ} (h₁ : 0 < m₁) (h₂ : 0 < m₂) (hf : 0 < f) (ha : 0 < a) :
    chirp_mass (κ * m₁) (κ * m₂) = κ * chirp_mass m₁ m₂ ∧
    get_a_from_f_orb K (f / κ) (κ * m₁) (κ * m₂) = κ * get_a_from_f_orb K f m₁ m₂ ∧
    get_f_orb_from_a K (κ * a) (κ * m₁) (κ * m₂) = get_f_orb_from_a K a m₁ m₂ / κ ∧
    ∀ e ns, fn_dot K (κ * chirp_mass m₁ m₂) (f / κ) e ns = (fn_dot K (chirp_mass m₁ m₂) f e ns).map (List.map (· / κ ^ 2)) := by
  refine ⟨chirp_mass_red hκ h₁ h₂, a_red K hκ hf h₁ h₂, f_red K hκ ha h₁ h₂, fun e ns => ?_⟩
  unfold fn_dot
  split_ifs
  · rfl
  · show Except.ok _ = Except.ok _
    rw [List.map_map]
    congr 1
    refine List.map_congr_left fun n _ => ?_
    have := C03_pos h₁ h₂
    exact fn_dot_red K hκ this.le hf.le n

theorem check_red (K : Consts) (hκ : 0 < κ) {m₁ m₂ f : ι → ℝ} (h₁ : ∀ i, 0 < m₁ i) (h₂ : ∀ i, 0 < m₂ i) (hf : ∀ i, 0 < f i) :
    check_mass_freq_input K none (some fun i => κ * m₁ i) (some fun i => κ * m₂ i) none (some fun i => f i / κ)
      = .ok (fun i => κ ^ 3 * utils.beta K (m₁ i) (m₂ i), fun i => κ * get_a_from_f_orb K (f i) (m₁ i) (m₂ i)) := by
  show Except.ok (_, _) = Except.ok (_, _)
  congr 2
  · funext i
    exact beta_red K _ _
  · funext i
    exact a_red K hκ (hf i) (h₁ i) (h₂ i)

/-- **C103** (merger times). Merger times are `κ` times as long, circular or eccentric, from the exact integral or from the
fit, with any tolerances. -/
theorem C103_merger_times (K : Consts) (hκ : 0 < κ) {m₁ m₂ f : ι → ℝ} (h₁ : ∀ i, 0 < m₁ i) (h₂ : ∀ i, 0 < m₂ i)
    (hf : ∀ i, 0 < f i) :
    (∃ T, get_t_merge_circ K none (some m₁) (some m₂) none (some f) = .ok T ∧
      get_t_merge_circ K none (some fun i => κ * m₁ i) (some fun i => κ * m₂ i) none (some fun i => f i / κ)
        = .ok fun i => κ * T i) ∧
    ∀ (ecc : ι → ℝ) (small large : ℝ) (exact : Bool), ∃ T,
      get_t_merge_ecc K ecc none (some f) none (some m₁) (some m₂) small large exact = .ok T ∧
      get_t_merge_ecc K ecc none (some fun i => f i / κ) none (some fun i => κ * m₁ i) (some fun i => κ * m₂ i) small large
        exact = .ok fun i => κ * T i := by
  have hck := check_red K hκ h₁ h₂ hf
  constructor
  · refine ⟨_, rfl, ?_⟩
    unfold get_t_merge_circ
    rw [hck, ok_bind]
    refine congrArg Except.ok (funext fun i => ?_)
    exact tmerge_red hκ
  · intro ecc small large exact
    by_cases hz : ∀ i, ecc i = 0
    · refine ⟨fun i => get_a_from_f_orb K (f i) (m₁ i) (m₂ i) ^ 4 / (4 * utils.beta K (m₁ i) (m₂ i)), ?_, ?_⟩
      · unfold get_t_merge_ecc
        rw [show check_mass_freq_input K none (some m₁) (some m₂) none (some f) = .ok (_, _) from rfl, ok_bind]
        simp only
        rw [if_pos hz]
        rfl
      · unfold get_t_merge_ecc
        rw [hck, ok_bind]
        simp only
        rw [if_pos hz]
        refine congrArg Except.ok (funext fun i => ?_)
        exact tmerge_red hκ
    · refine ⟨_, by
        unfold get_t_merge_ecc
        rw [show check_mass_freq_input K none (some m₁) (some m₂) none (some f) = .ok (_, _) from rfl, ok_bind]
        simp only
        rw [if_neg hz]
        rfl, ?_⟩
      unfold get_t_merge_ecc
      rw [hck, ok_bind]
      simp only
      rw [if_neg hz]
      refine congrArg Except.ok (funext fun i => ?_)
      cases exact <;> simp only [np.maskAssign, Bool.false_eq_true, if_true, if_false] <;> split_ifs <;>
        try simp only [mul_zero, c_0_red, tmerge_red hκ, t_small_red hκ, t_large_red hκ, t_exact_red hκ, t_fit_red hκ]
      all_goals simp [t_small, t_large, t_exact]

/-- **C103** (Peters' equation). The eccentricity changes `κ` times more slowly. -/
theorem C103_de_dt (K : Consts) (hκ : 0 < κ) {m₁ m₂ f : ℝ} (h₁ : 0 < m₁) (h₂ : 0 < m₂) (hf : 0 < f) (e e₀ : ℝ) :
    de_dt e (utils.beta K (κ * m₁) (κ * m₂)) (c_0 (get_a_from_f_orb K (f / κ) (κ * m₁) (κ * m₂)) e₀)
      = de_dt e (utils.beta K m₁ m₂) (c_0 (get_a_from_f_orb K f m₁ m₂) e₀) / κ := by
  rw [beta_red, a_red K hκ hf h₁ h₂, c_0_red, de_dt_red hκ]

/-- **C103** (strains). The strain and the characteristic strain of every harmonic at every timestep are those of the source
at its comoving distance, whatever its orientation. -/
theorem C103_strains (K : Consts) (ig : Option (ℤ → ℝ → ℝ)) (hκ : 0 < κ) (ns : List ℤ) {rows : List Row}
    (hr : ∀ r ∈ rows, PhysRow r) :
    h_0_n K ig ns (rows.map (redRow κ)) = h_0_n K ig ns rows ∧ h_c_n K ig ns (rows.map (redRow κ)) = h_c_n K ig ns rows := by
  have key : ∀ val : ℝ → ℝ → ℝ → ℝ → ℤ → ℝ, (∀ m d f e n, 0 ≤ m → 0 ≤ f → val (κ * m) (κ * d) (f / κ) e n = val m d f e n) →
      (rows.map (redRow κ)).mapM (row_strain val ns) = rows.mapM (row_strain val ns) := by
    intro val hval
    rw [mapM_map']
    clear * - hr hval
    induction rows with
    | nil => rfl
    | cons r rows ih =>
      have e : row_strain val ns (redRow κ r) = row_strain val ns r := by
        unfold row_strain redRow
        simp only [List.map_map]
        congr 1
        funext m
        congr 1
        refine List.map_congr_left fun p hp => List.map_congr_left fun k _ => ?_
        obtain ⟨q1, q2, q3⟩ := hr r List.mem_cons_self
        simp only [hval _ _ _ _ _ q1.le (q3 p hp).1.le]
      rw [List.mapM_cons, List.mapM_cons, e, ih fun r hr' => hr r (List.mem_cons_of_mem _ hr')]
  constructor
  · unfold h_0_n
    split_ifs
    · rfl
    · exact key _ fun m d f e n hm hf => h_0_red K ig hκ hm hf e n
  · unfold h_c_n
    split_ifs
    · rfl
    · exact key _ fun m d f e n hm hf => h_c_red K ig hκ hm hf e n

/-- **C103** (stationarity). The same sources count as stationary when observed for `κ` times as long, as long as their
frequencies are far below the `1e9` Hz given to merged ones. -/
theorem C103_stationarity (K : Consts) (hκ : 0 < κ) {m₁ m₂ f ecc : ι → ℝ} (h₁ : ∀ i, 0 < m₁ i) (h₂ : ∀ i, 0 < m₂ i)
    (hf : ∀ i, 0 < f i) (t tol : ℝ) (hlow : ∀ i, (1 + tol) * f i < 1e9 ∧ (1 + tol) * (f i / κ) < 1e9) :
    ∃ stat, determine_stationarity K f t ecc (some m₁) (some m₂) none tol = .ok stat ∧
      determine_stationarity K (fun i => f i / κ) (κ * t) ecc (some fun i => κ * m₁ i) (some fun i => κ * m₂ i) none tol
        = .ok stat := by
  refine ⟨_, rfl, ?_⟩
  unfold determine_stationarity
  refine congrArg Except.ok (funext fun i => propext ?_)
  have hk := rpow_pos_of_pos hκ (8 / 3 : ℝ)
  simp only
  rw [chirp_mass_red hκ (h₁ i) (h₂ i)]
  unfold evolve_f_orb_circ
  simp only
  rw [inner_red K hκ (hf i).le (C03_pos (h₁ i) (h₂ i)).le]
  set x := inner_part K (f i) (chirp_mass (m₁ i) (m₂ i)) t (ecc i)
  have hfi := hf i
  rcases lt_trichotomy x 0 with hx | hx | hx
  · rw [if_neg (not_le.2 hx), if_neg (not_le.2 (mul_neg_of_pos_of_neg hk hx))]
    show (1e9 - f i / κ) / (f i / κ) ≤ tol ↔ (1e9 - f i) / f i ≤ tol
    rw [div_le_iff₀ (by positivity), div_le_iff₀ hfi]
    constructor
    · intro h
      linarith [(hlow i).2]
    · intro h
      linarith [(hlow i).1]
  · simp [hx, change_le]
  · rw [if_pos hx.le, if_neg hx.ne', if_pos (mul_pos hk hx).le, if_neg (mul_pos hk hx).ne']
    show ((κ ^ (8 / 3 : ℝ) * x) ^ (-3 / 8 : ℝ) - f i / κ) / (f i / κ) ≤ tol ↔ (x ^ (-3 / 8 : ℝ) - f i) / f i ≤ tol
    rw [mul_rpow hk.le hx.le, ← rpow_mul hκ.le, show (8 / 3 * (-3 / 8) : ℝ) = -1 by norm_num, rpow_neg_one]
    rw [show (κ⁻¹ * x ^ (-3 / 8 : ℝ) - f i / κ) / (f i / κ) = (x ^ (-3 / 8 : ℝ) - f i) / f i by field_simp]

/-- **C103** (separations). After `κ` times the time `evol_circ` gives `κ` times the separation. -/
theorem C103_evol_circ (K : Consts) (u : ℝ) (hκ : 0 < κ) {m₁ m₂ f : ι → ℝ} (h₁ : ∀ i, 0 < m₁ i) (h₂ : ∀ i, 0 < m₂ i)
    (hf : ∀ i, 0 < f i) (ts : ι → List ℝ) (n : ℕ) :
    ∃ a, evol_circ K u none n (some (.grids ts)) none (some m₁) (some m₂) none (some f) ["a"] = .ok (.one a) ∧
      evol_circ K u none n (some (.grids fun i => (ts i).map (κ * ·))) none (some fun i => κ * m₁ i) (some fun i => κ * m₂ i)
        none (some fun i => f i / κ) ["a"] = .ok (.one fun i => (a i).map (κ * ·)) := by
  refine ⟨fun i => (ts i).map (a_circ (get_a_from_f_orb K (f i) (m₁ i) (m₂ i)) (utils.beta K (m₁ i) (m₂ i))), ?_, ?_⟩
  · rw [evol_circ_eq K u _ _ _ _ _ _ _ _ _ (b' := fun i => utils.beta K (m₁ i) (m₂ i))
      (a' := fun i => get_a_from_f_orb K (f i) (m₁ i) (m₂ i)) (ts := ts) rfl (fun _ => ⟨rfl, rfl⟩) rfl]
    simp [isKnown, unwrap, circVal]
  · rw [evol_circ_eq K u _ _ _ _ _ _ _ _ _ (check_red K hκ h₁ h₂ hf) (ts := fun i => (ts i).map (κ * ·))
      (fun _ => ⟨rfl, rfl⟩) rfl]
    simp [isKnown, unwrap, circVal, a_circ_red hκ, Function.comp_def]

theorem circ1_red {C C' : Ctx} (hκ : 0 < κ) (h : Redshifted κ C C') {s : CircSrc} (hs : CircPhys s) :
    circ1 C' (redCirc κ s) = circ1 C s := by
  obtain ⟨h1, h2, h3⟩ := hs
  unfold circ1 redCirc
  simp only
  obtain ⟨v, e1, e2⟩ := h.noise (2 * s.f_orb)
  rw [show 2 * (s.f_orb / κ) = 2 * s.f_orb / κ by ring, e1, e2, h.K, h.g, h.t_obs]
  simp only [h_0_red C.K C.interpolated_g hκ h1.le h2.le, ok_bind]
  congr 1
  funext m
  rw [show ∀ x : ℝ, x * (κ * C.t_obs) = κ * (x * C.t_obs) from fun x => by ring, divNoise_red hκ.ne']

theorem ecc1_red {C C' : Ctx} (hκ : 0 < κ) (h : Redshifted κ C C') {s : EccSrc} (hs : EccPhys s) (H : ℕ) :
    ecc1 C' H (redEcc κ s) = ecc1 C H s := by
  obtain ⟨h1, h2, h3, h4, h5⟩ := hs
  choose N hN hN' using h.noise
  unfold ecc1 redEcc
  simp only
  have e1 : (harmonics H).mapM (fun n : ℤ => noise C (n * s.f_orb)) = .ok ((harmonics H).map fun n : ℤ => N (n * s.f_orb)) :=
    mapM_ok fun n _ => hN _
  have e2 : (harmonics H).mapM (fun n : ℤ => noise C' (n * (s.f_orb / κ)))
      = .ok ((harmonics H).map fun n : ℤ => (N (n * s.f_orb)).map (κ * ·)) :=
    mapM_ok fun n _ => by rw [← mul_div_assoc]; exact hN' _
  rw [e1, e2, ok_bind, ok_bind, h.K, h.g, h.t_obs]
  refine congrArg (fun x => Except.ok (finish1 x)) ?_
  rw [List.zipWith_map_left, List.zipWith_map_left, List.zipWith_map_right, List.zipWith_map_right]
  congr 1
  funext a b
  rw [h_0_red C.K C.interpolated_g hκ h1.le h2.le,
    show ∀ x : ℝ, x * (κ * C.t_obs) = κ * (x * C.t_obs) from fun x => by ring, divNoise_red hκ.ne']

/-- **C103** (stationary sources). The stationary SNRs, circular with or without orientation or eccentric, and the strongest
harmonics are the same in both descriptions. -/
theorem C103_stationary {C C' : Ctx} (hκ : 0 < κ) (h : Redshifted κ C C') :
    (∀ (srcs : List CircSrc) vs, (∀ s ∈ srcs, CircPhys s) →
      (snr_circ_stationary C' (srcs.map (redCirc κ)) = .ok vs ↔ snr_circ_stationary C srcs = .ok vs)) ∧
    ∀ (srcs : List EccSrc) (H : ℕ) out, 0 < H → (∀ s ∈ srcs, EccPhys s) →
      (snr_ecc_stationary C' (srcs.map (redEcc κ)) H true false = .ok out ↔ snr_ecc_stationary C srcs H true false = .ok out) := by
  constructor
  · intro srcs vs hs
    rw [snr_circ_stationary_iff, snr_circ_stationary_iff, mapM_map']
    exact mapM_congr_ok fun s hm b => by rw [circ1_red hκ h (hs s hm)]
  · intro srcs H out hH hs
    rw [snr_ecc_stationary_iff hH, snr_ecc_stationary_iff hH]
    refine exists_congr fun ps => and_congr_left fun _ => ?_
    rw [mapM_map']
    exact mapM_congr_ok fun s hm b => by rw [ecc1_red hκ h (hs s hm)]

/-- **C103** (evolving circular sources). So are the SNRs of evolving circular sources with any number of timesteps, as long as
in both descriptions they stay below 1 Hz and more than a second away from merger. -/
theorem C103_evolving {C C' : Ctx} (hκ : 0 < κ) (h : Redshifted κ C C') (hobs : 0 ≤ C.t_obs) {srcs : List EvolSrc} {n : ℕ}
    (hn : 2 ≤ n) (hs : ∀ s ∈ srcs, EvolPhys s ∧ 1e-20 ≤ C.K.G * (s.m_1 + s.m_2) ∧ 1e-20 ≤ C.K.G * (κ * (s.m_1 + s.m_2)) ∧
      ∃ T, get_t_merge_circ C.K none (some fun _ : Fin 1 => s.m_1) (some fun _ => s.m_2) none (some fun _ => s.f_orb_i)
          = .ok (fun _ => T) ∧
        C.t_obs + 1 ≤ T ∧ κ * C.t_obs + 1 ≤ κ * T ∧ chirp s.f_orb_i T C.t_obs ≤ 1 ∧ chirp s.f_orb_i T C.t_obs ≤ κ)
    (vs : List (Option ℝ)) :
    snr_circ_evolving C' (srcs.map (redEvol κ)) n none = .ok vs ↔ snr_circ_evolving C srcs n none = .ok vs := by
  choose N hN hN' using h.noise
  rw [snr_circ_evolving_none (by omega), snr_circ_evolving_none (by omega), mapM_map']
  refine mapM_congr_ok fun s hm b => ?_
  obtain ⟨hph, hm1, hm2, T, hT, ht1, ht2, hc1, hc2⟩ := hs s hm
  obtain ⟨p1, p2, p3, p4⟩ := id hph
  have hT' := t_merge_eq hT
  have hTc : tCirc C.K s = T := hT'.symm
  have hTr : tCirc C'.K (redEvol κ s) = κ * T := by
    unfold tCirc redEvol
    simp only
    rw [h.K, a_red C.K hκ p3 p1 p2, beta_red, tmerge_red hκ, hT']
  have hph' : EvolPhys (redEvol κ s) := ⟨mul_pos hκ p1, mul_pos hκ p2, div_pos p3 hκ, mul_pos hκ p4⟩
  have hno : ∀ (D : Ctx) (z : EvolSrc) (X : ℝ), EvolPhys z → X = tCirc D.K z → 0 ≤ D.t_obs → D.t_obs + 1 ≤ X →
      chirp z.f_orb_i X D.t_obs ≤ 1 → 1e-20 ≤ D.K.G * (z.m_1 + z.m_2) →
      circFreqs D n z X = (np.linspace D.t_obs n).map (chirp z.f_orb_i X) := by
    intro D z X hz hX h0 hle hch hmm
    have hmin : min (X - 1) D.t_obs = D.t_obs := min_eq_right (by linarith)
    have e := circFreqs_chirp D hz h0 hX (by linarith) hn (by
      rw [hmin]
      intro hmem
      have hi : ∀ i : Fin [z].length, [z][i] = z := fun i => by simp
      have ee := evol_circ_snr D.K [z] (fun _ => D.t_obs) n
      have hcol : ∀ x : EvolSrc → ℝ, column [z] x = fun _ => x z := fun x => by
        funext i
        match i with
        | ⟨0, _⟩ => rfl
      simp only [hcol, hi] at ee
      have := (no_marker D.K hz hX h0 (by linarith) hch hmm hn _ ee 100 hmem).2
      norm_num at this)
    rw [hmin] at e
    exact e
  have e1 := hno C s T hph hTc.symm hobs ht1 hc1 hm1
  have e2 := hno C' (redEvol κ s) (κ * T) hph' hTr.symm (by rw [h.t_obs]; positivity) (by rw [h.t_obs]; exact ht2) (by
    rw [h.t_obs]
    show chirp (s.f_orb_i / κ) _ _ ≤ 1
    rw [chirp_red hκ, div_le_one hκ]
    exact hc2) (by
    rw [h.K]
    show 1e-20 ≤ C.K.G * (κ * s.m_1 + κ * s.m_2)
    rw [← mul_add]
    exact hm2)
  rw [hTr, hTc, circE1_eq, circE1_eq, e1, e2, h.t_obs, linspace_red, h.K, h.g]
  simp only [redEvol, List.map_map]
  rw [mapM_ok (g := fun f => divNoise (h_c_val C.K C.interpolated_g (chirp_mass (κ * s.m_1) (κ * s.m_2)) (κ * s.dist) f 0 2 ^ 2)
      (((N (2 * (κ * f))).map (κ * ·)).map fun n => (2 * f) ^ 2 * n)) (fun f _ => by
        have := hN' (2 * (κ * f))
        rw [show 2 * (κ * f) / κ = 2 * f by field_simp] at this
        rw [this]
        rfl),
    mapM_ok (g := fun f => divNoise (h_c_val C.K C.interpolated_g (chirp_mass s.m_1 s.m_2) s.dist f 0 2 ^ 2)
      ((N (2 * f)).map fun n => (2 * f) ^ 2 * n)) (fun f _ => by rw [hN]; rfl), ok_bind, ok_bind]
  have hfp : ∀ t ∈ np.linspace C.t_obs n, 0 < chirp s.f_orb_i T t := by
    intro t ht
    obtain ⟨q1, q2⟩ := linspace_mem hobs hn ht
    have : 0 < T - t := by linarith
    have : 0 < T := by linarith
    unfold chirp
    positivity
  have key : trapezoid ((np.linspace C.t_obs n).map fun t => κ * divNoise (h_c_val C.K C.interpolated_g (chirp_mass s.m_1 s.m_2)
      s.dist (chirp s.f_orb_i T t) 0 2 ^ 2) ((N (2 * chirp s.f_orb_i T t)).map fun n => (2 * chirp s.f_orb_i T t) ^ 2 * n))
      ((np.linspace C.t_obs n).map fun t => 2 * chirp s.f_orb_i T t / κ)
      = trapezoid ((np.linspace C.t_obs n).map fun t => divNoise (h_c_val C.K C.interpolated_g (chirp_mass s.m_1 s.m_2)
      s.dist (chirp s.f_orb_i T t) 0 2 ^ 2) ((N (2 * chirp s.f_orb_i T t)).map fun n => (2 * chirp s.f_orb_i T t) ^ 2 * n))
      ((np.linspace C.t_obs n).map fun t => 2 * chirp s.f_orb_i T t) := by
    have := trapezoid_red hκ.ne' ((np.linspace C.t_obs n).map fun t => divNoise (h_c_val C.K C.interpolated_g
      (chirp_mass s.m_1 s.m_2) s.dist (chirp s.f_orb_i T t) 0 2 ^ 2) ((N (2 * chirp s.f_orb_i T t)).map
      fun n => (2 * chirp s.f_orb_i T t) ^ 2 * n)) ((np.linspace C.t_obs n).map fun t => 2 * chirp s.f_orb_i T t)
    rw [List.map_map, List.map_map] at this
    exact this
  have hl : ∀ t ∈ np.linspace C.t_obs n, divNoise (h_c_val C.K C.interpolated_g (chirp_mass (κ * s.m_1) (κ * s.m_2)) (κ * s.dist)
      (chirp (s.f_orb_i / κ) (κ * T) (κ * t)) 0 2 ^ 2) (((N (2 * (κ * chirp (s.f_orb_i / κ) (κ * T) (κ * t)))).map (κ * ·)).map
      fun n => (2 * chirp (s.f_orb_i / κ) (κ * T) (κ * t)) ^ 2 * n)
      = κ * divNoise (h_c_val C.K C.interpolated_g (chirp_mass s.m_1 s.m_2)
      s.dist (chirp s.f_orb_i T t) 0 2 ^ 2) ((N (2 * chirp s.f_orb_i T t)).map fun n => (2 * chirp s.f_orb_i T t) ^ 2 * n) := by
    intro t ht
    rw [chirp_red hκ, chirp_mass_red hκ p1 p2, h_c_red C.K C.interpolated_g hκ (C03_pos p1 p2).le (hfp t ht).le,
      mul_div_cancel₀ _ hκ.ne']
    set v := N (2 * chirp s.f_orb_i T t)
    cases v with
    | top => simp [divNoise]
    | coe v =>
      show _ / ((2 * (chirp s.f_orb_i T t / κ)) ^ 2 * (κ * v)) = κ * (_ / ((2 * chirp s.f_orb_i T t) ^ 2 * v))
      by_cases hv : v = 0
      · simp [hv]
      · field_simp
  simp only [List.map_map]
  refine iff_of_eq (congrArg (fun x => Except.ok (sqrt? x) = Except.ok b) ?_)
  refine Eq.trans (congrArg₂ trapezoid (List.map_congr_left hl) (List.map_congr_left fun t _ => ?_)) key
  show 2 * chirp (s.f_orb_i / κ) (κ * T) (κ * t) = _
  rw [chirp_red hκ]
  ring

/-- Every observation with a noise at every frequency has a redshifted one. -/
theorem C103_exists {C : Ctx} (hκ : 0 < κ) (hN : ∀ f, ∃ v, noise C f = .ok v) :
    ∃ C', Redshifted κ C C' := by
  choose N hN using hN
  refine ⟨{ C with t_obs := κ * C.t_obs, interpolated_sc := some fun f => (N (κ * f)).map (κ * ·) }, rfl, rfl, rfl,
    fun f => ⟨N f, hN f, ?_⟩⟩
  show Except.ok ((N (κ * (f / κ))).map (κ * ·)) = _
  rw [mul_div_cancel₀ _ hκ.ne']

/-- Non-vacuity of `C103_evolving` at redshift 1: in units with `G = c = 1`, two unit masses at a separation of 100 that are
observed for 1000, of the 976562 they have until merger. -/
example : ∃ (C C' : Ctx) (s : EvolSrc), Redshifted 2 C C' ∧ ∀ vs,
    snr_circ_evolving C' [redEvol 2 s] 50 none = .ok vs ↔ snr_circ_evolving C [s] 50 none = .ok vs := by
  let C : Ctx :=
    { K := ⟨1, 1, one_pos, one_pos⟩
      env := ⟨.error .TypeError, fun _ _ _ => 0⟩
      interpolated_sc := some fun f => ((1 + f ^ 2 : ℝ) : WithTop ℝ)
      t_obs := 1000 }
  obtain ⟨C', hC'⟩ := C103_exists (C := C) two_pos fun f => ⟨_, rfl⟩
  let f : ℝ := √2 / 1000 / (2 * π)
  have hf : (2 * π * f) ^ 2 = 2 / 1000000 := by
    have : 2 * π * f = √2 / 1000 := by
      simp only [f]
      field_simp
    rw [this, div_pow, sq_sqrt zero_le_two]
    norm_num
  have ha : get_a_from_f_orb C.K f 1 1 = 100 := by
    unfold get_a_from_f_orb
    rw [hf]
    show (1 * (1 + 1) / (2 / 1000000) : ℝ) ^ (1 / 3 : ℝ) = 100
    rw [show (1 * (1 + 1) / (2 / 1000000) : ℝ) = 100 ^ (3 : ℝ) by norm_num, ← rpow_mul (by norm_num)]
    norm_num
  have hb : utils.beta C.K 1 1 = 25.6 := by
    show (64 / 5 * 1 ^ 3 / 1 ^ 5 * 1 * 1 * (1 + 1) : ℝ) = 25.6
    norm_num
  have hfpos : 0 < f := by positivity
  have hf1 : f ≤ 1 / 2 := by
    have h2 : √2 ≤ 2 := by
      rw [sqrt_le_left zero_le_two]
      norm_num
    have := pi_gt_three
    simp only [f]
    rw [div_div, div_le_div_iff₀ (by positivity) (by norm_num)]
    linarith
  have hch : chirp f 976562.5 1000 ≤ 1 := by
    unfold chirp
    have h1 : ((976562.5 : ℝ) / (976562.5 - 1000)) ^ (3 / 8 : ℝ) ≤ 2 :=
      calc ((976562.5 : ℝ) / (976562.5 - 1000)) ^ (3 / 8 : ℝ) ≤ (2 : ℝ) ^ (3 / 8 : ℝ) :=
            rpow_le_rpow (by norm_num) (by norm_num) (by norm_num)
        _ ≤ (2 : ℝ) ^ (1 : ℝ) := rpow_le_rpow_of_exponent_le (by norm_num) (by norm_num)
        _ = 2 := rpow_one 2
    calc f * ((976562.5 : ℝ) / (976562.5 - 1000)) ^ (3 / 8 : ℝ) ≤ 1 / 2 * 2 :=
          mul_le_mul hf1 h1 (by positivity) (by norm_num)
      _ = 1 := by norm_num
  refine ⟨C, C', ⟨1, 1, f, 0, 1⟩, hC', fun vs => C103_evolving two_pos hC' (by norm_num [C]) (srcs := [⟨1, 1, f, 0, 1⟩]) (by norm_num) ?_ vs⟩
  intro s hs
  rw [List.mem_singleton.1 hs]
  refine ⟨⟨one_pos, one_pos, hfpos, one_pos⟩, by norm_num [C], by norm_num [C], 976562.5, ?_, by norm_num [C], by norm_num [C], hch,
    hch.trans one_le_two⟩
  rw [get_t_merge_circ_masses]
  simp only [ha, hb]
  norm_num

end Legwork.Props
