import Verif.Lemmas.GridCurve
import Verif.Lemmas.SnrOne
import Verif.Props.SnrCircEvolving
import Verif.Props.SourceParams
import Verif.Lemmas.KarnesisSlope
import Verif.Spec.Snr

/-!
# C91: interpolating the sensitivity curve changes signal-to-noise ratios by little
-/

namespace Legwork.Props

open Legwork.Spec Legwork.snr Legwork.psd Legwork.utils Legwork.source Real

/-! ## Noise curves vary slowly -/

/-- **C91** (LISA). With the analytic response and its default arm length, the noise of LISA varies between two frequencies
of the band by at most the 8th power of their ratio, and with the default confusion noise for at least three months by at
most the 13th. -/
theorem C91_lisa_slope (K : Consts) (hc : K.c = 299792458) (env : Env) (custom : Option CustomPsd) (t : ℝ) :
    (∃ S : ℝ → ℝ, (∀ f, 1e-7 ≤ f → f ≤ 2 →
        power_spectral_density K env f "LISA" custom (.val t) .auto true .none = .ok (S f : ℝ)) ∧
      SlopeAtMost 8 S 1e-7 2) ∧
    (0.25 * yr ≤ t → ∃ S : ℝ → ℝ, (∀ f, 1e-7 ≤ f → f ≤ 2 →
        power_spectral_density K env f "LISA" custom (.val t) .auto true (.name "auto") = .ok (S f : ℝ)) ∧
      SlopeAtMost 13 S 1e-7 2) := by
  have hfs : 0.019 ≤ K.c / (2 * π * 2.5e9) := by
    rw [hc, le_div_iff₀ (by positivity)]
    have := pi_lt_d4
    nlinarith
  have hval : ∀ f, lisa_J 2.5e9 (K.c / (2 * π * 2.5e9)) f = (1 / 2.5e9 ^ 2 * (lisa_Poms f
      + 2 * (1 + cos (f / (K.c / (2 * π * 2.5e9))) ^ 2) * lisa_Pacc f / (2 * π * f) ^ 4))
      / approximate_response_function f (K.c / (2 * π * 2.5e9)) := by
    intro f
    unfold lisa_J lisa_M lisa_Q
    rw [mul_div_assoc']
  constructor
  · refine ⟨lisa_J 2.5e9 (K.c / (2 * π * 2.5e9)), fun f h1 h2 => ?_, SlopeAtMost.of_hasSlope (by norm_num) fun f hf =>
      (slope_J (by norm_num) hfs (lt_of_lt_of_le (by norm_num) hf.1) hf.2).weaken le_rfl (by norm_num)⟩
    have hb : f ≥ 1e-7 ∧ f ≤ 2e0 := ⟨h1, by linarith⟩
    simp only [power_spectral_density, if_true, lisa_psd, NoiseArg.resolve, TimeArg.resolve, LenArg.resolve, lisa_response,
      noise_bare, get_confusion_noise, bind, Except.bind, pure, Except.pure, if_pos hb, hval, add_zero]
  · intro ht
    refine ⟨fun f => lisa_J 2.5e9 (K.c / (2 * π * 2.5e9)) f + get_confusion_noise_karnesis21 f t, fun f h1 h2 => ?_,
      SlopeAtMost.of_hasSlope (by norm_num) fun f hf =>
        slope_lisa (by norm_num) le_rfl hfs ht (lt_of_lt_of_le (by norm_num) hf.1) hf.2⟩
    have hb : f ≥ 1e-7 ∧ f ≤ 2e0 := ⟨h1, by linarith⟩
    simp only [power_spectral_density, if_true, lisa_psd, NoiseArg.resolve, TimeArg.resolve, LenArg.resolve, lisa_response,
      noise_bare, get_confusion_noise, bind, Except.bind, pure, Except.pure, if_pos hb, hval]
    simp

/-- **C91** (TianQin and DECIGO). Without confusion noise the noise of TianQin varies by at most the 5th power of the ratio
of two frequencies, and that of DECIGO, in its band, by at most the 6th. -/
theorem C91_other_slopes (K : Consts) (env : Env) (custom : Option CustomPsd) (t : TimeArg) (approx : Bool) :
    (∀ L : LenArg, (∀ l, L = .val l → 0 < l) → ∃ S : ℝ → ℝ,
      (∀ f, 0 < f → power_spectral_density K env f "TianQin" custom t L approx .none = .ok (S f : ℝ)) ∧
      ∀ lo hi, 0 < lo → SlopeAtMost 5 S lo hi) ∧
    ∀ L : LenArg, ∃ S : ℝ → ℝ, (∀ f, 1e-3 ≤ f → f ≤ 100 →
        power_spectral_density K env f "DECIGO" custom t L approx .none = .ok (S f : ℝ)) ∧
      SlopeAtMost 6 S 1e-3 100 := by
  constructor
  · intro L hL
    have hl : 0 < L.resolve (sqrt 3 * 1e5 * 1000) := by
      cases L with
      | auto => simp only [LenArg.resolve]; positivity
      | val l => exact hL l rfl
    have hK := K.c_pos
    set l := L.resolve (sqrt 3 * 1e5 * 1000)
    refine ⟨fun f => 10 / (3 * l ^ 2) * (4 * 1e-30 / (2 * π * f) ^ 4 * (1 + 1e-4 / f) + 1e-24)
      * (1 + 0.6 * (f / (K.c / (2 * π * l))) ^ 2), fun f hf => ?_, fun lo hi hlo =>
      SlopeAtMost.of_hasSlope hlo fun f hf => ?_⟩
    · have : ¬ ("TianQin" : String) = "LISA" := by decide
      simp only [power_spectral_density, if_neg this, if_true, tianqin_psd, NoiseArg.resolve, noise_quantity,
        get_confusion_noise, bind, Except.bind, pure, Except.pure, add_zero]
      rfl
    · have hf0 : 0 < f := hlo.trans_le hf.1
      have a := ((HasSlope.const (c := 4 * 1e-30) (by norm_num) f).div
        (((HasSlope.const (c := 2 * π) (by positivity) f).mul (.id hf0)).pow 4)).mul
        (((HasSlope.const one_pos f).weaken (l' := -1) (by norm_num) le_rfl).add
          ((slope_inv_ratio hf0 (c := 1e-4) (by norm_num)).weaken le_rfl (by norm_num)))
      have b := (a.weaken (l' := -5) (u' := 0) (by norm_num) (by norm_num)).add
        ((HasSlope.const (c := 1e-24) (by norm_num) f).weaken (by norm_num) le_rfl)
      have r := ((HasSlope.const one_pos f).weaken (u' := 2) le_rfl (by norm_num)).add
        ((HasSlope.const (c := 0.6) (by norm_num) f).mul
          ((slope_ratio hf0 (c := K.c / (2 * π * l)) (by positivity)).pow 2) |>.weaken
          (l' := 0) (by norm_num) (by norm_num))
      exact (((HasSlope.const (c := 10 / (3 * l ^ 2)) (by positivity) f).mul b).mul r).weaken (by norm_num) (by norm_num)
  · intro L
    refine ⟨fun f => 6.53e-48 * (1 + (f / decigo_fp) ^ 2) + 4.8e-51 * f ^ (-4 : ℤ) * (1 + (f / decigo_fp) ^ 2) ^ (-1 : ℤ)
      + 5.33e-52 * f ^ (-4 : ℤ), fun f h1 h2 => ?_, SlopeAtMost.of_hasSlope (by norm_num) fun f hf => ?_⟩
    · have n1 : ¬ ("DECIGO" : String) = "LISA" := by decide
      have n2 : ¬ ("DECIGO" : String) = "TianQin" := by decide
      have hb : f ≥ 1e-3 ∧ f ≤ 1e2 := ⟨h1, by linarith⟩
      simp only [power_spectral_density, if_neg n1, if_neg n2, if_true, decigo_psd, NoiseArg.resolve, noise_bare,
        get_confusion_noise, bind, Except.bind, pure, Except.pure, add_zero, if_pos hb]
    · have hf0 : 0 < f := lt_of_lt_of_le (by norm_num) hf.1
      have hz : ∀ f : ℝ, f ^ (-4 : ℤ) = (f ^ 4)⁻¹ := fun f => by rw [zpow_neg]; rfl
      have hz1 : ∀ y : ℝ, y ^ (-1 : ℤ) = y⁻¹ := fun y => zpow_neg_one y
      simp only [hz, hz1]
      have r := ((HasSlope.const one_pos f).weaken (u' := 2) le_rfl (by norm_num)).add
        (((slope_ratio hf0 (c := decigo_fp) (by norm_num [decigo_fp])).pow 2).weaken (l' := 0) (u' := 2) (by norm_num)
          (by norm_num))
      have q := ((HasSlope.id hf0).pow 4).inv
      have a := ((HasSlope.const (c := 6.53e-48) (by norm_num) f).mul r).weaken (l' := -6) (u' := 6) (by norm_num)
        (by norm_num)
      have b := (((HasSlope.const (c := 4.8e-51) (by norm_num) f).mul q).mul r.inv).weaken (l' := -6) (u' := 6)
        (by norm_num) (by norm_num)
      have c := ((HasSlope.const (c := 5.33e-52) (by norm_num) f).mul q).weaken (l' := -6) (u' := 6)
        (by norm_num) (by norm_num)
      exact (a.add b).add c

/-! ## Interpolation -/

/-- **C91** (noise). A noise curve of slope at most `k`, interpolated on the grid of `Source.set_sc`, is within the factor
`1.0017^k` of the exact one between 1e-7 Hz and 2 Hz: 2.3% for `k = 13`. -/
theorem C91_noise {N : ℝ → Except PyErr (WithTop ℝ)} {sc : ℝ → WithTop ℝ} (h : GridCurve N sc) {k : ℝ} (hk : 0 ≤ k)
    {S : ℝ → ℝ} (hS : SlopeAtMost k S 1e-7 2) (hN : ∀ f, 1e-7 ≤ f → f ≤ 2 → N f = .ok (S f : ℝ)) {f : ℝ}
    (h1 : 1e-7 ≤ f) (h2 : f ≤ 2) : ∃ y : ℝ, sc f = y ∧ WithinFactor (1.0017 ^ k) y (S f) :=
  within_grid h hk hS hN h1 h2

/-- The factor for LISA. -/
theorem C91_factor : (1.0017 : ℝ) ^ (13 : ℝ) ≤ 1.0224 ∧ (1.0017 : ℝ) ^ (13 / 2 : ℝ) ≤ 1.0112 := by
  have h : (1.0017 : ℝ) ^ (13 : ℝ) = 1.0017 ^ (13 : ℕ) := by rw [← Real.rpow_natCast]; norm_num
  constructor
  · rw [h]
    norm_num
  · calc (1.0017 : ℝ) ^ (13 / 2 : ℝ) = (1.0017 ^ (13 : ℕ) : ℝ) ^ (1 / 2 : ℝ) := by
          rw [← h, ← Real.rpow_mul (by norm_num)]
          norm_num
      _ ≤ (1.0112 ^ 2 : ℝ) ^ (1 / 2 : ℝ) := Real.rpow_le_rpow (by positivity) (by norm_num) (by norm_num)
      _ = 1.0112 := by
          rw [← Real.sqrt_eq_rpow, Real.sqrt_sq (by norm_num)]

private lemma noise_pair {C C' : Ctx} {k : ℝ} {S : ℝ → ℝ} (h : Interpolated C C' k S) {f : ℝ} (h1 : 1e-7 ≤ f)
    (h2 : f ≤ 2) : ∃ y : ℝ, noise C' f = .ok (y : WithTop ℝ) ∧ 0 < y ∧ 0 < S f ∧ WithinFactor (1.0017 ^ k) y (S f) := by
  obtain ⟨sc, hsc, hC'⟩ := h.curve
  obtain ⟨y, hy, hw⟩ := within_grid hsc h.k_nonneg h.slope h.noise h1 h2
  have hS := h.slope.1 f h1 h2
  refine ⟨y, by rw [hC', ← hy]; rfl, ?_, hS, hw⟩
  have hq : (0 : ℝ) < 1.0017 ^ k := by positivity
  exact pos_of_mul_pos_right (hS.trans_le hw.2) hq.le

/-- **C91** (circular sources). The SNRs of circular stationary sources in the band of the grid, with or without
orientation, differ by at most the factor `1.0017^(k/2)`: 1.2% for LISA. -/
theorem C91_circular {C C' : Ctx} {k : ℝ} {S : ℝ → ℝ} (h : Interpolated C C' k S) {srcs : List CircSrc}
    (hb : ∀ s ∈ srcs, 1e-7 ≤ 2 * s.f_orb ∧ 2 * s.f_orb ≤ 2) {vs : List (Option ℝ)}
    (hv : snr_circ_stationary C srcs = .ok vs) :
    ∃ vs', snr_circ_stationary C' srcs = .ok vs' ∧
      Pointwise (fun v v' => ∃ x x', v = some x ∧ v' = some x' ∧ WithinFactor (1.0017 ^ (k / 2)) x' x) vs vs' := by
  simp only [snr_circ_stationary_iff] at hv ⊢
  refine mapM_related (fun s hs b hb' => ?_) hv
  obtain ⟨y, hy, hy0, hS, hw⟩ := noise_pair h (hb s hs).1 (hb s hs).2
  obtain ⟨sc, -, hC'⟩ := h.curve
  unfold circ1 at hb' ⊢
  obtain ⟨m, hm, hb'⟩ := except_bind_ok.1 hb'
  rw [h.noise _ (hb s hs).1 (hb s hs).2, ok_bind, pure_ok] at hb'
  rw [hm, ok_bind, hy, ok_bind]
  have hx : 0 ≤ (m * strain.h_0_val C.K C.interpolated_g s.m_c s.dist s.f_orb 0 2) ^ 2 * C.t_obs :=
    mul_nonneg (sq_nonneg _) h.t_obs
  refine ⟨_, rfl, _, _, hb'.symm.trans (sqrt?_nonneg (div_nonneg hx hS.le)), ?_, within_sqrt (within_divNoise hx hS hy0 hw)⟩
  rw [hC']
  exact sqrt?_nonneg (div_nonneg hx hy0.le)

private lemma ecc_rows (C : Ctx) (srcs : List EccSrc) (H : ℕ) (rm rb : Bool) :
    snr_ecc_stationary C srcs H rm rb = (srcs.mapM (fun s => (harmonics H).mapM (fun n : ℤ => noise C (n * s.f_orb) >>= fun ν =>
      pure (divNoise (strain.h_0_val C.K C.interpolated_g s.m_c s.dist s.f_orb s.ecc n ^ 2 * C.t_obs) ν))) >>=
        fun rows => finish rm rb H rows) := by
  simp only [mapM_fuse]
  unfold snr_ecc_stationary
  simp only
  rw [h_0_n_ok (μ := fun _ => 1) C.K C.interpolated_g (harmonics_any H)
    (by intro r hr; obtain ⟨s, -, rfl⟩ := List.mem_map.1 hr; rfl)]
  rw [ok_bind, bind_assoc]
  congr 1
  funext ns
  rw [pure_bind]
  congr 1
  simp only [List.map_map, List.zipWith_map_left]
  congr 1
  funext s ns
  simp [Function.comp_def, List.zipWith_map_left]

/-- **C91** (eccentric sources). The same for `snr_ecc_stationary` if all harmonics required are in the band of the
grid. -/
theorem C91_eccentric {C C' : Ctx} {k : ℝ} {S : ℝ → ℝ} (h : Interpolated C C' k S) {srcs : List EccSrc} {H : ℕ}
    (hb : ∀ s ∈ srcs, 1e-7 ≤ s.f_orb ∧ H * s.f_orb ≤ 2) {vs : List (Option ℝ)}
    (hv : snr_ecc_stationary C srcs H false false = .ok (.total vs)) :
    ∃ vs', snr_ecc_stationary C' srcs H false false = .ok (.total vs') ∧
      Pointwise (fun v v' => ∃ x x', v = some x ∧ v' = some x' ∧ WithinFactor (1.0017 ^ (k / 2)) x' x) vs vs' := by
  rw [ecc_rows] at hv ⊢
  obtain ⟨rows, hrows, hv⟩ := except_bind_ok.1 hv
  obtain ⟨sc, -, hC'⟩ := h.curve
  obtain ⟨rows', hrows', hrel⟩ := mapM_related (R := List.Forall₂ fun y y' => WithinFactor (1.0017 ^ k) y' y ∧ 0 ≤ y ∧ 0 ≤ y')
    (g := fun s => (harmonics H).mapM (fun n : ℤ => noise C' (n * s.f_orb) >>= fun ν =>
      pure (divNoise (strain.h_0_val C'.K C'.interpolated_g s.m_c s.dist s.f_orb s.ecc n ^ 2 * C'.t_obs) ν)))
    (fun s hs r hr => by
      refine mapM_related (fun n hn b hb' => ?_) hr
      obtain ⟨j, hj, rfl⟩ := List.mem_map.1 hn
      have hj' : ((j : ℝ) + 1) ≤ H := by exact_mod_cast List.mem_range.1 hj
      have hf := (hb s hs).1
      have hf0 : 0 < s.f_orb := lt_of_lt_of_le (by norm_num) hf
      have b1 : 1e-7 ≤ (((j : ℤ) + 1 : ℤ) : ℝ) * s.f_orb := by
        push_cast
        nlinarith [(Nat.cast_nonneg j : (0 : ℝ) ≤ j)]
      have b2 : (((j : ℤ) + 1 : ℤ) : ℝ) * s.f_orb ≤ 2 := by
        push_cast
        exact (mul_le_mul_of_nonneg_right hj' hf0.le).trans (hb s hs).2
      obtain ⟨y, hy, hy0, hS, hw⟩ := noise_pair h b1 b2
      rw [h.noise _ b1 b2, ok_bind, pure_ok] at hb'
      rw [hy, ok_bind]
      have hx : 0 ≤ strain.h_0_val C.K C.interpolated_g s.m_c s.dist s.f_orb s.ecc ((j : ℤ) + 1) ^ 2 * C.t_obs :=
        mul_nonneg (sq_nonneg _) h.t_obs
      subst hC'
      rw [← hb']
      exact ⟨_, rfl, within_divNoise hx hS hy0 hw, div_nonneg hx hS.le, div_nonneg hx hy0.le⟩) hrows
  rw [hrows', ok_bind]
  simp only [finish, Bool.false_eq_true, if_false, pure_ok, SnrOut.total.injEq] at hv ⊢
  refine ⟨_, rfl, ?_⟩
  rw [← hv]
  unfold Pointwise
  rw [List.forall₂_map_left_iff, List.forall₂_map_right_iff]
  refine hrel.imp fun r r' hr => ?_
  have n1 : 0 ≤ r.sum := by
    clear hv hrows hrows' hrel
    induction hr with
    | nil => simp
    | cons a _ ih => simpa using add_nonneg a.2.1 ih
  have n2 : 0 ≤ r'.sum := by
    clear hv hrows hrows' hrel n1
    induction hr with
    | nil => simp
    | cons a _ ih => simpa using add_nonneg a.2.2 ih
  exact ⟨_, _, sqrt?_nonneg n1, sqrt?_nonneg n2, within_sqrt (within_sum_list (hr.imp fun _ _ h => h.1))⟩

/-- **C91** (evolving sources). The same for `snr_circ_evolving`, for a source at least a second from merger whose
frequencies during the observation are in the band of the grid. -/
theorem C91_evolving {C C' : Ctx} {k : ℝ} {S : ℝ → ℝ} (h : Interpolated C C' k S) {s : EvolSrc} (hs : EvolPhys s)
    {T : ℝ} (hT : evol.get_t_merge_circ C.K none (some fun _ : Fin 1 => s.m_1) (some fun _ => s.m_2) none
      (some fun _ => s.f_orb_i) = .ok fun _ => T) (hT1 : 1 ≤ T) {n : ℕ}
    (hb : ∀ fs, evol.evol_circ C.K evol.AU (some (.array fun _ : Fin 1 => min (T - 1) C.t_obs)) n none none
      (some fun _ => s.m_1) (some fun _ => s.m_2) none (some fun _ => s.f_orb_i) ["f_orb"] = .ok (.one fs) →
      ∀ f ∈ fs 0, 1e-7 ≤ 2 * f ∧ 2 * f ≤ 2) {v : Option ℝ} (hv : snr_circ_evolving C [s] n none = .ok [v]) :
    ∃ x x', v = some x ∧ snr_circ_evolving C' [s] n none = .ok [some x'] ∧ WithinFactor (1.0017 ^ (k / 2)) x' x := by
  have hTi : T = get_a_from_f_orb C.K s.f_orb_i s.m_1 s.m_2 ^ 4 / (4 * utils.beta C.K s.m_1 s.m_2) := by
    rw [evol.get_t_merge_circ_masses] at hT
    simp only [Except.ok.injEq] at hT
    exact (congrFun hT 0).symm
  have hcol : ∀ x : EvolSrc → ℝ, column [s] x = fun _ => x s := fun x => by
    funext i
    match i with
    | ⟨0, _⟩ => rfl
  have hTT : merge_times_circ C [s] none = .ok fun _ => T := by
    unfold merge_times_circ
    rw [hcol, hcol, hcol]
    exact hT
  have hn : n ≠ 0 := by
    rintro rfl
    rw [circ_evol_zero hTT] at hv
    cases hv
  obtain ⟨sc, -, hC'⟩ := h.curve
  have hTT' : merge_times_circ C' [s] none = .ok fun _ => T := by rw [hC']; exact hTT
  have hfs : ∀ f ∈ circRow C.K s (min (T - 1) C.t_obs) n, 1e-7 ≤ 2 * f ∧ 2 * f ≤ 2 := fun f hf => by
    have e := evol_circ_snr C.K [s] (fun _ => min (T - 1) C.t_obs) n
    rw [hcol, hcol, hcol] at e
    exact hb _ e f hf
  have h100 : (100 : ℝ) ∉ circRow C.K s (min (T - 1) C.t_obs) n := fun hm => by
    have := (hfs _ hm).2
    norm_num at this
  have hlt : min (T - 1) C.t_obs < T := (min_le_left _ _).trans_lt (by linarith)
  have hsort : ((circRow C.K s (min (T - 1) C.t_obs) n).map fun f => 2 * f).Pairwise (· ≤ ·) := by
    rw [List.pairwise_map]
    exact ((circRow_pairwise C.K hs h100 hTi).1 (le_min (by linarith) h.t_obs) hlt).imp fun hab => by linarith
  have hfree : circFreqs C n s T = circRow C.K s (min (T - 1) C.t_obs) n := drop_merged_circ_of_not_mem h100
  have hfree' : circFreqs C' n s T = circRow C.K s (min (T - 1) C.t_obs) n := by rw [hC']; exact hfree
  rw [circ_evol_one hn hTT, circE1_eq, hfree] at hv
  obtain ⟨ys, hys, hv⟩ := except_bind_ok.1 hv
  obtain ⟨ys', hys', hrel⟩ := mapM_related (R := fun y y' => WithinFactor (1.0017 ^ k) y' y ∧ 0 ≤ y ∧ 0 ≤ y')
    (g := fun f => noise C' (2 * f) >>= fun ν =>
      pure (divNoise (strain.h_c_val C'.K C'.interpolated_g (chirp_mass s.m_1 s.m_2) s.dist f 0 2 ^ 2)
        (ν.map fun n => (2 * f) ^ 2 * n)))
    (fun f hf y hy => by
      obtain ⟨w, hw, hw0, hS, hww⟩ := noise_pair h (hfs f hf).1 (hfs f hf).2
      rw [h.noise _ (hfs f hf).1 (hfs f hf).2, ok_bind, pure_ok] at hy
      rw [hw, ok_bind]
      have hx : 0 ≤ strain.h_c_val C.K C.interpolated_g (chirp_mass s.m_1 s.m_2) s.dist f 0 2 ^ 2 := sq_nonneg _
      have hf0 : 0 < (2 * f) ^ 2 := by
        have := (hfs f hf).1
        have : 0 < 2 * f := lt_of_lt_of_le (by norm_num) this
        positivity
      have hp : WithinFactor (1.0017 ^ k) ((2 * f) ^ 2 * w) ((2 * f) ^ 2 * S (2 * f)) :=
        ⟨by nlinarith [mul_le_mul_of_nonneg_left hww.1 hf0.le], by nlinarith [mul_le_mul_of_nonneg_left hww.2 hf0.le]⟩
      subst hC'
      rw [← hy]
      exact ⟨_, rfl, within_divNoise hx (by positivity) (by positivity) hp, div_nonneg hx (by positivity),
        div_nonneg hx (by positivity)⟩) hys
  have nn : ∀ y ∈ ys, 0 ≤ y := by
    clear hv hys hys'
    induction hrel with
    | nil => simp
    | cons a _ ih => simpa using ⟨a.2.1, ih⟩
  have nn' : ∀ y ∈ ys', 0 ≤ y := by
    clear hv hys hys' nn
    induction hrel with
    | nil => simp
    | cons a _ ih => simpa using ⟨a.2.2, ih⟩
  refine ⟨_, _, (pure_ok.1 hv).symm.trans (sqrt?_nonneg (trapezoid_nonneg nn hsort)), ?_,
    within_sqrt (within_trapezoid (hrel.imp fun _ _ h => h.1) hsort)⟩
  rw [circ_evol_one hn hTT', circE1_eq, hfree', hys', ok_bind, pure_ok]
  exact sqrt?_nonneg (trapezoid_nonneg nn' hsort)

/-- **C91** (objects). The curve that an object holds, however the program got there, is such an interpolation of the
noise with its current parameters. -/
theorem C91_objects {W : World} {ok : Heap → Op → Prop} {h : Heap} (hr : Reachable W ok h) {s p : ℕ}
    (hp : (h.src s).sc_params = some p) {c c' : ℝ → WithTop ℝ} (hc : CurveOf W (h.par p).dict c)
    (hs : (h.src s).sc = some c') : GridCurve (psd_of_dict W (h.par p).dict) c' :=
  gridCurve_of (C40_never_stale hr hp hc hs ▸ hc)

/-! ## Outside the grid -/

private lemma karnesis_above {f t : ℝ} (hf : 2 ≤ f) (ht : 0 < t) : get_confusion_noise_karnesis21 f t ≤ 3e-45 := by
  unfold get_confusion_noise_karnesis21
  simp only
  have hf0 : 0 < f := by linarith
  have hyr : 0 < yr := by norm_num [yr]
  have e1 : f ^ (-7 / 3 : ℝ) ≤ 1 / 4 := by
    calc f ^ (-7 / 3 : ℝ) ≤ f ^ (-2 : ℝ) := rpow_le_rpow_of_exponent_le (by linarith) (by norm_num)
      _ = (f ^ 2)⁻¹ := by rw [rpow_neg hf0.le]; norm_num
      _ ≤ 1 / 4 := by
        rw [inv_eq_one_div]
        exact one_div_le_one_div_of_le (by norm_num) (by nlinarith)
  have e2 : exp (-(f / ((t / yr) ^ (-0.15 : ℝ) * (10 : ℝ) ^ (-2.72 : ℝ))) ^ (1.56 : ℝ)) ≤ 1 := by
    rw [exp_le_one_iff, neg_nonpos]
    positivity
  have e3 := abs_tanh_le (((t / yr) ^ (-0.37 : ℝ) * (10 : ℝ) ^ (-2.49 : ℝ) - f) / 0.00067)
  have e4 : 0 ≤ f ^ (-7 / 3 : ℝ) := by positivity
  calc _ ≤ (1.15e-44 / 2 * (1 / 4) * 1 * (1 + 1) : ℝ) := by
        gcongr
        · linarith [e3.1]
        · exact e3.2
    _ ≤ 3e-45 := by norm_num

/-- **C91** (fails above 2 Hz). The grid ends at 2 Hz and every source above has the noise 1e30. DECIGO measures up to
100 Hz: a circular source with `2 < 2 f_orb ≤ 100` loses its SNR altogether, as interpolation divides it by more than
1e37. -/
theorem C91_decigo_lost {C C' : Ctx} (hinst : C.kw.instrument = "DECIGO")
    (hcn : C.kw.confusion_noise = .none ∨ C.kw.confusion_noise = .name "auto")
    (h0 : C.interpolated_sc = none) (hig : C.interpolated_g = none) {sc : ℝ → WithTop ℝ} (h : GridCurve (noise C) sc)
    (hC' : C' = { C with interpolated_sc := some sc }) (ht : 0 < C.t_obs) {s : CircSrc} (hs : CircPhys s)
    (ho : s.orient = {}) (h2 : 2 < 2 * s.f_orb) (h100 : 2 * s.f_orb ≤ 100) :
    ∃ v v' : ℝ, snr_circ_stationary C [s] = .ok [some v] ∧ snr_circ_stationary C' [s] = .ok [some v'] ∧ 0 < v ∧
      1e37 * v' < v := by
  obtain ⟨hm, hf, hd⟩ := hs
  have hK := C.K.G_pos
  have hc := C.K.c_pos
  have hv : 0 < strain.h_0_val C.K C.interpolated_g s.m_c s.dist s.f_orb 0 2 := by
    rw [hig]
    unfold strain.h_0_val
    simp only [strain.g_vals]
    rw [C05_circular (by norm_num), if_pos rfl]
    have := pi_pos
    positivity
  set x := strain.h_0_val C.K C.interpolated_g s.m_c s.dist s.f_orb 0 2 with hx
  obtain ⟨S, hS, hS0, hS1⟩ : ∃ S : ℝ, noise C (2 * s.f_orb) = .ok (S : WithTop ℝ) ∧ 0 < S ∧ S < 1e-44 := by
    have n1 : ¬ ("DECIGO" : String) = "LISA" := by decide
    have n2 : ¬ ("DECIGO" : String) = "TianQin" := by decide
    set f := 2 * s.f_orb with hff
    have hb : f ≥ 1e-3 ∧ f ≤ 1e2 := ⟨by norm_num; linarith, by norm_num; linarith⟩
    have hf0 : 0 < f := by linarith
    obtain ⟨cn, c0, c1, hcn⟩ : ∃ cn : ℝ, 0 ≤ cn ∧ cn ≤ 3e-45 ∧
        noise_bare f (.val C.t_obs) (C.kw.confusion_noise.resolve "karnesis21") = .ok cn := by
      rcases hcn with h | h <;> rw [h]
      · exact ⟨0, le_rfl, by norm_num, rfl⟩
      · refine ⟨get_confusion_noise_karnesis21 f C.t_obs, (karnesis_pos hf0 _).le, karnesis_above h2.le ht, ?_⟩
        simp [NoiseArg.resolve, noise_bare, get_confusion_noise, TimeArg.resolve, pure, Except.pure]
    refine ⟨6.53e-48 * (1 + (f / decigo_fp) ^ 2) + 4.8e-51 * f ^ (-4 : ℤ) * (1 + (f / decigo_fp) ^ 2) ^ (-1 : ℤ)
      + 5.33e-52 * f ^ (-4 : ℤ) + cn, ?_, by positivity, ?_⟩
    · unfold noise
      rw [h0, hinst]
      simp only [power_spectral_density, if_neg n1, if_neg n2, if_true, decigo_psd, TimeArg.resolve, if_pos hb, hcn,
        bind, Except.bind, pure, Except.pure]
    · have e1 : (f / decigo_fp) ^ 2 ≤ 185 := by
        rw [div_pow, div_le_iff₀ (by norm_num [decigo_fp])]
        norm_num [decigo_fp]
        nlinarith
      have e2 : f ^ (-4 : ℤ) ≤ 1 := zpow_le_one_of_nonpos₀ (by linarith) (by norm_num)
      have e3 : (1 + (f / decigo_fp) ^ 2) ^ (-1 : ℤ) ≤ 1 :=
        zpow_le_one_of_nonpos₀ (by linarith [sq_nonneg (f / decigo_fp)]) (by norm_num)
      have e4 : 0 ≤ f ^ (-4 : ℤ) := by positivity
      have e5 : 0 ≤ (1 + (f / decigo_fp) ^ 2) ^ (-1 : ℤ) := by positivity
      have e6 : f ^ (-4 : ℤ) * (1 + (f / decigo_fp) ^ 2) ^ (-1 : ℤ) ≤ 1 := mul_le_one₀ e2 e5 e3
      rw [mul_assoc (4.8e-51 : ℝ)]
      calc _ ≤ (6.53e-48 * (1 + 185) + 4.8e-51 * 1 + 5.33e-52 * 1 + 3e-45 : ℝ) := by gcongr
        _ < 1e-44 := by norm_num
  have hn : noise C' (2 * s.f_orb) = .ok ((1e30 : ℝ) : WithTop ℝ) := by
    rw [hC']
    show Except.ok (sc _) = _
    rw [h.outside _ (Or.inr h2)]
  have hmod : strain.modulation s.orient = .ok 1 := by rw [ho]; rfl
  have hx0 : 0 < (1 * x) ^ 2 * C.t_obs := by positivity
  refine ⟨√((1 * x) ^ 2 * C.t_obs / S), √((1 * x) ^ 2 * C.t_obs / 1e30), ?_, ?_, sqrt_pos.2 (by positivity), ?_⟩
  · rw [snr_circ_stationary_iff, mapM_singleton_ok]
    unfold circ1
    rw [hmod, ok_bind, hS, ok_bind, pure_ok]
    exact sqrt?_nonneg (div_nonneg hx0.le hS0.le)
  · rw [snr_circ_stationary_iff, mapM_singleton_ok]
    unfold circ1
    rw [hmod, ok_bind, hn, ok_bind, pure_ok]
    rw [hC']
    exact sqrt?_nonneg (div_nonneg hx0.le (by norm_num))
  · have : (1e37 : ℝ) = √(1e37 ^ 2) := (sqrt_sq (by norm_num)).symm
    rw [this, ← sqrt_mul (by positivity)]
    apply sqrt_lt_sqrt (by positivity)
    rw [lt_div_iff₀ hS0]
    calc (1e37 : ℝ) ^ 2 * ((1 * x) ^ 2 * C.t_obs / 1e30) * S = (1e44 * S) * ((1 * x) ^ 2 * C.t_obs) := by
          ring
      _ < 1 * ((1 * x) ^ 2 * C.t_obs) := by
          apply mul_lt_mul_of_pos_right _ hx0
          calc (1e44 : ℝ) * S < 1e44 * 1e-44 := by gcongr
            _ = 1 := by norm_num
      _ = _ := one_mul _

/-! ## The hypotheses can be met -/

/-- The default LISA curve with the analytic response has an interpolation as in `C91_circular`, for every observation of
at least three months. -/
theorem C91_lisa (K : Consts) (hc : K.c = 299792458) (env : Env) {t : ℝ} (ht : 0.25 * yr ≤ t) :
    ∃ C' S, Interpolated { K := K, env := env, kw := { approximate_R := true }, t_obs := t } C' 13 S := by
  obtain ⟨S, h1, h2⟩ := (C91_lisa_slope K hc env none t).2 ht
  obtain ⟨sc, hsc⟩ := gridCurve_exists (N := noise { K := K, env := env, kw := { approximate_R := true }, t_obs := t })
    fun f a b => ⟨_, h1 f a b⟩
  refine ⟨_, S, rfl, ⟨sc, hsc, rfl⟩, le_trans ?_ ht, by norm_num, h2, fun f a b => h1 f a b⟩
  norm_num [yr]

/-- A source at 1 mHz under the hypotheses of `C91_circular`, and one with ten harmonics under those of `C91_eccentric`. -/
example : (∀ s ∈ [(⟨1, 0.5e-3, 1, {}⟩ : CircSrc)], 1e-7 ≤ 2 * s.f_orb ∧ 2 * s.f_orb ≤ 2) ∧
    ∀ s ∈ [(⟨1, 0.5e-3, 0.5, 1⟩ : EccSrc)], 1e-7 ≤ s.f_orb ∧ (10 : ℕ) * s.f_orb ≤ 2 := by
  constructor <;> · simp only [List.mem_singleton, forall_eq]; norm_num

/-- The default DECIGO curve has an interpolation. -/
example (K : Consts) (env : Env) (t : ℝ) :
    ∃ sc, GridCurve (noise { K := K, env := env, kw := { instrument := "DECIGO" }, t_obs := t }) sc := by
  refine gridCurve_exists fun f _ _ => ?_
  have n1 : ¬ ("DECIGO" : String) = "LISA" := by decide
  have n2 : ¬ ("DECIGO" : String) = "TianQin" := by decide
  simp [noise, power_spectral_density, decigo_psd, NoiseArg.resolve, noise_bare, get_confusion_noise, bind, Except.bind,
    pure, Except.pure]

end Legwork.Props
