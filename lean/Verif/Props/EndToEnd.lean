import Verif.Lemmas.SourceEcc
import Verif.Spec.EndToEnd
import Verif.Props.Steps
import Verif.Props.SourceRepeat

/-!
# C96: the signal-to-noise ratios that `Source.get_snr` returns are accurate
-/

namespace Legwork.Props

open Real Set Legwork.utils Legwork.strain Legwork.snr Legwork.evol Legwork.Spec

set_option maxHeartbeats 1000000 in
/-- **C96** (stationary sources). Take a circular source that `determine_stationarity` accepts for the observation time with
a tolerance of at most 1/4, and a noise curve of slope at most `k` over its frequencies. The SNR that `snr_circ_stationary`
reports is within the factor `(1 + tol)^((k + 4/3)/2)` of `√(1/t_obs ∫ ρ(t)² dt)`, with `ρ t` the SNR of the source frozen
at its frequency at time `t`. -/
theorem C96_stationary (C : Ctx) {s : EvolSrc} (hs : EvolPhys s) (ht : 1 ≤ C.t_obs) {tol : ℝ} (htol : 0 ≤ tol)
    (htol' : tol ≤ 1 / 4) (hbig : s.f_orb_i * (1 + tol) < 1e9) {stat : Fin 1 → Prop}
    (hstat : determine_stationarity C.K (fun _ => s.f_orb_i) C.t_obs (fun _ => 0) (some fun _ => s.m_1)
      (some fun _ => s.m_2) none tol = .ok stat) (h0 : stat 0) {T : ℝ}
    (hT : get_t_merge_circ C.K none (some fun _ : Fin 1 => s.m_1) (some fun _ => s.m_2) none (some fun _ => s.f_orb_i)
      = .ok fun _ => T) {k : ℝ} (hk : 0 ≤ k) {S : ℝ → ℝ} {hi : ℝ} (hhi : 2 * chirp s.f_orb_i T C.t_obs ≤ hi)
    (hS : SlopeAtMost k S (2 * s.f_orb_i) hi)
    (hN : ∀ f, 2 * s.f_orb_i ≤ f → f ≤ hi → noise C f = .ok (S f : ℝ)) :
    ∃ (ρ : ℝ → ℝ) (x : ℝ), (∀ t ∈ Icc 0 C.t_obs,
        snr_circ_stationary C [⟨chirp_mass s.m_1 s.m_2, chirp s.f_orb_i T t, s.dist, {}⟩] = .ok [some (ρ t)]) ∧
      snr_circ_stationary C [⟨chirp_mass s.m_1 s.m_2, s.f_orb_i, s.dist, {}⟩] = .ok [some x] ∧ 0 ≤ x ∧
      WithinFactor ((1 + tol) ^ ((k + 4 / 3) / 2)) x (√(1 / C.t_obs * ∫ t in (0 : ℝ)..C.t_obs, ρ t ^ 2)) := by
  obtain ⟨hm1, hm2, hf0, hd⟩ := id hs
  obtain ⟨T', hT', hTi, hτT, hfar⟩ := stationary_far C.K hf0 hm1 hm2 ht htol htol' hbig hstat h0
  have hTT : T' = T := congrFun (Except.ok.inj (hT'.symm.trans hT)) 0
  subst hTT
  set f₀ := s.f_orb_i with hf₀
  set τ := C.t_obs with hτ
  set mc := chirp_mass s.m_1 s.m_2 with hmc
  have hobs : 0 < τ := by linarith
  have hτT' : τ < T' := by linarith
  have hT0 : 0 < T' := by linarith
  set q := 1 + tol with hq
  have hq1 : 1 ≤ q := by linarith
  have hq0 : 0 < q := by linarith
  have hfp : ∀ t ∈ Icc 0 τ, 0 < chirp f₀ T' t := fun t ht => chirp_pos hf0 hT0 (ht.2.trans_lt hτT')
  have hlast : chirp f₀ T' τ ≤ q * f₀ := by
    rw [← f_of_a_circ C.K hf0 hm1 hm2 hTi hτT']
    exact f_after_le C.K hf0 hm1 hm2 hq1 (hTi ▸ hτT)
  have hrange : ∀ t ∈ Icc 0 τ, 2 * f₀ ≤ 2 * chirp f₀ T' t ∧ 2 * chirp f₀ T' t ≤ hi ∧ chirp f₀ T' t ≤ q * f₀ := by
    intro t ht
    have a1 := chirp_mono hf0 hT0 ht.1 (ht.2.trans_lt hτT')
    have a2 := chirp_mono hf0 hT0 ht.2 hτT'
    rw [chirp_zero hT0] at a1
    exact ⟨by linarith, by linarith, by linarith⟩
  have hSp : ∀ t ∈ Icc 0 τ, 0 < S (2 * chirp f₀ T' t) := fun t ht => hS.1 _ (hrange t ht).1 (hrange t ht).2.1
  set ρ : ℝ → ℝ := fun t => √(h_0_val C.K C.interpolated_g mc s.dist (chirp f₀ T' t) 0 2 ^ 2 * τ / S (2 * chirp f₀ T' t))
    with hρdef
  have hρ : ∀ t ∈ Icc 0 τ, snr_circ_stationary C [⟨mc, chirp f₀ T' t, s.dist, {}⟩] = .ok [some (ρ t)] := fun t ht =>
    snr_of_noise C hobs.le (hSp t ht) (hN _ (hrange t ht).1 (hrange t ht).2.1)
  have h0mem : (0 : ℝ) ∈ Icc 0 τ := ⟨le_rfl, hobs.le⟩
  have hx := hρ 0 h0mem
  rw [chirp_zero hT0] at hx
  have hS0 := hSp 0 h0mem
  rw [chirp_zero hT0] at hS0
  set h := h_0_val C.K C.interpolated_g mc s.dist f₀ 0 2 with hh
  have hρ0 : ρ 0 ^ 2 = h ^ 2 * τ / S (2 * f₀) := by
    rw [hρdef]
    simp only
    rw [chirp_zero hT0, sq_sqrt (div_nonneg (mul_nonneg (sq_nonneg _) hobs.le) hS0.le)]
  -- the frozen SNR at each time
  have hρ2 : ∀ t ∈ Icc 0 τ, ρ t ^ 2 = (chirp f₀ T' t / f₀) ^ (4 / 3 : ℝ) * (h ^ 2 * τ) / S (2 * chirp f₀ T' t) := by
    intro t ht
    have hft := hfp t ht
    have hr0 : 0 < chirp f₀ T' t / f₀ := by positivity
    have e1 : h_0_val C.K C.interpolated_g mc s.dist (chirp f₀ T' t) 0 2 = (chirp f₀ T' t / f₀) ^ (2 / 3 : ℝ) * h := by
      conv_lhs => rw [show chirp f₀ T' t = chirp f₀ T' t / f₀ * f₀ from (div_mul_cancel₀ _ hf0.ne').symm]
      exact h_0_scale _ _ _ _ _ _ hr0 hf0
    rw [hρdef]
    simp only
    rw [sq_sqrt (div_nonneg (mul_nonneg (sq_nonneg _) hobs.le) (hSp t ht).le), e1, mul_pow, ← rpow_natCast, ← rpow_mul hr0.le]
    norm_num
    ring
  have hcc := chirp_continuousOn (f := f₀) hτT' hT0
  have hcont : ContinuousOn (fun t => ρ t ^ 2) (Icc 0 τ) := by
    refine ContinuousOn.congr ?_ hρ2
    refine ContinuousOn.div (ContinuousOn.mul (ContinuousOn.rpow_const (hcc.div_const _) fun t ht => Or.inl ?_)
      continuousOn_const) ?_ fun t ht => (hSp t ht).ne'
    · have := hfp t ht
      positivity
    · exact (slope_continuousOn hk (by linarith) hS).comp (continuousOn_const.mul hcc) fun t ht =>
        ⟨(hrange t ht).1, (hrange t ht).2.1⟩
  have hint : IntervalIntegrable (fun t => ρ t ^ 2) MeasureTheory.volume 0 τ := by
    apply ContinuousOn.intervalIntegrable
    rwa [uIcc_of_le hobs.le]
  set Q := q ^ (k + 4 / 3) with hQ
  have hQ1 : 1 ≤ Q := one_le_rpow hq1 (by linarith)
  have hQ0 : 0 < Q := by linarith
  have hb : ∀ t ∈ Icc 0 τ, ρ t ^ 2 ≤ Q * ρ 0 ^ 2 ∧ ρ 0 ^ 2 / Q ≤ ρ t ^ 2 := by
    intro t ht
    have hft := hfp t ht
    obtain ⟨b1, b2, b3⟩ := hrange t ht
    have hSt := hSp t ht
    set r := chirp f₀ T' t / f₀ with hr
    have hr1 : 1 ≤ r := by rw [hr, one_le_div hf0]; linarith
    have hrq : r ≤ q := by rw [hr, div_le_iff₀ hf0]; exact b3
    obtain ⟨d1, d2⟩ := hS.2 (2 * f₀) (2 * chirp f₀ T' t) le_rfl b1 b2
    rw [mul_div_mul_left _ _ two_ne_zero, ← hr] at d1 d2
    have hr0 : 0 < r := by linarith
    have hrk : r ^ k * r ^ (4 / 3 : ℝ) ≤ Q := by
      rw [← rpow_add hr0]
      exact rpow_le_rpow hr0.le hrq (by linarith)
    have hrk' : r ^ k ≤ Q := (rpow_le_rpow hr0.le hrq hk).trans (rpow_le_rpow_of_exponent_le hq1 (by linarith))
    have h43 : 1 ≤ r ^ (4 / 3 : ℝ) := one_le_rpow hr1 (by norm_num)
    have hE : 0 ≤ h ^ 2 * τ := mul_nonneg (sq_nonneg _) hobs.le
    rw [hρ2 t ht, hρ0]
    constructor
    · rw [mul_div_assoc', div_le_div_iff₀ hSt hS0]
      calc r ^ (4 / 3 : ℝ) * (h ^ 2 * τ) * S (2 * f₀) ≤ r ^ (4 / 3 : ℝ) * (h ^ 2 * τ) * (r ^ k * S (2 * chirp f₀ T' t)) := by gcongr
        _ = (r ^ k * r ^ (4 / 3 : ℝ)) * (h ^ 2 * τ * S (2 * chirp f₀ T' t)) := by ring
        _ ≤ Q * (h ^ 2 * τ * S (2 * chirp f₀ T' t)) := by gcongr
        _ = _ := by ring
    · rw [div_div, div_le_div_iff₀ (by positivity) hSt]
      calc h ^ 2 * τ * S (2 * chirp f₀ T' t) ≤ h ^ 2 * τ * (r ^ k * S (2 * f₀)) := by gcongr
        _ ≤ h ^ 2 * τ * (Q * S (2 * f₀)) := by gcongr
        _ ≤ r ^ (4 / 3 : ℝ) * (h ^ 2 * τ * (Q * S (2 * f₀))) := le_mul_of_one_le_left (by positivity) h43
        _ = _ := by ring
  have hconst : ∀ c : ℝ, ∫ _ in (0 : ℝ)..τ, c = τ * c := fun c => by simp
  have hup : 1 / τ * ∫ t in (0 : ℝ)..τ, ρ t ^ 2 ≤ Q * ρ 0 ^ 2 := by
    have := intervalIntegral.integral_mono_on hobs.le hint intervalIntegrable_const fun t ht => (hb t ht).1
    rw [hconst] at this
    rw [one_div, inv_mul_le_iff₀ hobs]
    exact this
  have hlo : ρ 0 ^ 2 / Q ≤ 1 / τ * ∫ t in (0 : ℝ)..τ, ρ t ^ 2 := by
    have := intervalIntegral.integral_mono_on hobs.le intervalIntegrable_const hint fun t ht => (hb t ht).2
    rw [hconst] at this
    rw [one_div, le_inv_mul_iff₀ hobs]
    exact this
  have hρn : 0 ≤ ρ 0 := sqrt_nonneg _
  refine ⟨ρ, ρ 0, hρ, ?_, hρn, ?_⟩
  · have := hρ 0 h0mem
    rwa [chirp_zero hT0] at this
  have hsq : q ^ ((k + 4 / 3) / 2) = √Q := by
    rw [hQ, sqrt_eq_rpow, ← rpow_mul hq0.le]
    congr 1
    ring
  rw [hsq]
  constructor
  · rw [← sqrt_mul hQ0.le, ← sqrt_sq hρn]
    apply sqrt_le_sqrt
    rw [div_le_iff₀ hQ0] at hlo
    linarith
  · calc √(1 / τ * ∫ t in (0 : ℝ)..τ, ρ t ^ 2) ≤ √(Q * ρ 0 ^ 2) := sqrt_le_sqrt hup
      _ = √Q * ρ 0 := by rw [sqrt_mul hQ0.le, sqrt_sq hρn]

theorem WithinFactor.trans {a b x y z : ℝ} (ha : 0 ≤ a) (hb : 0 ≤ b) (h1 : WithinFactor a x y) (h2 : WithinFactor b y z) :
    WithinFactor (a * b) x z := by
  constructor
  · calc x ≤ a * y := h1.1
      _ ≤ a * (b * z) := mul_le_mul_of_nonneg_left h2.1 ha
      _ = _ := by ring
  · calc z ≤ b * y := h2.2
      _ ≤ b * (a * x) := mul_le_mul_of_nonneg_left h1.2 hb
      _ = _ := by ring

section Objects

open Legwork.source

/-- The exact noise of a call is the sensitivity curve of its parameters. -/
theorem noise_of_dict {W : World} {h : Heap} {s p : ℕ} {C : Ctx} (hC : CallCtx W h s C)
    (hp : (h.src s).sc_params = some p) {f : ℝ} {y : WithTop ℝ} (hy : psd_of_dict W (h.par p).dict f = .ok y) :
    noise { C with interpolated_sc := none } f = .ok y := by
  obtain ⟨p', i, cp, L, aR, cn, kw, T, hp', h1, h2, h3, h4, h5, hkw, h6, rfl⟩ := hC
  rw [hp] at hp'
  cases hp'
  unfold psd_of_dict at hy
  split_ifs at hy
  simp only [h1, h2, h3, h4, h5, h6, Option.getD_some, hkw] at hy
  exact hy

/-- A call for an observation time and a band in which the noise is known. -/
structure Band (W : World) (h : Heap) (s : ℕ) (C : Ctx) (t_obs k : ℝ) (S : ℝ → ℝ) : Prop where
  t_obs : C.t_obs = t_obs
  K : C.K = W.K
  slope : SlopeAtMost k S 1e-7 2
  noise : ∀ f, 1e-7 ≤ f → f ≤ 2 → noise { C with interpolated_sc := none } f = .ok (S f : ℝ)
  grid : ∀ c, C.interpolated_sc = some c → Interpolated { C with interpolated_sc := none } C k S

theorem call_band {W : World} {h' : Heap} {s p : ℕ} (hreach : Reachable W AnyCall h') {C : Ctx} (hC : CallCtx W h' s C)
    (hp : (h'.src s).sc_params = some p) {t_obs : ℝ} (ht : (h'.par p).dict.get? "t_obs" = some (.time t_obs))
    (ht1 : 1 ≤ t_obs) {k : ℝ} (hk : 0 ≤ k) {S : ℝ → ℝ} (hS : SlopeAtMost k S 1e-7 2)
    (hN : ∀ f, 1e-7 ≤ f → f ≤ 2 → psd_of_dict W (h'.par p).dict f = .ok (S f : ℝ)) : Band W h' s C t_obs k S := by
  have hCt : C.t_obs = t_obs := by
    obtain ⟨p', _, _, _, _, _, _, T', hp', -, -, -, -, -, -, h6, rfl⟩ := hC
    rw [hp] at hp'
    cases hp'
    rw [ht] at h6
    cases h6
    rfl
  have hCK : C.K = W.K := by
    obtain ⟨_, _, _, _, _, _, _, _, -, -, -, -, -, -, -, -, rfl⟩ := hC
    rfl
  have hCsc : C.interpolated_sc = (h'.src s).sc := by
    obtain ⟨_, _, _, _, _, _, _, _, -, -, -, -, -, -, -, -, rfl⟩ := hC
    rfl
  subst hCt
  set E : Ctx := { C with interpolated_sc := none } with hE
  have hEK : E.K = W.K := hCK
  have hnoise : ∀ f, 1e-7 ≤ f → f ≤ 2 → noise E f = .ok (S f : ℝ) := fun f a b => noise_of_dict hC hp (hN f a b)
  have hgrid : ∀ c, C.interpolated_sc = some c → Interpolated E C k S := by
    intro c hc
    have hsc : (h'.src s).sc = some c := by rw [← hCsc, hc]
    have hN' : ∀ i < 10000, psd_of_dict W (h'.par p).dict (scGrid i) = .ok ((S (scGrid i) : ℝ) : WithTop ℝ) := fun i hi =>
      hN _ (scGrid_zero ▸ scGrid_le (Nat.zero_le i)) (scGrid_last ▸ scGrid_le (by omega))
    obtain ⟨c₀, hc₀⟩ := curve_exists_iff.2 fun i hi => ⟨_, hN' i hi⟩
    have hg := C91_objects hreach hp (curve_ok_iff.1 hc₀) hsc
    refine ⟨rfl, ⟨c, ⟨fun i hi => ?_, hg.chord, hg.outside⟩, ?_⟩, by show 0 ≤ C.t_obs; linarith, hk, hS, hnoise⟩
    · rw [noise_of_dict hC hp (hg.on_grid i hi)]
    · rw [hE, ← hc]
  exact ⟨rfl, hCK, hS, hnoise, hgrid⟩

set_option maxHeartbeats 1000000 in
/-- A circular binary that is stationary over the observation, treated as such. -/
theorem exact_stationary {W : World} {h' : Heap} {s : ℕ} (hreach : Reachable W AnyCall h') {C : Ctx} {t_obs : ℝ}
    (ht1 : 1 ≤ t_obs) {k : ℝ} (hk : 0 ≤ k) {S : ℝ → ℝ} (hB : Band W h' s C t_obs k S)
    (htol : 0 ≤ (h'.src s).stat_tol) (htol' : (h'.src s).stat_tol ≤ 1 / 4) {one : One} {T : ℝ}
    (hb : CircularBinary W.K one T) (hfar : t_obs + 1 ≤ T) (hlow : 1e-7 ≤ 2 * one.f_orb)
    (hhigh : chirp one.f_orb T t_obs ≤ 1) {tol : ℝ} {q : ℝ → ℤ} (hetol : (h'.src s).ecc_tol = some tol) {v : Option ℝ}
    {harm : ℕ} (hsnr : StationarySnr C tol q one v harm) (hst : one.StationaryOver W.K t_obs (h'.src s).stat_tol) :
    ∃ v' x : ℝ, v = some v' ∧ ExactSnr C one T x ∧ 0 ≤ v' ∧ 0 ≤ x ∧
      WithinFactor (1.0017 ^ (k / 2) * (1 + (h'.src s).stat_tol) ^ ((k + 4 / 3) / 2)) v' x := by
  obtain ⟨rfl, hCK, hS, hnoise, hgrid⟩ := hB
  set E : Ctx := { C with interpolated_sc := none } with hE
  have hEK : E.K = W.K := hCK
  obtain ⟨b1, b2, b3, b4, b5, b6, b7, b8, b9⟩ := hb
  have hphys : EvolPhys one.evolvingCirc := ⟨b1, b2, b3, b4⟩
  have hTi := t_merge_eq b8
  have hobs : 0 < C.t_obs := by linarith
  have hT0 : 0 < T := by linarith
  have hτT : C.t_obs < T := by linarith
  have hmin : C.t_obs = min (T - 1) C.t_obs := (min_eq_right (by linarith)).symm
  have h17 : (1 : ℝ) ≤ 1.0017 ^ (k / 2) := one_le_rpow (by norm_num) (by linarith)
  have h17' : (0 : ℝ) ≤ 1.0017 ^ (k / 2) := by linarith
  have hSb : SlopeAtMost k S (2 * one.f_orb) 2 := ⟨fun f a b => hS.1 f (hlow.trans a) b,
    fun f f' a b c => hS.2 f f' (hlow.trans a) b c⟩
  have hcirc : one.circ = ⟨one.m_c, one.f_orb, one.dist, {}⟩ := by
    unfold One.circ One.orient
    rw [b6]
  have hle : one.ecc ≤ tol := b5 ▸ ((Reachable.eccInv hreach) s _ hetol).1
  have hone : ∀ {x y : ℝ}, 0 ≤ y → x = y → WithinFactor (1.0017 ^ (k / 2)) x y := fun hy he => by
    subst he
    exact ⟨le_mul_of_one_le_left hy h17, le_mul_of_one_le_left hy h17⟩
  obtain ⟨hsnr, -⟩ := hsnr.1 hle
  rw [hcirc] at hsnr
  obtain ⟨stat, hst1, hst2⟩ := id hst
  rw [b5] at hst1
  have hdet : determine_stationarity E.K (fun _ : Fin 1 => one.f_orb) E.t_obs (fun _ => 0) (some fun _ => one.m_1)
      (some fun _ => one.m_2) none (h'.src s).stat_tol = .ok fun _ => stat () := by
    rw [hEK]
    have := Except.ok.inj hst1
    rw [← this]
    rfl
  have hf1 : one.f_orb ≤ 1 := by
    have := chirp_mono b3 hT0 hobs.le hτT
    rw [chirp_zero hT0] at this
    linarith
  obtain ⟨ρ, x, hρ, hx, hx0, hwf⟩ := C96_stationary E (s := one.evolvingCirc) hphys ht1 htol htol'
    (by show one.f_orb * _ < _; norm_num; nlinarith) hdet hst2 (by rw [hEK]; exact b8) hk (hi := 2)
    (by show 2 * chirp one.f_orb T C.t_obs ≤ 2; linarith) hSb (fun f a b => hnoise f (hlow.trans a) b)
  have hvx : ∃ v', v = some v' ∧ 0 ≤ v' ∧ WithinFactor (1.0017 ^ (k / 2)) v' x := by
    rcases hc : C.interpolated_sc with _ | c
    · have : E = C := by rw [hE, ← hc]
      rw [this] at hx
      have := hx.symm.trans hsnr
      simp only [Except.ok.injEq, List.cons.injEq, and_true] at this
      exact ⟨x, this.symm, hx0, hone hx0 rfl⟩
    · obtain ⟨vs', hvs', hpw⟩ := C91_circular (hgrid c hc) (by
        intro s' hs'
        rw [List.mem_singleton] at hs'
        subst hs'
        exact ⟨hlow, by show 2 * one.f_orb ≤ 2; linarith⟩) hx
      have := hsnr.symm.trans hvs'
      simp only [Except.ok.injEq] at this
      subst this
      obtain ⟨y, y', hy, hy', hyy⟩ := (List.forall₂_cons.1 hpw).1
      cases hy
      refine ⟨y', hy', ?_, hyy⟩
      have := hyy.2
      by_contra hneg
      push Not at hneg
      have : 1.0017 ^ (k / 2) * y' < 0 := mul_neg_of_pos_of_neg (by linarith) hneg
      linarith
  obtain ⟨v', rfl, hv0, hvw⟩ := hvx
  refine ⟨v', _, rfl, ⟨ρ, hρ, rfl⟩, hv0, sqrt_nonneg _, ?_⟩
  exact WithinFactor.trans h17' (by have : 0 ≤ 1 + (h'.src s).stat_tol := by linarith
                                    positivity) hvw hwf

set_option maxHeartbeats 1000000 in
/-- A circular binary treated as evolving, stationary or not. -/
theorem exact_evolving {W : World} {h' : Heap} {s : ℕ} {n : ℕ} (hn : 2 ≤ n) (hreach : Reachable W AnyCall h') {C : Ctx} {t_obs : ℝ}
    (ht1 : 1 ≤ t_obs) {k : ℝ} (hk : 0 ≤ k) {S : ℝ → ℝ} (hB : Band W h' s C t_obs k S) {one : One} {T : ℝ}
    (hb : CircularBinary W.K one T) (hfar : t_obs + 1 ≤ T) (hlow : 1e-7 ≤ 2 * one.f_orb)
    (hhigh : chirp one.f_orb T t_obs ≤ 1) {tol : ℝ} {q : ℝ → ℤ} (hetol : (h'.src s).ecc_tol = some tol) {v : Option ℝ}
    {harm : ℕ} (hsnr : EvolvingSnr C W.odeint n tol q one v harm) :
    ∃ v' x : ℝ, v = some v' ∧ ExactSnr C one T x ∧ 0 ≤ v' ∧ 0 ≤ x ∧
      WithinFactor (1.0017 ^ (k / 2) * (1 + t_obs / ((n - 1) * (T - t_obs))) ^ (3 / 16 * (k + 7 / 3))) v' x := by
  obtain ⟨rfl, hCK, hS, hnoise, hgrid⟩ := hB
  set E : Ctx := { C with interpolated_sc := none } with hE
  have hEK : E.K = W.K := hCK
  obtain ⟨b1, b2, b3, b4, b5, b6, b7, b8, b9⟩ := hb
  have hphys : EvolPhys one.evolvingCirc := ⟨b1, b2, b3, b4⟩
  have hTi := t_merge_eq b8
  have hobs : 0 < C.t_obs := by linarith
  have hT0 : 0 < T := by linarith
  have hτT : C.t_obs < T := by linarith
  have hmin : C.t_obs = min (T - 1) C.t_obs := (min_eq_right (by linarith)).symm
  have h17 : (1 : ℝ) ≤ 1.0017 ^ (k / 2) := one_le_rpow (by norm_num) (by linarith)
  have h17' : (0 : ℝ) ≤ 1.0017 ^ (k / 2) := by linarith
  have hSb : SlopeAtMost k S (2 * one.f_orb) 2 := ⟨fun f a b => hS.1 f (hlow.trans a) b,
    fun f f' a b c => hS.2 f f' (hlow.trans a) b c⟩
  have hcirc : one.circ = ⟨one.m_c, one.f_orb, one.dist, {}⟩ := by
    unfold One.circ One.orient
    rw [b6]
  have hle : one.ecc ≤ tol := b5 ▸ ((Reachable.eccInv hreach) s _ hetol).1
  have hone : ∀ {x y : ℝ}, 0 ≤ y → x = y → WithinFactor (1.0017 ^ (k / 2)) x y := fun hy he => by
    subst he
    exact ⟨le_mul_of_one_le_left hy h17, le_mul_of_one_le_left hy h17⟩
  obtain ⟨hsnr, -⟩ := hsnr.1 hle
  have hn0 : n ≠ 0 := by omega
  have hmt : ∀ C₁ : Ctx, C₁.K = W.K → ∀ o, o = none ∨ o = some [T] →
      merge_times_circ C₁ [one.evolvingCirc] o = .ok fun _ => T := by
    intro C₁ hK o ho
    rcases ho with rfl | rfl
    · unfold merge_times_circ
      have hcol : ∀ x : EvolSrc → ℝ, column [one.evolvingCirc] x = fun _ => x one.evolvingCirc := fun x => by
        funext i
        match i with
        | ⟨0, _⟩ => rfl
      simp only [hcol]
      rw [hK]
      exact b8
    · unfold merge_times_circ
      simp only [pure, Except.pure]
      congr 1
      funext i
      match i with
      | ⟨0, _⟩ => rfl
  have ho : (one.t_merge.map fun t => [t]) = none ∨ (one.t_merge.map fun t => [t]) = some [T] := by
    rcases b9 with h9 | h9 <;> rw [h9] <;> simp
  have hsnr' : snr_circ_evolving C [one.evolvingCirc] n none = .ok [v] :=
    (circ_evol_one hn0 (hmt C hCK none (Or.inl rfl))).2 ((circ_evol_one hn0 (hmt C hCK _ ho)).1 hsnr)
  have hmark := no_marker E.K hphys (T := T) (by rw [hEK]; exact hTi) hobs.le hτT hhigh (by rw [hEK]; exact b7) hn
  obtain ⟨ρ, x, hρ, hx, hx0, hwf⟩ := C94_steps E (s := one.evolvingCirc) hphys hobs (by rw [hEK]; exact b8) (by linarith)
    (τ := C.t_obs) hmin hk (hi := 2) (by show 2 * chirp one.f_orb T C.t_obs ≤ 2; linarith) hSb
    (fun f a b => hnoise f (hlow.trans a) b) hn (by
      intro fs hfs hmem
      have := (hmark fs hfs _ hmem).2
      norm_num at this)
  have hvx : ∃ v', v = some v' ∧ 0 ≤ v' ∧ WithinFactor (1.0017 ^ (k / 2)) v' x := by
    rcases hc : C.interpolated_sc with _ | c
    · have : E = C := by rw [hE, ← hc]
      rw [this] at hx
      have := hx.symm.trans hsnr'
      simp only [Except.ok.injEq, List.cons.injEq, and_true] at this
      exact ⟨x, this.symm, hx0, hone hx0 rfl⟩
    · obtain ⟨y, y', hy, hy', hyy⟩ := C91_evolving (hgrid c hc) hphys (T := T) (by rw [hEK]; exact b8) (by linarith) (by
        show ∀ fs, evol.evol_circ E.K evol.AU (some (.array fun _ : Fin 1 => min (T - 1) C.t_obs)) _ _ _ _ _ _ _ _ = _ → _
        rw [← hmin]
        intro fs hfs f hf
        have := hmark fs hfs f hf
        exact ⟨hlow.trans (by have := this.1; show 2 * one.f_orb ≤ _; exact mul_le_mul_of_nonneg_left this (by norm_num)),
          by linarith [this.2]⟩) hx
      cases hy
      have := hsnr'.symm.trans hy'
      simp only [Except.ok.injEq, List.cons.injEq, and_true] at this
      refine ⟨y', this, ?_, hyy⟩
      have := hyy.2
      by_contra hneg
      push Not at hneg
      have : 1.0017 ^ (k / 2) * y' < 0 := mul_neg_of_pos_of_neg (by linarith) hneg
      linarith
  obtain ⟨v', rfl, hv0, hvw⟩ := hvx
  refine ⟨v', _, rfl, ⟨ρ, hρ, rfl⟩, hv0, sqrt_nonneg _, ?_⟩
  refine WithinFactor.trans h17' (rpow_nonneg ?_ _) hvw hwf
  have : (0 : ℝ) ≤ (n : ℝ) - 1 := by
    have : (2 : ℝ) ≤ n := by exact_mod_cast hn
    linarith
  have : 0 ≤ C.t_obs / (((n : ℝ) - 1) * (T - C.t_obs)) := div_nonneg hobs.le (mul_nonneg this (by linarith))
  linarith

/-- Calling `get_snr` on any source. -/
theorem reach_snr {W : World} {h h' : Heap} {s n r : ℕ} {a : SnrArgs} {ws : Option (List Bool)} (hr : Reachable W AnyCall h)
    (hrun : get_snr W s a n ws h = (.ok r, h')) : Reachable W AnyCall h' := by
  have := Reachable.call (.getSnr s a n ws) hr trivial
  have he : (Op.run W (.getSnr s a n ws) h).2 = h' := by
    change ((get_snr W s a n ws >>= fun _ => pure ()) h).2 = h'
    rw [PyM.bind_run, hrun]
    rfl
  rwa [he] at this

/-- **C96.** Let `get_snr` return on sources of a plain `Source`, however the program got there, with an observation time
of at least a second, a tolerance for stationary sources of at most 1/4 and a noise curve that changes at most with the
`k`-th power of frequency between 1e-7 Hz and 2 Hz. Take a selected circular binary that has not merged, ends the
observation at least a second before its merger and stays in this band. Its SNR is within the factor
`1.0017^(k/2) (1 + stat_tol)^((k + 4/3)/2)` of the exact one if it is stationary and within the factor
`1.0017^(k/2) (1 + t_obs/((n - 1)(T - t_obs)))^(3/16 (k + 7/3))` if not. -/
theorem C96_get_snr {W : World} {h h' : Heap} {s n r p : ℕ} {a : SnrArgs} {ws : Option (List Bool)}
    (hr : Reachable W AnyCall h) (hcls : (h.src s).cls = .Source ∨ (h.src s).cls = .VerificationBinaries) (hn : 2 ≤ n)
    (hsch : CompleteSchedule W (h.src s)) (hrect : Rect (h.src s).cols) (hw : FitsMask (h.src s).cols ws)
    (hrun : get_snr W s a n ws h = (.ok r, h')) (hp : (h'.src s).sc_params = some p) {t_obs : ℝ}
    (ht : (h'.par p).dict.get? "t_obs" = some (.time t_obs)) (ht1 : 1 ≤ t_obs) {k : ℝ} (hk : 0 ≤ k) {S : ℝ → ℝ}
    (hS : SlopeAtMost k S 1e-7 2)
    (hN : ∀ f, 1e-7 ≤ f → f ≤ 2 → psd_of_dict W (h'.par p).dict f = .ok (S f : ℝ))
    (htol : 0 ≤ (h'.src s).stat_tol) (htol' : (h'.src s).stat_tol ≤ 1 / 4) {i : ℕ} {one : One}
    (hi : (rows (h.src s).cols)[i]? = some one) (hm : one.merged = false) (hch : Chosen ws i) {T : ℝ}
    (hb : CircularBinary W.K one T) (hfar : t_obs + 1 ≤ T) (hlow : 1e-7 ≤ 2 * one.f_orb)
    (hhigh : chirp one.f_orb T t_obs ≤ 1) :
    ∃ (C : Ctx) (v x : ℝ), CallCtx W h' s C ∧ C.t_obs = t_obs ∧ (h'.snrs r)[i]? = some (some v) ∧ ExactSnr C one T x ∧
      0 ≤ v ∧ 0 ≤ x ∧
      (one.StationaryOver W.K t_obs (h'.src s).stat_tol →
        WithinFactor (1.0017 ^ (k / 2) * (1 + (h'.src s).stat_tol) ^ ((k + 4 / 3) / 2)) v x) ∧
      (¬ one.StationaryOver W.K t_obs (h'.src s).stat_tol →
        WithinFactor (1.0017 ^ (k / 2) * (1 + t_obs / ((n - 1) * (T - t_obs))) ^ (3 / 16 * (k + 7 / 3))) v x) := by
  obtain ⟨-, -, -, hrow⟩ := C36_get_snr hcls (by omega) hsch hrect hw hrun
  obtain ⟨v, harm, r', hv, -, -, C, tol, q, hC, hetol, hq, hstat, hevol⟩ := (hrow i one hi).2 hm hch
  have hreach := reach_snr hr hrun
  have hB := call_band hreach hC hp ht ht1 hk hS hN
  rw [hB.t_obs] at hstat hevol
  by_cases hst : one.StationaryOver W.K t_obs (h'.src s).stat_tol
  · obtain ⟨v', x, rfl, hx, hv0, hx0, hf⟩ := exact_stationary hreach ht1 hk hB htol htol' hb hfar hlow hhigh hetol (hstat hst) hst
    exact ⟨C, v', x, hC, hB.t_obs, hv, hx, hv0, hx0, fun _ => hf, fun hn => absurd hst hn⟩
  · obtain ⟨v', x, rfl, hx, hv0, hx0, hf⟩ := exact_evolving hn hreach ht1 hk hB hb hfar hlow hhigh hetol (hevol hst)
    exact ⟨C, v', x, hC, hB.t_obs, hv, hx, hv0, hx0, fun hn => absurd hn hst, fun _ => hf⟩

private lemma eccentric_transition_nonneg {tol e : ℝ} (h : find_eccentric_transition tol = .ok e) : 0 ≤ e := by
  unfold find_eccentric_transition at h
  simp only at h
  split at h
  · cases h
  · rename_i e' l he
    cases h
    have hmem : e ∈ np.linspace 0.2 10000 := List.mem_of_mem_filter (he ▸ List.mem_cons_self)
    exact (linspace_mem (by norm_num) (by norm_num) hmem).1

/-- The sensitivity curve of the parameters of a call is its exact noise. -/
theorem dict_of_noise {W : World} {h : Heap} {s p : ℕ} {C : Ctx} (hC : CallCtx W h s C)
    (hp : (h.src s).sc_params = some p) (h6 : SixKeys (h.par p).dict) (f : ℝ) :
    psd_of_dict W (h.par p).dict f = noise { C with interpolated_sc := none } f := by
  obtain ⟨p', i, cp, L, aR, cn, kw, T, hp', h1, h2, h3, h4, h5, hkw, h7, rfl⟩ := hC
  rw [hp] at hp'
  cases hp'
  have hany : ((h.par p).dict.keys.any fun key => decide (key ∉ DEFAULT_SC_PARAMS.keys)) = false := by
    rw [List.any_eq_false]
    intro key hkey
    rw [Dict.mem_keys, h6] at hkey
    have hall : ∀ key ∈ scKeys, key ∈ DEFAULT_SC_PARAMS.keys := by decide
    simpa using hall key hkey
  unfold psd_of_dict
  rw [hany]
  simp only [h1, h2, h3, h4, h5, h7, Option.getD_some, hkw]
  rfl

private lemma slope_mono {k k' : ℝ} (hk : k ≤ k') {S : ℝ → ℝ} {lo hi : ℝ} (hlo : 0 < lo) (h : SlopeAtMost k S lo hi) :
    SlopeAtMost k' S lo hi := by
  refine ⟨h.1, fun f f' a b c => ?_⟩
  have hf : 0 < f := hlo.trans_le a
  have h1 : (f' / f) ^ k ≤ (f' / f) ^ k' := rpow_le_rpow_of_exponent_le ((one_le_div hf).2 b) hk
  obtain ⟨d1, d2⟩ := h.2 f f' a b c
  exact ⟨d1.trans (mul_le_mul_of_nonneg_right h1 (h.1 f a (b.trans c)).le),
    d2.trans (mul_le_mul_of_nonneg_right h1 (h.1 f' (a.trans b) c).le)⟩

/-- Half the time to merger raises the frequency by less than 30%. -/
theorem chirp_half {f T t : ℝ} (hf : 0 < f) (ht : 0 < t) (hfar : 2 * t ≤ T) (hhigh : f ≤ 0.77) : chirp f T t ≤ 1 := by
  have hTt : 0 < T - t := by linarith
  have hr : T / (T - t) ≤ 2 := by rw [div_le_iff₀ hTt]; linarith
  have hT0 : 0 < T := by linarith
  have hp : (T / (T - t)) ^ (3 / 8 : ℝ) ≤ 1.2969 := by
    calc (T / (T - t)) ^ (3 / 8 : ℝ) ≤ (2 : ℝ) ^ (3 / 8 : ℝ) := rpow_le_rpow (by positivity) hr (by norm_num)
      _ = ((2 : ℝ) ^ (3 : ℕ)) ^ (1 / 8 : ℝ) := by
          rw [← rpow_natCast, ← rpow_mul (by norm_num)]
          norm_num
      _ ≤ ((1.2969 : ℝ) ^ (8 : ℕ)) ^ (1 / 8 : ℝ) := rpow_le_rpow (by positivity) (by norm_num) (by norm_num)
      _ = 1.2969 := by
          rw [← rpow_natCast, ← rpow_mul (by norm_num)]
          norm_num
  have : chirp f T t ≤ 0.77 * 1.2969 := by
    unfold chirp
    have : 0 ≤ (T / (T - t)) ^ (3 / 8 : ℝ) := by positivity
    gcongr
  norm_num at this ⊢
  linarith

private lemma steps_factor {t T : ℝ} {n : ℕ} (hn : 100 ≤ n) (ht : 0 < t) (hfar : 2 * t ≤ T) :
    1 ≤ 1 + t / (((n : ℝ) - 1) * (T - t)) ∧ 1 + t / (((n : ℝ) - 1) * (T - t)) ≤ 1 + 1 / 99 := by
  have hn' : (99 : ℝ) ≤ (n : ℝ) - 1 := by
    have : (100 : ℝ) ≤ n := by exact_mod_cast hn
    linarith
  have hTt : 0 < T - t := by linarith
  have hb : t / ((n - 1) * (T - t)) ≤ 1 / 99 := by
    rw [div_le_div_iff₀ (by positivity) (by norm_num)]
    nlinarith
  have hb0 : 0 ≤ t / (((n : ℝ) - 1) * (T - t)) := div_nonneg (by linarith) (by positivity)
  exact ⟨by linarith, by linarith⟩

/-- `x^(a/b) ≤ y` if `x^a ≤ y^b`. -/
private lemma root_le {x y : ℝ} (hx : 0 ≤ x) (hy : 0 ≤ y) (a b : ℕ) (hb : b ≠ 0) (h : x ^ a ≤ y ^ b) :
    x ^ ((a : ℝ) / b) ≤ y := by
  have hb' : (b : ℝ) ≠ 0 := by exact_mod_cast hb
  calc x ^ ((a : ℝ) / b) = (x ^ a) ^ (1 / (b : ℝ)) := by
        rw [← rpow_natCast, ← rpow_mul hx]
        congr 1
        field_simp
    _ ≤ (y ^ b) ^ (1 / (b : ℝ)) := rpow_le_rpow (by positivity) h (by positivity)
    _ = y := by
        rw [← rpow_natCast, ← rpow_mul hy, mul_one_div_cancel hb', rpow_one]

lemma within_le {q q' x y : ℝ} (hq : q ≤ q') (hx : 0 ≤ x) (hy : 0 ≤ y) (h : WithinFactor q x y) :
    WithinFactor q' x y :=
  ⟨h.1.trans (mul_le_mul_of_nonneg_right hq hy), h.2.trans (mul_le_mul_of_nonneg_right hq hx)⟩

/-- The settings and the context of the calculation for a source. -/
theorem call_of_row {W : World} {h h' : Heap} {s n r p : ℕ} {a : SnrArgs} {ws : Option (List Bool)}
    (hr : Reachable W AnyCall h) (hcls : (h.src s).cls = .Source ∨ (h.src s).cls = .VerificationBinaries) (hn : n ≠ 0)
    (hsch : CompleteSchedule W (h.src s)) (hrect : Rect (h.src s).cols) (hw : FitsMask (h.src s).cols ws)
    (hrun : get_snr W s a n ws h = (.ok r, h')) (hp : (h'.src s).sc_params = some p) {i : ℕ} {one : One}
    (hi : (rows (h.src s).cols)[i]? = some one) (hm : one.merged = false) (hch : Chosen ws i) :
    ∃ C, CallCtx W h' s C ∧ SixKeys (h'.par p).dict := by
  obtain ⟨-, -, -, hrow⟩ := C36_get_snr hcls hn hsch hrect hw hrun
  obtain ⟨v, harm, r', hv, -, -, C, tol, q, hC, -⟩ := (hrow i one hi).2 hm hch
  have hreach : Reachable W AnyCall h' := by
    have := Reachable.call (.getSnr s a n ws) hr trivial
    have he : (Op.run W (.getSnr s a n ws) h).2 = h' := by
      change ((get_snr W s a n ws >>= fun _ => pure ()) h).2 = h'
      rw [PyM.bind_run, hrun]
      rfl
    rwa [he] at this
  obtain ⟨-, -, h6, -⟩ := ((Reachable.inv hreach).sc s).1 p hp
  exact ⟨C, hC, h6⟩

/-- The slope of the noise curve for these settings. -/
theorem lisa_noise_slope {W : World} (hc : W.K.c = 299792458) {h : Heap} {s p : ℕ} {C : Ctx} (hC : CallCtx W h s C)
    (hp : (h.src s).sc_params = some p) (h6 : SixKeys (h.par p).dict) {t_obs : ℝ} (hset : LisaSettings (h.par p).dict t_obs)
    (ht : 0.25 * psd.yr ≤ t_obs) :
    ∃ S : ℝ → ℝ, SlopeAtMost 13 S 1e-7 2 ∧ ∀ f, 1e-7 ≤ f → f ≤ 2 → psd_of_dict W (h.par p).dict f = .ok (S f : ℝ) := by
  simp only [dict_of_noise hC hp h6]
  obtain ⟨p', j, cp, L, aR, cn, kw, T', hp', h1, h2, h3, h4, h5, hkw, h7, rfl⟩ := hC
  rw [hp] at hp'
  cases hp'
  obtain ⟨s1, s2, s3, s4, s5⟩ := hset
  rw [s1] at h1
  rw [s2] at h3
  rw [s3] at h4
  rw [s5] at h7
  cases h1
  cases h3
  cases h4
  cases h7
  unfold asKw at hkw
  obtain ⟨_, e1, hkw⟩ := except_bind_ok.1 hkw
  obtain ⟨custom, -, hkw⟩ := except_bind_ok.1 hkw
  obtain ⟨_, e3, hkw⟩ := except_bind_ok.1 hkw
  obtain ⟨_, e4, hkw⟩ := except_bind_ok.1 hkw
  obtain ⟨cn', e5, hkw⟩ := except_bind_ok.1 hkw
  cases e1
  cases e3
  cases e4
  cases hkw
  rcases s4 with s4 | s4 <;> rw [s4] at h5 <;> cases h5 <;> cases e5
  · obtain ⟨S, h1, h2⟩ := (C91_lisa_slope W.K hc W.env custom t_obs).2 ht
    exact ⟨S, h2, h1⟩
  · obtain ⟨S, h1, h2⟩ := (C91_lisa_slope W.K hc W.env custom t_obs).1
    exact ⟨S, slope_mono (by norm_num) (by norm_num) h2, h1⟩

theorem lisa_evolving_factor {n : ℕ} {t_obs T : ℝ} (hn : 100 ≤ n) (ht1 : 2 ≤ t_obs) (hfar : 2 * t_obs ≤ T) :
    (1.0017 : ℝ) ^ ((13 : ℝ) / 2) * (1 + t_obs / ((n - 1) * (T - t_obs))) ^ (3 / 16 * (13 + 7 / 3) : ℝ) ≤ 1.042 := by
  obtain ⟨g1, g2⟩ := steps_factor hn (by linarith) hfar
  calc (1.0017 : ℝ) ^ ((13 : ℝ) / 2) * (1 + t_obs / ((n - 1) * (T - t_obs))) ^ (3 / 16 * (13 + 7 / 3) : ℝ)
      ≤ 1.0112 * (1 + 1 / 99 : ℝ) ^ (3 / 16 * (13 + 7 / 3) : ℝ) := by
        refine mul_le_mul C91_factor.2 (rpow_le_rpow (by linarith) g2 (by norm_num)) (rpow_nonneg (by linarith) _)
          (by norm_num)
    _ ≤ 1.0112 * 1.03 := by
        refine mul_le_mul_of_nonneg_left ?_ (by norm_num)
        rw [show (3 / 16 * (13 + 7 / 3) : ℝ) = ((23 : ℕ) : ℝ) / ((8 : ℕ) : ℝ) by norm_num]
        exact root_le (by norm_num) (by norm_num) 23 8 (by norm_num) (by norm_num)
    _ ≤ 1.042 := by norm_num

theorem lisa_stationary_factor {tol : ℝ} (htol : 0 ≤ tol) (htol' : tol ≤ 0.01) :
    (1.0017 : ℝ) ^ ((13 : ℝ) / 2) * (1 + tol) ^ ((13 + 4 / 3) / 2 : ℝ) ≤ 1.09 := by
  calc (1.0017 : ℝ) ^ ((13 : ℝ) / 2) * (1 + tol) ^ ((13 + 4 / 3) / 2 : ℝ)
      ≤ 1.0112 * (1.01 : ℝ) ^ ((13 + 4 / 3) / 2 : ℝ) := by
        refine mul_le_mul C91_factor.2 (rpow_le_rpow (by linarith) (by norm_num at htol' ⊢; linarith) (by norm_num))
          (rpow_nonneg (by linarith) _) (by norm_num)
    _ ≤ 1.0112 * 1.0775 := by
        refine mul_le_mul_of_nonneg_left ?_ (by norm_num)
        rw [show ((13 + 4 / 3) / 2 : ℝ) = ((43 : ℕ) : ℝ) / ((6 : ℕ) : ℝ) by norm_num]
        exact root_le (by norm_num) (by norm_num) 43 6 (by norm_num) (by norm_num)
    _ ≤ 1.09 := by norm_num

/-- **C96** (LISA). With the analytic response, with the default confusion noise or without, an observation of at least
three months, at least 100 steps and a tolerance for stationary sources of at most 1% (the defaults), the SNR that `get_snr`
returns for a circular binary between 1e-7 Hz and 0.77 Hz, at most half its time to merger observed, is within 9% of the
exact one, and within 4.2% unless it is treated as stationary. -/
theorem C96_lisa {W : World} (hc : W.K.c = 299792458) {h h' : Heap} {s n r p : ℕ} {a : SnrArgs} {ws : Option (List Bool)}
    (hr : Reachable W AnyCall h) (hcls : (h.src s).cls = .Source ∨ (h.src s).cls = .VerificationBinaries) (hn : 100 ≤ n)
    (hsch : CompleteSchedule W (h.src s)) (hrect : Rect (h.src s).cols) (hw : FitsMask (h.src s).cols ws)
    (hrun : get_snr W s a n ws h = (.ok r, h')) (hp : (h'.src s).sc_params = some p) {t_obs : ℝ}
    (hset : LisaSettings (h'.par p).dict t_obs) (ht : 0.25 * psd.yr ≤ t_obs)
    (htol : 0 ≤ (h'.src s).stat_tol) (htol' : (h'.src s).stat_tol ≤ 0.01) {i : ℕ} {one : One}
    (hi : (rows (h.src s).cols)[i]? = some one) (hm : one.merged = false) (hch : Chosen ws i) {T : ℝ}
    (hb : CircularBinary W.K one T) (hfar : 2 * t_obs ≤ T) (hlow : 1e-7 ≤ 2 * one.f_orb) (hhigh : one.f_orb ≤ 0.77) :
    ∃ (C : Ctx) (v x : ℝ), CallCtx W h' s C ∧ C.t_obs = t_obs ∧ (h'.snrs r)[i]? = some (some v) ∧ ExactSnr C one T x ∧
      WithinFactor 1.09 v x ∧ (¬ one.StationaryOver W.K t_obs (h'.src s).stat_tol → WithinFactor 1.042 v x) := by
  have ht1 : 2 ≤ t_obs := le_trans (by norm_num [psd.yr]) ht
  obtain ⟨C, hC, h6⟩ := call_of_row hr hcls (by omega) hsch hrect hw hrun hp hi hm hch
  obtain ⟨S, hS, hN⟩ := lisa_noise_slope hc hC hp h6 hset ht
  have hf := hb.f_orb
  obtain ⟨C', v, x, hC', hCt, hv, hx, hv0, hx0, h1, h2⟩ := C96_get_snr hr hcls (by omega) hsch hrect hw hrun hp hset.t_obs
    (by linarith) (by norm_num : (0 : ℝ) ≤ 13) hS hN htol (htol'.trans (by norm_num)) hi hm hch hb (by linarith) hlow
    (chirp_half hf (by linarith) hfar hhigh)
  have hev : ¬ one.StationaryOver W.K t_obs (h'.src s).stat_tol → WithinFactor 1.042 v x := fun hst => by
    exact within_le (lisa_evolving_factor hn ht1 hfar) hv0 hx0 (h2 hst)
  refine ⟨C', v, x, hC', hCt, hv, hx, ?_, hev⟩
  by_cases hst : one.StationaryOver W.K t_obs (h'.src s).stat_tol
  · exact within_le (lisa_stationary_factor htol htol') hv0 hx0 (h1 hst)
  · exact within_le (by norm_num) hv0 hx0 (hev hst)

/-- **C96** (TianQin). Without confusion noise and an observation of at least two seconds, otherwise as for LISA: within 4%
of the exact one, and within 2% unless it is treated as stationary. -/
theorem C96_tianqin {W : World} {h h' : Heap} {s n r p : ℕ} {a : SnrArgs} {ws : Option (List Bool)}
    (hr : Reachable W AnyCall h) (hcls : (h.src s).cls = .Source ∨ (h.src s).cls = .VerificationBinaries) (hn : 100 ≤ n)
    (hsch : CompleteSchedule W (h.src s)) (hrect : Rect (h.src s).cols) (hw : FitsMask (h.src s).cols ws)
    (hrun : get_snr W s a n ws h = (.ok r, h')) (hp : (h'.src s).sc_params = some p) {t_obs : ℝ}
    (hset : TianQinSettings (h'.par p).dict t_obs) (ht : 2 ≤ t_obs)
    (htol : 0 ≤ (h'.src s).stat_tol) (htol' : (h'.src s).stat_tol ≤ 0.01) {i : ℕ} {one : One}
    (hi : (rows (h.src s).cols)[i]? = some one) (hm : one.merged = false) (hch : Chosen ws i) {T : ℝ}
    (hb : CircularBinary W.K one T) (hfar : 2 * t_obs ≤ T) (hlow : 1e-7 ≤ 2 * one.f_orb) (hhigh : one.f_orb ≤ 0.77) :
    ∃ (C : Ctx) (v x : ℝ), CallCtx W h' s C ∧ C.t_obs = t_obs ∧ (h'.snrs r)[i]? = some (some v) ∧ ExactSnr C one T x ∧
      WithinFactor 1.04 v x ∧ (¬ one.StationaryOver W.K t_obs (h'.src s).stat_tol → WithinFactor 1.02 v x) := by
  obtain ⟨C, hC, h6⟩ := call_of_row hr hcls (by omega) hsch hrect hw hrun hp hi hm hch
  obtain ⟨S, hS, hN⟩ : ∃ S : ℝ → ℝ, SlopeAtMost 5 S 1e-7 2 ∧
      ∀ f, 1e-7 ≤ f → f ≤ 2 → psd_of_dict W (h'.par p).dict f = .ok (S f : ℝ) := by
    simp only [dict_of_noise hC hp h6]
    obtain ⟨p', j, cp, L, aR, cn, kw, T', hp', h1, h2, h3, h4, h5, hkw, h7, rfl⟩ := hC
    rw [hp] at hp'
    cases hp'
    obtain ⟨s1, s2, s4, s5⟩ := hset
    rw [s1] at h1
    rw [s2] at h3
    rw [s4] at h5
    rw [s5] at h7
    cases h1
    cases h3
    cases h5
    cases h7
    unfold asKw at hkw
    obtain ⟨_, e1, hkw⟩ := except_bind_ok.1 hkw
    obtain ⟨custom, -, hkw⟩ := except_bind_ok.1 hkw
    obtain ⟨_, e3, hkw⟩ := except_bind_ok.1 hkw
    obtain ⟨aR', e4, hkw⟩ := except_bind_ok.1 hkw
    obtain ⟨cn', e5, hkw⟩ := except_bind_ok.1 hkw
    cases e1
    cases e3
    cases e5
    cases hkw
    obtain ⟨S, h1, h2⟩ := (C91_other_slopes W.K W.env custom (.val t_obs) aR').1 .auto (by intro l hl; cases hl)
    exact ⟨S, h2 _ _ (by norm_num), fun f hf _ => h1 f (lt_of_lt_of_le (by norm_num) hf)⟩
  have hf := hb.f_orb
  obtain ⟨C', v, x, hC', hCt, hv, hx, hv0, hx0, h1, h2⟩ := C96_get_snr hr hcls (by omega) hsch hrect hw hrun hp hset.t_obs
    (by linarith) (by norm_num : (0 : ℝ) ≤ 5) hS hN htol (htol'.trans (by norm_num)) hi hm hch hb (by linarith) hlow
    (chirp_half hf (by linarith) hfar hhigh)
  have h17 : (1.0017 : ℝ) ^ ((5 : ℝ) / 2) ≤ 1.0044 := by
    have := root_le (x := 1.0017) (y := 1.0044) (by norm_num) (by norm_num) 5 2 (by norm_num) (by norm_num)
    exact_mod_cast this
  have hev : ¬ one.StationaryOver W.K t_obs (h'.src s).stat_tol → WithinFactor 1.02 v x := fun hst => by
    refine within_le ?_ hv0 hx0 (h2 hst)
    obtain ⟨g1, g2⟩ := steps_factor hn (by linarith) hfar
    calc (1.0017 : ℝ) ^ ((5 : ℝ) / 2) * (1 + t_obs / ((n - 1) * (T - t_obs))) ^ (3 / 16 * (5 + 7 / 3) : ℝ)
        ≤ 1.0044 * (1 + 1 / 99 : ℝ) ^ (3 / 16 * (5 + 7 / 3) : ℝ) := by
          refine mul_le_mul h17 (rpow_le_rpow (by linarith) g2 (by norm_num)) (rpow_nonneg (by linarith) _)
            (by norm_num)
      _ ≤ 1.0044 * 1.0145 := by
          refine mul_le_mul_of_nonneg_left ?_ (by norm_num)
          rw [show (3 / 16 * (5 + 7 / 3) : ℝ) = ((11 : ℕ) : ℝ) / ((8 : ℕ) : ℝ) by norm_num]
          exact root_le (by norm_num) (by norm_num) 11 8 (by norm_num) (by norm_num)
      _ ≤ 1.02 := by norm_num
  refine ⟨C', v, x, hC', hCt, hv, hx, ?_, hev⟩
  by_cases hst : one.StationaryOver W.K t_obs (h'.src s).stat_tol
  · refine within_le ?_ hv0 hx0 (h1 hst)
    calc (1.0017 : ℝ) ^ ((5 : ℝ) / 2) * (1 + (h'.src s).stat_tol) ^ ((5 + 4 / 3) / 2 : ℝ)
        ≤ 1.0044 * (1.01 : ℝ) ^ ((5 + 4 / 3) / 2 : ℝ) := by
          refine mul_le_mul h17 (rpow_le_rpow (by linarith) (by norm_num at htol' ⊢; linarith) (by norm_num))
            (rpow_nonneg (by linarith) _) (by norm_num)
      _ ≤ 1.0044 * 1.033 := by
          refine mul_le_mul_of_nonneg_left ?_ (by norm_num)
          rw [show ((5 + 4 / 3) / 2 : ℝ) = ((19 : ℕ) : ℝ) / ((6 : ℕ) : ℝ) by norm_num]
          exact root_le (by norm_num) (by norm_num) 19 6 (by norm_num) (by norm_num)
      _ ≤ 1.04 := by norm_num
  · exact within_le (by norm_num) hv0 hx0 (hev hst)

theorem example_binary : ∃ T, 2 * (5 * psd.yr) ≤ T ∧ CircularBinary Example.world.K (rowAt Example.cols 0) T := by
  have hG : Example.world.K.G = 6.67430e-11 := rfl
  have hc : Example.world.K.c = 299792458 := rfl
  obtain ⟨T, hT⟩ : ∃ T, get_t_merge_circ Example.world.K none (some fun _ : Fin 1 => (2e30 : ℝ)) (some fun _ => 1e30) none
      (some fun _ => 1e-3) = .ok fun _ => T := ⟨_, get_t_merge_circ_masses _ _ _ _⟩
  have hTi := t_merge_eq hT
  have ha := get_a_from_f_orb_pos Example.world.K (f := 1e-3) (m₁ := 2e30) (m₂ := 1e30) (by norm_num) (by norm_num) (by norm_num)
  have hbig : 1e8 ≤ get_a_from_f_orb Example.world.K 1e-3 2e30 1e30 := by
    by_contra hlt
    push Not at hlt
    have hk := (C01_get_a_iff_kepler Example.world.K (f := 1e-3) (m₁ := 2e30) (m₂ := 1e30) (by norm_num) ha (by norm_num)
      (by norm_num)).1 rfl
    unfold KeplerThird at hk
    have hpi := pi_le_four
    have hpi0 := pi_pos
    have h1 : (2 * π * 1e-3) ^ 2 ≤ (8e-3 : ℝ) ^ 2 := by
      apply pow_le_pow_left₀ (by positivity)
      norm_num
      linarith
    have h2 : get_a_from_f_orb Example.world.K 1e-3 2e30 1e30 ^ 3 ≤ (1e8 : ℝ) ^ 3 := pow_le_pow_left₀ ha.le hlt.le 3
    have h3 := mul_le_mul h1 h2 (by positivity) (by positivity)
    rw [hk, hG] at h3
    norm_num at h3
  have hT8 : 2 * (5 * psd.yr) ≤ T := by
    have h4 : (1e8 : ℝ) ^ 4 ≤ get_a_from_f_orb Example.world.K 1e-3 2e30 1e30 ^ 4 := pow_le_pow_left₀ (by norm_num) hbig 4
    have hβ := beta_pos Example.world.K (m₁ := 2e30) (m₂ := 1e30) (by norm_num) (by norm_num)
    rw [hTi, le_div_iff₀ (by positivity)]
    refine le_trans ?_ h4
    rw [utils.beta, hG, hc]
    norm_num [psd.yr]
  refine ⟨T, hT8, ?_, ?_, ?_, ?_, rfl, rfl, ?_, hT, Or.inl rfl⟩
  · show (0 : ℝ) < 2e30; norm_num
  · show (0 : ℝ) < 1e30; norm_num
  · show (0 : ℝ) < 1e-3; norm_num
  · show (0 : ℝ) < 1e20; norm_num
  · show 1e-20 ≤ Example.world.K.G * (2e30 + 1e30); rw [hG]; norm_num

/-- Non-vacuity of `C96_lisa`: the circular binary of the example object, created for LISA with the analytic response and
the observation time `"auto"`, at least eight years from merger. -/
example : ∃ (W : World) (h h' : Heap) (r : ℕ) (C : Ctx) (T v x : ℝ) (one : One), Reachable W AnyCall h ∧
    get_snr W 0 {} 100 none h = (.ok r, h') ∧ (rows (h.src 0).cols)[0]? = some one ∧ CallCtx W h' 0 C ∧
    C.t_obs = 4 * psd.yr ∧ (h'.snrs r)[0]? = some (some v) ∧ CircularBinary W.K one T ∧ ExactSnr C one T x ∧
    WithinFactor 1.09 v x := by
  obtain ⟨h, hreach, hready, hcls, hsch, hcols, hp, hd, hint, hstat, hetol⟩ := lisa_object
  have hno : FitsMask (h.src 0).cols none := fun m hm => by cases hm
  obtain ⟨r, h', hrun⟩ := C51_succeeds_auto (n := 100) (ws := none) (by norm_num) hsch hno hready
  have hi : (rows (h.src 0).cols)[0]? = some (rowAt Example.cols 0) := by rw [hcols]; rfl
  have hch : Chosen none 0 := fun m hm => by cases hm
  obtain ⟨C₁, hC₁, ht₁, hT₁, -⟩ := C51_auto (Or.inl hcls) (by norm_num) hsch hready.rect hno hp
    (Or.inr ⟨rfl, by rw [hd]; rfl⟩) hrun ⟨0, _, hi, rfl, hch⟩
  obtain ⟨p', hp', hp'', hst⟩ := C36_settings (Or.inl hcls) (by norm_num) hsch hready.rect hno hrun
  rw [hp] at hp'
  cases hp'
  obtain ⟨⟨v1, a1, b1⟩, ⟨v2, a2, b2⟩, ⟨v3, a3, b3⟩, ⟨v4, a4, b4⟩, ⟨v5, a5, b5⟩, -⟩ := hst
  have hgiven : ∀ {key : String} {v w : PVal}, Given (h.par 1).dict key .none v → (h.par 1).dict.get? key = some w → v = w := by
    intro key v w hg hw
    rcases hg with ⟨hg, -⟩ | ⟨-, hg⟩
    · exact absurd rfl hg
    · rw [hg] at hw
      exact Option.some.inj hw
  rw [hgiven a1 (w := .str "LISA") (by rw [hd]; rfl)] at b1
  rw [hgiven a3 (w := .str "auto") (by rw [hd]; rfl)] at b3
  rw [hgiven a4 (w := .bool true) (by rw [hd]; rfl)] at b4
  rw [hgiven a5 (w := .none) (by rw [hd]; rfl)] at b5
  rw [hT₁ b1] at ht₁
  obtain ⟨_, _, _, hsrc'⟩ := (get_snr_snrCall Example.world 0 {} 100 none h).src 0
  rw [hrun] at hsrc'
  simp only at hsrc'
  have hstat' : (h'.src 0).stat_tol = 1e-2 := by rw [hsrc']; exact hstat
  obtain ⟨T, hT8, hone⟩ := example_binary
  have hyr : 0 < psd.yr := by norm_num [psd.yr]
  obtain ⟨C, v, x, hC, hCt, hv, hx, hw, -⟩ := C96_lisa rfl hreach (Or.inl hcls) le_rfl hsch hready.rect hno hrun hp''
    ⟨b1, b3, b4, Or.inr b5, ht₁⟩ (by norm_num [psd.yr]) (by rw [hstat']; norm_num) (by rw [hstat']) hi rfl hch hone (by linarith)
    (by show (1e-7 : ℝ) ≤ 2 * 1e-3; norm_num) (by show (1e-3 : ℝ) ≤ 0.77; norm_num)
  exact ⟨Example.world, h, h', r, C, T, v, x, _, hreach, hrun, hi, hC, hCt, hv, hone, hx, hw⟩

/-- The binaries of the example, for TianQin. -/
private noncomputable def tianqinArgs : InitArgs := { Example.args with sc_params := some (plain "TianQin" (.str "auto")) }

private lemma tianqin_init : ∃ c, init Example.world .Source tianqinArgs Example.start =
    (.ok 0, heapAfterInit Example.world .Source tianqinArgs Example.cols Example.eccTol (plain "TianQin" (.str "auto")) (some c)
      Example.start) := by
  obtain ⟨c₀, hc₀⟩ := plain_curve (inst := "TianQin") (t := .str "auto") (Or.inr rfl) (Or.inl rfl)
  have e1 : init_cols Example.world tianqinArgs = .ok Example.cols := Example.init_cols_args
  have e2 : find_eccentric_transition tianqinArgs.gw_lum_tol = .ok Example.eccTol := Example.find_eccTol
  have e3 : filled_params tianqinArgs.sc_params = .ok (plain "TianQin" (.str "auto")) := rfl
  rcases init_run Example.world .Source tianqinArgs Example.start with ⟨c, t, d, s, h1, h2, h3, h4, h5⟩ | ⟨-, h⟩
  · rw [e1] at h1
    rw [e2] at h2
    rw [e3] at h3
    cases h1
    cases h2
    cases h3
    rcases h4 with ⟨-, c, hc, rfl⟩ | ⟨h4, -⟩
    · exact ⟨c, h5⟩
    · cases h4
  · exfalso
    rcases h with ⟨e, he⟩ | ⟨e, he⟩ | ⟨e, he⟩ | ⟨-, d, e, hd, he⟩
    · rw [e1] at he
      cases he
    · rw [e2] at he
      cases he
    · rw [e3] at he
      cases he
    · rw [e3] at hd
      cases hd
      rw [hc₀] at he
      cases he

private lemma tianqin_object : ∃ h, Reachable Example.world AnyCall h ∧ AutoReady Example.world h 0 ∧
    (h.src 0).cls = .Source ∧ CompleteSchedule Example.world (h.src 0) ∧ (h.src 0).cols = Example.cols ∧
    (h.src 0).sc_params = some 1 ∧ (h.par 1).dict = plain "TianQin" (.str "auto") ∧ (h.src 0).interpolate_sc = true ∧
    (h.src 0).stat_tol = 1e-2 ∧ (h.src 0).ecc_tol = some Example.eccTol := by
  obtain ⟨c, hc⟩ := tianqin_init
  obtain ⟨k, hk⟩ : ∃ k, k = heapAfterInit Example.world .Source tianqinArgs Example.cols Example.eccTol
    (plain "TianQin" (.str "auto")) (some c) Example.start := ⟨_, rfl⟩
  have hsrc : k.src 0 = newObject Example.world .Source tianqinArgs Example.cols Example.eccTol (some c) 1 := by
    rw [hk]
    change Function.update Example.start.src 0 _ 0 = _
    rw [Function.update_self]
    rfl
  have hpar : k.par 1 = ⟨plain "TianQin" (.str "auto"), some 0⟩ := by
    rw [hk]
    change Function.update Example.start.par 1 _ 1 = _
    rw [Function.update_self]
    rfl
  rw [← hk] at hc
  obtain ⟨c', hc'⟩ := plain_curve (inst := "TianQin") (t := .time (5 * psd.yr)) (Or.inr rfl) (Or.inr ⟨_, rfl⟩)
  have hex := example_rect
  rw [Example.heap_src] at hex
  refine ⟨k, ?_, ⟨by rw [hsrc]; exact hex, by rw [hsrc]; exact ⟨rfl, rfl, rfl⟩,
    ⟨1, .str "TianQin", 5 * psd.yr, c', by rw [hsrc]; rfl, by rw [hpar], by rw [hpar]; exact plain_sixKeys _ _, by rw [hpar]; rfl,
      by rw [hpar]; rfl, Or.inr ⟨by simp, rfl⟩, by rw [hsrc]; rfl, ?_⟩, ?_, ?_⟩, by rw [hsrc]; rfl, ?_, by rw [hsrc]; rfl,
    by rw [hsrc]; rfl, by rw [hpar], by rw [hsrc]; rfl, by rw [hsrc]; rfl, by rw [hsrc]; rfl⟩
  · have h1 := Reachable.call (.init .Source tianqinArgs) (Reachable.start (W := Example.world) (ok := AnyCall) (h := Example.start)
      fun _ => rfl) trivial
    have h2 : (Op.run Example.world (.init .Source tianqinArgs) Example.start).2 = k := by
      change ((init Example.world .Source tianqinArgs >>= fun _ => pure ()) Example.start).2 = k
      rw [PyM.bind_run, hc]
      rfl
    rwa [h2] at h1
  · rw [hpar]
    exact curve_ok_iff.1 hc'
  · unfold storedSnr; rw [hsrc]; simp [newObject]
  · unfold storedHarm; rw [hsrc]; simp [newObject]
  · rw [hsrc]
    intro hn
    simp [newObject, tianqinArgs, Example.args] at hn

/-- Non-vacuity of `C96_tianqin`: the circular binary of the example object, created for TianQin without confusion noise and with
the observation time `"auto"`, at least ten years from merger. -/
example : ∃ (W : World) (h h' : Heap) (r : ℕ) (C : Ctx) (T v x : ℝ) (one : One), Reachable W AnyCall h ∧
    get_snr W 0 {} 100 none h = (.ok r, h') ∧ (rows (h.src 0).cols)[0]? = some one ∧ CallCtx W h' 0 C ∧
    C.t_obs = 5 * psd.yr ∧ (h'.snrs r)[0]? = some (some v) ∧ CircularBinary W.K one T ∧ ExactSnr C one T x ∧
    WithinFactor 1.04 v x := by
  obtain ⟨h, hreach, hready, hcls, hsch, hcols, hp, hd, hint, hstat, hetol⟩ := tianqin_object
  have hno : FitsMask (h.src 0).cols none := fun m hm => by cases hm
  obtain ⟨r, h', hrun⟩ := C51_succeeds_auto (n := 100) (ws := none) (by norm_num) hsch hno hready
  have hi : (rows (h.src 0).cols)[0]? = some (rowAt Example.cols 0) := by rw [hcols]; rfl
  have hch : Chosen none 0 := fun m hm => by cases hm
  obtain ⟨C₁, hC₁, ht₁, -, hT₁⟩ := C51_auto (Or.inl hcls) (by norm_num) hsch hready.rect hno hp
    (Or.inr ⟨rfl, by rw [hd]; rfl⟩) hrun ⟨0, _, hi, rfl, hch⟩
  obtain ⟨p', hp', hp'', hst⟩ := C36_settings (Or.inl hcls) (by norm_num) hsch hready.rect hno hrun
  rw [hp] at hp'
  cases hp'
  obtain ⟨⟨v1, a1, b1⟩, ⟨v2, a2, b2⟩, ⟨v3, a3, b3⟩, ⟨v4, a4, b4⟩, ⟨v5, a5, b5⟩, -⟩ := hst
  have hgiven : ∀ {key : String} {v w : PVal}, Given (h.par 1).dict key .none v → (h.par 1).dict.get? key = some w → v = w := by
    intro key v w hg hw
    rcases hg with ⟨hg, -⟩ | ⟨-, hg⟩
    · exact absurd rfl hg
    · rw [hg] at hw
      exact Option.some.inj hw
  rw [hgiven a1 (w := .str "TianQin") (by rw [hd]; rfl)] at b1
  rw [hgiven a3 (w := .str "auto") (by rw [hd]; rfl)] at b3
  rw [hgiven a4 (w := .bool true) (by rw [hd]; rfl)] at b4
  rw [hgiven a5 (w := .none) (by rw [hd]; rfl)] at b5
  rw [hT₁ (by rw [b1]; simp)] at ht₁
  obtain ⟨_, _, _, hsrc'⟩ := (get_snr_snrCall Example.world 0 {} 100 none h).src 0
  rw [hrun] at hsrc'
  simp only at hsrc'
  have hstat' : (h'.src 0).stat_tol = 1e-2 := by rw [hsrc']; exact hstat
  obtain ⟨T, hT8, hone⟩ := example_binary
  have hyr : 0 < psd.yr := by norm_num [psd.yr]
  obtain ⟨C, v, x, hC, hCt, hv, hx, hw, -⟩ := C96_tianqin hreach (Or.inl hcls) le_rfl hsch hready.rect hno hrun hp''
    ⟨b1, b3, b5, ht₁⟩ (by norm_num [psd.yr]) (by rw [hstat']; norm_num) (by rw [hstat']) hi rfl hch hone (by linarith)
    (by show (1e-7 : ℝ) ≤ 2 * 1e-3; norm_num) (by show (1e-3 : ℝ) ≤ 0.77; norm_num)
  exact ⟨Example.world, h, h', r, C, T, v, x, _, hreach, hrun, hi, hC, hCt, hv, hone, hx, hw⟩

end Objects

end Legwork.Props
