import Verif.Props.Quieter
import Verif.Props.EndToEnd
import Verif.Props.Truncation
import Verif.Props.PetersSum
import Verif.Spec.AllHarmonics

/-!
# How accurate the SNRs of eccentric binaries are: C112
-/

namespace Legwork.Props

open Real Legwork.source Legwork.Spec Legwork.snr Legwork.strain Legwork.utils Legwork.evol
open PyM hiding bind

private lemma stat_rows (C : Ctx) (srcs : List EccSrc) (H : ℕ) (rm rb : Bool) :
    snr_ecc_stationary C srcs H rm rb = (srcs.mapM (fun s => (harmonics H).mapM (fun n : ℤ => noise C (n * s.f_orb) >>= fun ν =>
      pure (divNoise (strain.h_0_val C.K C.interpolated_g s.m_c s.dist s.f_orb s.ecc n ^ 2 * C.t_obs) ν))) >>=
        fun rows => snr.finish rm rb H rows) := by
  simp only [mapM_fuse]
  unfold snr_ecc_stationary
  simp only
  rw [h_0_n_ok (μ := fun _ => 1) C.K C.interpolated_g (harmonics_any H)
    (by intro r hr; obtain ⟨s, -, rfl⟩ := List.mem_map.1 hr; rfl)]
  rw [ok_bind, bind_assoc]
  congr 1
  funext ns
  rw [pure_bind]
  congr 1
  simp only [List.map_map, List.zipWith_map_left]
  congr 1
  funext s ns
  simp [Function.comp_def, List.zipWith_map_left]

private lemma ecc_total {C : Ctx} {srcs : List EccSrc} {H : ℕ} {vs : List (Option ℝ)} {ks : List ℕ}
    (h : snr_ecc_stationary C srcs H true false = .ok (.withMax vs ks)) :
    snr_ecc_stationary C srcs H false false = .ok (.total vs) := by
  rw [stat_rows] at h ⊢
  obtain ⟨rows, hrows, h⟩ := except_bind_ok.1 h
  rw [hrows, ok_bind]
  unfold snr.finish at h ⊢
  simp only [Bool.false_eq_true, if_false, if_true] at h ⊢
  split_ifs at h
  cases h
  rfl

/-- With a finite positive noise at all its harmonics a source has an SNR. -/
private lemma ecc_exists {C : Ctx} (ht : 0 ≤ C.t_obs) {s : EccSrc} {H : ℕ} {N : ℕ → ℝ}
    (hN : ∀ n : ℕ, 1 ≤ n → n ≤ H → noise C (n * s.f_orb) = .ok (N n : ℝ) ∧ 0 < N n) :
    snr_ecc_stationary C [s] H false false = .ok (.total [some √((harmonics H).map fun n : ℤ =>
      strain.h_0_val C.K C.interpolated_g s.m_c s.dist s.f_orb s.ecc n ^ 2 * C.t_obs / N n.toNat).sum]) := by
  have hval : ∀ n ∈ harmonics H, (noise C (n * s.f_orb) >>= fun ν =>
      pure (divNoise (strain.h_0_val C.K C.interpolated_g s.m_c s.dist s.f_orb s.ecc n ^ 2 * C.t_obs) ν) : Except PyErr ℝ) =
      .ok (strain.h_0_val C.K C.interpolated_g s.m_c s.dist s.f_orb s.ecc n ^ 2 * C.t_obs / N n.toNat) ∧
      0 ≤ strain.h_0_val C.K C.interpolated_g s.m_c s.dist s.f_orb s.ecc n ^ 2 * C.t_obs / N n.toNat := by
    intro n hn
    obtain ⟨j, hj, rfl⟩ := List.mem_map.1 hn
    obtain ⟨h1, h2⟩ := hN (j + 1) (by omega) (by have := List.mem_range.1 hj; omega)
    have h3 : (((j : ℤ) + 1 : ℤ) : ℝ) = ((j + 1 : ℕ) : ℝ) := by push_cast; ring
    have h4 : ((j : ℤ) + 1).toNat = j + 1 := by omega
    rw [h3, h1, ok_bind, h4]
    exact ⟨rfl, div_nonneg (mul_nonneg (sq_nonneg _) ht) h2.le⟩
  rw [stat_rows, mapM_ok (g := fun s : EccSrc => (harmonics H).map fun n : ℤ =>
    strain.h_0_val C.K C.interpolated_g s.m_c s.dist s.f_orb s.ecc n ^ 2 * C.t_obs / N n.toNat)
    (by intro s' hs; rw [List.mem_singleton] at hs; subst hs; exact mapM_ok fun n hn => (hval n hn).1), ok_bind]
  unfold snr.finish
  simp only [Bool.false_eq_true, if_false, List.map_cons, List.map_nil]
  rw [sqrt?_nonneg (List.sum_nonneg (by intro y hy; obtain ⟨n, hn, rfl⟩ := List.mem_map.1 hy; exact (hval n hn).2))]
  rfl

private lemma h_0_val_within (K : Consts) {g : ℤ → ℝ → ℝ} {m d f e γ : ℝ} {n : ℤ} (hp : 0 ≤ peters_g n e) (hγ : 1 ≤ γ)
    (hg : WithinFactor γ (g n e) (peters_g n e)) :
    WithinFactor γ (h_0_val K (some g) m d f e n ^ 2) (h_0_val K none m d f e n ^ 2) := by
  have hg0 : 0 ≤ g n e := by
    have := hg.2
    by_contra hlt
    push Not at hlt
    nlinarith
  unfold h_0_val
  simp only [mul_pow, div_pow]
  have e1 : g_vals (some g) n e = g n e := by
    unfold g_vals
    simp [hg0, not_lt.2 hg0]
  have e2 : g_vals none n e = peters_g n e := rfl
  rw [e1, e2]
  have hsq : ∀ {y : ℝ}, 0 ≤ y → (y ^ (1 / 2 : ℝ)) ^ 2 = y := fun hy => by
    rw [← sqrt_eq_rpow, sq_sqrt hy]
  rw [hsq hg0, hsq hp]
  generalize hA : ((((2 : ℝ) ^ (28 / 3 : ℝ) / 5) ^ (0.5 : ℝ)) ^ 2 * (K.G ^ (5 / 3 : ℝ)) ^ 2 / (K.c ^ 4) ^ 2 *
    (m ^ (5 / 3 : ℝ)) ^ 2 * ((π * f) ^ (2 / 3 : ℝ)) ^ 2 / d ^ 2) = A
  have hA0 : 0 ≤ A := by rw [← hA]; positivity
  have hn0 : 0 ≤ A / (n : ℝ) ^ 2 := by positivity
  have h1 := mul_le_mul_of_nonneg_left hg.1 hn0
  have h2 := mul_le_mul_of_nonneg_left hg.2 hn0
  constructor
  · calc A * (g n e / (n : ℝ) ^ 2) = A / (n : ℝ) ^ 2 * g n e := by ring
      _ ≤ _ := h1
      _ = _ := by ring
  · calc A * (peters_g n e / (n : ℝ) ^ 2) = A / (n : ℝ) ^ 2 * peters_g n e := by ring
      _ ≤ _ := h2
      _ = _ := by ring

/-- Interpolated powers within a factor `γ` of the exact ones. -/
private lemma ecc_powers {C : Ctx} (ht : 0 ≤ C.t_obs) {s : EccSrc} (h0 : 0 ≤ s.ecc) (h1 : s.ecc ≤ 1) {H : ℕ} {N : ℕ → ℝ}
    (hN : ∀ n : ℕ, 1 ≤ n → n ≤ H → noise C (n * s.f_orb) = .ok (N n : ℝ) ∧ 0 < N n) {γ : ℝ} (hγ : 1 ≤ γ)
    (hg : ∀ g, C.interpolated_g = some g → ∀ n : ℕ, 1 ≤ n → n ≤ H → WithinFactor γ (g n s.ecc) (peters_g n s.ecc)) :
    ∃ u u' : ℝ, snr_ecc_stationary { C with interpolated_g := none } [s] H false false = .ok (.total [some u]) ∧
      snr_ecc_stationary C [s] H false false = .ok (.total [some u']) ∧ 0 ≤ u ∧ 0 ≤ u' ∧ WithinFactor (√γ) u' u := by
  refine ⟨_, _, ecc_exists (C := { C with interpolated_g := none }) ht hN, ecc_exists ht hN, sqrt_nonneg _, sqrt_nonneg _, ?_⟩
  simp only
  have hterm : ∀ n ∈ harmonics H,
      WithinFactor γ (h_0_val C.K C.interpolated_g s.m_c s.dist s.f_orb s.ecc n ^ 2 * C.t_obs / N n.toNat)
        (h_0_val C.K none s.m_c s.dist s.f_orb s.ecc n ^ 2 * C.t_obs / N n.toNat) := by
    intro n hn
    obtain ⟨j, hj, rfl⟩ := List.mem_map.1 hn
    have hj' : j + 1 ≤ H := by have := List.mem_range.1 hj; omega
    have h4 : ((j : ℤ) + 1).toNat = j + 1 := by omega
    obtain ⟨-, h2⟩ := hN (j + 1) (by omega) hj'
    rw [h4]
    have hw : WithinFactor γ (h_0_val C.K C.interpolated_g s.m_c s.dist s.f_orb s.ecc ((j : ℤ) + 1) ^ 2)
        (h_0_val C.K none s.m_c s.dist s.f_orb s.ecc ((j : ℤ) + 1) ^ 2) := by
      rcases hig : C.interpolated_g with _ | g
      · exact within_refl hγ (sq_nonneg _)
      · refine h_0_val_within C.K (C05_nonneg _ h0 h1) hγ ?_
        have := hg g hig (j + 1) (by omega) hj'
        push_cast at this
        exact this
    have hq : 0 ≤ C.t_obs / N (j + 1) := div_nonneg ht h2.le
    have a1 := mul_le_mul_of_nonneg_right hw.1 hq
    have a2 := mul_le_mul_of_nonneg_right hw.2 hq
    constructor
    · rw [mul_div_assoc, mul_div_assoc, ← mul_assoc]
      exact a1
    · rw [mul_div_assoc, mul_div_assoc, ← mul_assoc]
      exact a2
  obtain ⟨b1, b2⟩ := within_sum hterm
  constructor
  · rw [← sqrt_mul (by linarith)]
    exact sqrt_le_sqrt b1
  · rw [← sqrt_mul (by linarith)]
    exact sqrt_le_sqrt b2

/-- **C112** (interpolation). Let `get_snr` return, however the program got there, with a noise of slope at most `k` in the
band of the grid and, if the powers of the harmonics are interpolated, with values within a factor `γ` of the exact ones. For a
stationary eccentric binary whose harmonics are in that band the SNR is within a factor `1.0017^(k/2) γ^(1/2)` of what
`snr_ecc_stationary` computes without interpolation for the same number of harmonics. -/
theorem C112_interpolated {W : World} {h h' : Heap} {s n r p : ℕ} {a : SnrArgs} {ws : Option (List Bool)}
    (hr : Reachable W AnyCall h) (hcls : (h.src s).cls = .Source ∨ (h.src s).cls = .VerificationBinaries) (hn : n ≠ 0)
    (hsch : CompleteSchedule W (h.src s)) (hrect : Rect (h.src s).cols) (hw : FitsMask (h.src s).cols ws)
    (hrun : get_snr W s a n ws h = (.ok r, h')) (hp : (h'.src s).sc_params = some p) {t_obs : ℝ}
    (ht : (h'.par p).dict.get? "t_obs" = some (.time t_obs)) (ht1 : 1 ≤ t_obs) {k : ℝ} (hk : 0 ≤ k) {S : ℝ → ℝ}
    (hS : SlopeAtMost k S 1e-7 2) (hN : ∀ f, 1e-7 ≤ f → f ≤ 2 → psd_of_dict W (h'.par p).dict f = .ok (S f : ℝ)) {i : ℕ}
    {x : One} (hi : (rows (h.src s).cols)[i]? = some x) (hm : x.merged = false) (hch : Chosen ws i)
    (hst : x.StationaryOver W.K t_obs (h'.src s).stat_tol) {etol : ℝ} (het : (h'.src s).ecc_tol = some etol)
    (he : etol < x.ecc) (he1 : x.ecc < 1) {q : ℝ → ℤ} (hq : (h'.src s).harmonics_required = some q) {H : ℕ}
    (hH : HarmonicLimit (q x.ecc) H) (hlow : 1e-7 ≤ x.f_orb) (hhigh : H * x.f_orb ≤ 2) {γ : ℝ} (hγ : 1 ≤ γ)
    (hg : ∀ g, (h'.src s).g = some g → ∀ n : ℕ, 1 ≤ n → n ≤ H → WithinFactor γ (g n x.ecc) (peters_g n x.ecc)) :
    ∃ (C : Ctx) (v u : ℝ), CallCtx W h' s C ∧ C.t_obs = t_obs ∧ (h'.snrs r)[i]? = some (some v) ∧
      snr_ecc_stationary { C with interpolated_g := none, interpolated_sc := none } [x.eccentric] H false false
        = .ok (.total [some u]) ∧ 0 ≤ u ∧ WithinFactor (1.0017 ^ (k / 2) * √γ) v u := by
  obtain ⟨-, -, -, hrow⟩ := C36_get_snr hcls hn hsch hrect hw hrun
  obtain ⟨v, harm, r', hv, -, -, C, tol, q', hC, hetol, hq', hstat, -⟩ := (hrow i x hi).2 hm hch
  have hreach := reach_snr hr hrun
  have h0 : 0 ≤ x.ecc := ((Reachable.eccInv hreach) s _ het).1.trans he.le
  have hB := call_band hreach hC hp ht ht1 hk hS hN
  rw [hB.t_obs] at hstat
  rw [het] at hetol
  cases hetol
  rw [hq] at hq'
  cases hq'
  have hCg : C.interpolated_g = (h'.src s).g := by
    obtain ⟨_, _, _, _, _, _, _, _, -, -, -, -, -, -, -, -, rfl⟩ := hC
    rfl
  have hsn := ecc_total (((hstat hst).2 he).1 H hH)
  have h17 : (1 : ℝ) ≤ 1.0017 ^ (k / 2) := one_le_rpow (by norm_num) (by linarith)
  have hf0 : 0 < x.f_orb := lt_of_lt_of_le (by norm_num) hlow
  obtain ⟨u, u', hu, hu', hu0, hu0', hw1, hw2⟩ := ecc_powers (C := { C with interpolated_sc := none }) (s := x.eccentric) (H := H)
    (N := fun n => S (n * x.f_orb)) (by show 0 ≤ C.t_obs; rw [hB.t_obs]; linarith) h0 he1.le (fun m h1 h2 => by
      have h1' : (1 : ℝ) ≤ m := by exact_mod_cast h1
      have h2' : (m : ℝ) ≤ H := by exact_mod_cast h2
      have b1 : 1e-7 ≤ (m : ℝ) * x.f_orb := by nlinarith
      have b2 : (m : ℝ) * x.f_orb ≤ 2 := (mul_le_mul_of_nonneg_right h2' hf0.le).trans hhigh
      exact ⟨hB.noise _ b1 b2, hS.1 _ b1 b2⟩) hγ (fun g hg' => hg g (by rw [← hCg]; exact hg'))
  obtain ⟨v', rfl, hwv1, hwv2⟩ : ∃ v', v = some v' ∧ WithinFactor (1.0017 ^ (k / 2)) v' u' := by
    rcases hsc : C.interpolated_sc with _ | c
    · have hE : { C with interpolated_sc := none } = C := by rw [← hsc]
      rw [hE, hsn] at hu'
      cases hu'
      exact ⟨u', rfl, within_refl h17 hu0'⟩
    · obtain ⟨vs', hvs', hrel⟩ := C91_eccentric (hB.grid c hsc) (H := H)
        (by intro s hs; rw [List.mem_singleton] at hs; subst hs; exact ⟨hlow, hhigh⟩) hu'
      rw [hsn] at hvs'
      cases hvs'
      cases hrel with
      | cons hp' _ =>
        obtain ⟨y, y', e1, e2, hw'⟩ := hp'
        cases e1
        exact ⟨y', e2, hw'⟩
  have h17' : (0 : ℝ) ≤ 1.0017 ^ (k / 2) := by linarith
  refine ⟨C, v', u, hC, hB.t_obs, hv, hu, hu0, ?_, ?_⟩
  · rw [mul_assoc]
    exact hwv1.trans (mul_le_mul_of_nonneg_left hw1 h17')
  · rw [mul_comm _ √γ, mul_assoc]
    exact hw2.trans (mul_le_mul_of_nonneg_left hwv2 (sqrt_nonneg _))

/-- **C112.** Let `get_snr` return, however the program got there, with a noise of slope at most `k` in the band of the grid
and, if the powers of the harmonics are interpolated, with values within a factor `γ` of the exact ones. Take a stationary
eccentric binary whose harmonics used are in that band and carry all but a fraction `tol` of its power, and let
`n² S(n f_orb)` be at least `B` for the harmonics left out and at most `R B` for those included. Then its SNR is at most
`1.0017^(k/2) γ^(1/2)` times that of all its harmonics, computed without interpolation, and at least
`((1 - tol)/(1 - tol + R tol))^(1/2) / (1.0017^(k/2) γ^(1/2))` times. -/
theorem C112_get_snr {W : World} {h h' : Heap} {s n r p : ℕ} {a : SnrArgs} {ws : Option (List Bool)}
    (hr : Reachable W AnyCall h) (hcls : (h.src s).cls = .Source ∨ (h.src s).cls = .VerificationBinaries) (hn : n ≠ 0)
    (hsch : CompleteSchedule W (h.src s)) (hrect : Rect (h.src s).cols) (hw : FitsMask (h.src s).cols ws)
    (hrun : get_snr W s a n ws h = (.ok r, h')) (hp : (h'.src s).sc_params = some p) {t_obs : ℝ}
    (ht : (h'.par p).dict.get? "t_obs" = some (.time t_obs)) (ht1 : 1 ≤ t_obs) {k : ℝ} (hk : 0 ≤ k) {S : ℝ → ℝ}
    (hS : SlopeAtMost k S 1e-7 2) (hN : ∀ f, 1e-7 ≤ f → f ≤ 2 → psd_of_dict W (h'.par p).dict f = .ok (S f : ℝ)) {i : ℕ}
    {x : One} (hi : (rows (h.src s).cols)[i]? = some x) (hm : x.merged = false) (hch : Chosen ws i)
    (hst : x.StationaryOver W.K t_obs (h'.src s).stat_tol) {etol : ℝ} (het : (h'.src s).ecc_tol = some etol)
    (he : etol < x.ecc) (he1 : x.ecc < 1) {q : ℝ → ℤ} (hq : (h'.src s).harmonics_required = some q) {H : ℕ}
    (hH : HarmonicLimit (q x.ecc) H) (hlow : 1e-7 ≤ x.f_orb) (hhigh : H * x.f_orb ≤ 2) {γ : ℝ} (hγ : 1 ≤ γ)
    (hg : ∀ g, (h'.src s).g = some g → ∀ n : ℕ, 1 ≤ n → n ≤ H → WithinFactor γ (g n x.ecc) (peters_g n x.ecc))
    {N : ℕ → WithTop ℝ} (hNn : ∀ n : ℕ, 1 ≤ n → psd_of_dict W (h'.par p).dict (n * x.f_orb) = .ok (N n))
    (hpos : ∀ n, 1 ≤ n → 0 < N n) {tol : ℝ} (ht0 : 0 ≤ tol) (htl : tol < 1)
    (hpow : (1 - tol) * peters_f x.ecc ≤ powerUpTo H x.ecc) {B R : ℝ} (hB : 0 < B) (hR : 0 ≤ R)
    (hin : ∀ n, 1 ≤ n → n ≤ H → ∃ S : ℝ, N n = S ∧ (n : ℝ) ^ 2 * S ≤ R * B)
    (hout : ∀ (n : ℕ) (S : ℝ), H < n → N n = S → B ≤ (n : ℝ) ^ 2 * S) :
    ∃ (C : Ctx) (v ρ : ℝ), CallCtx W h' s C ∧ C.t_obs = t_obs ∧ (h'.snrs r)[i]? = some (some v) ∧ AllHarmonicsSnr C x ρ ∧
      v ≤ 1.0017 ^ (k / 2) * √γ * ρ ∧ √((1 - tol) / (1 - tol + R * tol)) * ρ ≤ 1.0017 ^ (k / 2) * √γ * v := by
  have hreach := reach_snr hr hrun
  have h0 : 0 ≤ x.ecc := ((Reachable.eccInv hreach) s _ het).1.trans he.le
  obtain ⟨C, v, u', hC, hCt, hv, hu', -, hw1, hw2⟩ := C112_interpolated hr hcls hn hsch hrect hw hrun hp ht ht1 hk hS hN hi hm hch
    hst het he he1 hq hH hlow hhigh hγ hg
  obtain ⟨u, ρ, c1, c2, c3, c4⟩ := C95_tolerance { C with interpolated_g := none, interpolated_sc := none }
    (by show 0 ≤ C.t_obs; linarith) rfl (s := x.eccentric) h0 he1 (fun n hn => noise_of_dict hC hp (hNn n hn)) hpos ht0 htl hpow hB
    hR hin hout
  rw [c1 H] at hu'
  cases hu'
  have h17 : (0 : ℝ) ≤ 1.0017 ^ (k / 2) * √γ := mul_nonneg (rpow_nonneg (by norm_num) _) (sqrt_nonneg _)
  exact ⟨C, v, ρ, hC, hCt, hv, ⟨u, c1, c2⟩, hw1.trans (mul_le_mul_of_nonneg_left c4 h17), c3.trans hw2⟩

/-- **C112** (LISA). With LISA and the default settings, an observation of at least three months and exact powers of the
harmonics or interpolated ones within 1% of them, take a stationary eccentric binary with an orbital frequency of at least
6 mHz whose harmonics used reach no further than 2 Hz and carry at least 95% of its power. The SNR that `get_snr` returns is
at most 6% below and at most 2% above that of all its harmonics, computed without interpolation. -/
theorem C112_lisa {W : World} (hc : W.K.c = 299792458) {h h' : Heap} {s n r p : ℕ} {a : SnrArgs} {ws : Option (List Bool)}
    (hr : Reachable W AnyCall h) (hcls : (h.src s).cls = .Source ∨ (h.src s).cls = .VerificationBinaries) (hn : n ≠ 0)
    (hsch : CompleteSchedule W (h.src s)) (hrect : Rect (h.src s).cols) (hw : FitsMask (h.src s).cols ws)
    (hrun : get_snr W s a n ws h = (.ok r, h')) (hp : (h'.src s).sc_params = some p) {t_obs : ℝ}
    (hset : LisaSettings (h'.par p).dict t_obs) (hcn : (h'.par p).dict.get? "confusion_noise" = some (.str "auto"))
    (hcp : (h'.par p).dict.get? "custom_psd" = some .none) (ht : 0.25 * psd.yr ≤ t_obs) {i : ℕ} {x : One}
    (hi : (rows (h.src s).cols)[i]? = some x) (hm : x.merged = false) (hch : Chosen ws i)
    (hst : x.StationaryOver W.K t_obs (h'.src s).stat_tol) {etol : ℝ} (het : (h'.src s).ecc_tol = some etol)
    (he : etol < x.ecc) (he1 : x.ecc < 1) {q : ℝ → ℤ} (hq : (h'.src s).harmonics_required = some q) {H : ℕ}
    (hH : HarmonicLimit (q x.ecc) H) (hlow : 6e-3 ≤ x.f_orb) (hhigh : H * x.f_orb ≤ 2)
    (hg : ∀ g, (h'.src s).g = some g → ∀ n : ℕ, 1 ≤ n → n ≤ H → WithinFactor 1.01 (g n x.ecc) (peters_g n x.ecc))
    (hpow : 0.95 * peters_f x.ecc ≤ powerUpTo H x.ecc) :
    ∃ (C : Ctx) (v ρ : ℝ), CallCtx W h' s C ∧ C.t_obs = t_obs ∧ (h'.snrs r)[i]? = some (some v) ∧ AllHarmonicsSnr C x ρ ∧
      0.94 * ρ ≤ v ∧ v ≤ 1.02 * ρ := by
  have ht1 : 2 ≤ t_obs := le_trans (by norm_num [psd.yr]) ht
  have hreach := reach_snr hr hrun
  have h0 : 0 ≤ x.ecc := ((Reachable.eccInv hreach) s _ het).1.trans he.le
  obtain ⟨C₀, hC₀, h6⟩ := call_of_row hr hcls hn hsch hrect hw hrun hp hi hm hch
  obtain ⟨S, hS, hN⟩ := lisa_noise_slope hc hC₀ hp h6 hset ht
  obtain ⟨C, v, u', hC, hCt, hv, hu', hu0, hw1, hw2⟩ := C112_interpolated hr hcls hn hsch hrect hw hrun hp hset.t_obs (by linarith)
    (by norm_num : (0 : ℝ) ≤ 13) hS hN hi hm hch hst het he he1 hq hH (le_trans (by norm_num) hlow) hhigh
    (by norm_num : (1 : ℝ) ≤ 1.01) hg
  obtain ⟨u, ρ, c1, c2, c3, c4⟩ := C95_lisa W.K hc W.env ht (s := x.eccentric) h0 he1 hlow hpow
  have hE : { C with interpolated_g := none, interpolated_sc := none } =
      ({ K := W.K, env := W.env, kw := { approximate_R := true }, t_obs := t_obs } : Ctx) := by
    obtain ⟨p', j, cp, L, aR, cn, kw, T', hp', h1, h2, h3, h4, h5, hkw, h7, rfl⟩ := hC
    rw [hp] at hp'
    cases hp'
    rw [hset.instrument] at h1
    rw [hcp] at h2
    rw [hset.L] at h3
    rw [hset.approximate_R] at h4
    rw [hcn] at h5
    rw [hset.t_obs] at h7
    cases h1
    cases h2
    cases h3
    cases h4
    cases h5
    cases h7
    cases hkw
    rfl
  rw [hE, c1 H] at hu'
  cases hu'
  have hf : (1.0017 : ℝ) ^ ((13 : ℝ) / 2) * √1.01 ≤ 1.0163 := by
    have h1 : √(1.01 : ℝ) ≤ 1.005 := by
      rw [sqrt_le_left (by norm_num)]
      norm_num
    calc _ ≤ (1.0112 : ℝ) * 1.005 := mul_le_mul C91_factor.2 h1 (sqrt_nonneg _) (by norm_num)
      _ ≤ _ := by norm_num
  have hf0 : (0 : ℝ) < 1.0017 ^ ((13 : ℝ) / 2) * √1.01 := mul_pos (rpow_pos_of_pos (by norm_num) _) (sqrt_pos.2 (by norm_num))
  have hv0 : 0 ≤ v := by
    by_contra hlt
    push Not at hlt
    nlinarith [mul_neg_of_pos_of_neg hf0 hlt]
  have d1 := hw1.trans (mul_le_mul_of_nonneg_right hf hu0)
  have d2 := hw2.trans (mul_le_mul_of_nonneg_right hf hv0)
  refine ⟨C, v, ρ, hC, hCt, hv, ⟨u, fun H => by rw [hE]; exact c1 H, c2⟩, ?_, ?_⟩
  · norm_num at c3 d2 ⊢
    linarith
  · norm_num at d1 ⊢
    linarith

private lemma power_range' (H : ℕ) (e : ℝ) : powerUpTo H e = ∑ k ∈ Finset.range H, peters_g ((k : ℤ) + 1) e := by
  unfold powerUpTo
  induction H with
  | zero => simp
  | succ N ih => rw [Finset.sum_Icc_succ_top (by omega), ih, Finset.sum_range_succ]; push_cast; rfl

private lemma lumUpTo_exact' {T : LumTable} (hT : ValidTable T) (hx : ExactTable T) {i H : ℕ} {e : ℝ}
    {row : List ℝ} (he : T.e_range[i]? = some e) (hr : T.g_vals[i]? = some row) (hH : H ≤ T.n_max) :
    lumUpTo row H = powerUpTo H e := by
  have hrow : row = (List.range T.n_max).map fun j : ℕ => peters_g ((j : ℤ) + 1) e := by
    apply List.ext_getElem?
    intro j
    by_cases hj : j < T.n_max
    · rw [hx i j e row he hr hj, List.getElem?_map, List.getElem?_range hj]; rfl
    · rw [List.getElem?_eq_none (by rw [hT.columns row (List.mem_of_getElem? hr)]; omega),
        List.getElem?_eq_none (by simp; omega)]
  unfold lumUpTo
  rw [hrow, power_range', ← List.map_take, List.take_range, Nat.min_eq_left hH]
  clear hH
  induction H with
  | zero => simp
  | succ H ih => rw [List.range_succ, List.map_append, List.sum_append, ih, Finset.sum_range_succ]; simp

/-- **C112** (power). The harmonics that `get_snr` uses carry all but the fraction `gw_lum_tol` of the power, at every
eccentricity of an exact table except the first one, unless the table ends before that is reached. -/
theorem C112_power {W : World} {h : Heap} {s : ℕ} (hr : Reachable W AnyCall h) (hT : ValidTable W.table)
    (hx : ExactTable W.table) {tol : ℝ} (ht : (h.src s).gw_lum_tol = some tol) {j : ℕ} (hj : 1 ≤ j) {e : ℝ}
    (he : W.table.e_range[j]? = some e) (h0 : 0 ≤ e) (h1 : e < 1) {q : ℝ → ℤ} (hq : (h.src s).harmonics_required = some q)
    (hlt : q e < W.table.n_max) {H : ℕ} (hH : HarmonicLimit (q e) H) :
    (1 - tol) * peters_f e ≤ powerUpTo H e := by
  obtain ⟨hq', -, -⟩ := C43_tolerances hr ht
  rw [hq] at hq'
  cases hq'
  have hlen : j < W.table.e_range.length := (List.getElem?_eq_some_iff.1 he).1
  obtain ⟨row, hrow⟩ : ∃ row, W.table.g_vals[j]? = some row :=
    ⟨_, List.getElem?_eq_getElem (by rw [hT.rows]; exact hlen)⟩
  obtain ⟨H₀, hH₀, hor⟩ := C32_tolerance hT tol hj he hrow
  rw [hH₀] at hlt hH
  rcases hor with hor | hor
  · rw [lumUpTo_exact' hT hx he hrow (by omega)] at hor
    refine hor.trans ((C06_limit h0 h1).2.1 ?_)
    rcases hH with h | h | h | h <;> omega
  · omega

/-! ### Examples -/

section Objects

/-- An object with one binary of low mass at 10 mHz and eccentricity 0.06, for LISA, without luminosity tolerance. -/
private noncomputable def eccDict : Dict :=
  [("instrument", .str "LISA"), ("custom_psd", .none), ("t_obs", .time 1e8), ("L", .str "auto"), ("approximate_R", .bool true),
   ("confusion_noise", .str "auto")]

private noncomputable def eccArgs : InitArgs where
  m_1 := .array [2e29] true
  m_2 := .array [1e29] true
  ecc := .array [0.06] false
  dist := .array [1e20] true
  f_orb := some (.array [1e-2] true)
  gw_lum_tol := 0
  sc_params := some eccDict

private noncomputable def eccCols : Cols where
  m_1 := [2e29]
  m_2 := [1e29]
  dist := [1e20]
  f_orb := [1e-2]
  ecc := [0.06]
  merged := [false]

private lemma ecc_cols : init_cols Example.world eccArgs = .ok eccCols := by
  unfold init_cols init_orientation init_f_orb eccArgs
  simp [bind, Except.bind, pure, Except.pure, Raw.hasUnits, Raw.toList, eccCols, List.replicate]

private lemma no_tolerance : ∃ e, find_eccentric_transition 0 = .ok e ∧ e < 0.06 := by
  have hm : (0.2 / 9999 : ℝ) ∈ np.linspace 0.2 10000 := by
    unfold np.linspace
    exact List.mem_map.2 ⟨1, by simp, by norm_num⟩
  have hF : (1 : ℝ) ≤ peters_f (0.2 / 9999) := by
    have h1 : (1 - (0.2 / 9999 : ℝ) ^ 2) ^ (7 / 2 : ℝ) ≤ 1 := rpow_le_one (by norm_num) (by norm_num) (by norm_num)
    have h2 : 0 < (1 - (0.2 / 9999 : ℝ) ^ 2) ^ (7 / 2 : ℝ) := rpow_pos_of_pos (by norm_num) _
    unfold peters_f
    simp only
    rw [le_div_iff₀ h2]
    norm_num at h1 ⊢
    linarith
  have hlt : peters_g 2 (0.2 / 9999) < (1 - 0) * peters_f (0.2 / 9999) := by
    have := peters_g_two_lt_one (e := 0.2 / 9999) (by norm_num) (by norm_num)
    linarith
  obtain ⟨e, he⟩ := (C33_found_iff 0).1.2 ⟨_, hm, hlt⟩
  refine ⟨e, he, ?_⟩
  by_contra hge
  push Not at hge
  have := (C33_first he).2.2 _ hm (lt_of_lt_of_le (by norm_num) hge)
  linarith

private lemma ecc_psd (f : ℝ) : ∃ y, psd_of_dict Example.world eccDict f = .ok y := by
  have hkeys : (eccDict.keys.any fun key => decide (key ∉ DEFAULT_SC_PARAMS.keys)) = false := by
    change ((plain "LISA" (.time 0)).keys.any fun key => decide (key ∉ DEFAULT_SC_PARAMS.keys)) = false
    decide
  obtain ⟨y, -, e, -⟩ := C111_confusion_psd Example.world.K Example.world.env none (Or.inl ⟨rfl, rfl⟩) (L := .auto) (R := true)
    (inst := "LISA") (fun l hl => by cases hl) (name := "auto") (t := 1e8) (Or.inl rfl) f
  unfold psd_of_dict
  rw [hkeys]
  exact ⟨y, e⟩

private lemma ecc_stationary : (rowAt eccCols 0).StationaryOver Example.world.K 1e8 1e-2 := by
  rw [stationaryOver_iff]
  change evol.change_le (evol.evolve_f_orb_circ Consts.codata2018 1e-2 (utils.chirp_mass 2e29 1e29) 1e8 0.06 1e9) 1e-2 1e-2
  rw [stationarity_iff _ (by norm_num) (by norm_num) (by norm_num) (by norm_num) (by norm_num)]
  have ha := get_a_from_f_orb_pos Consts.codata2018 (f := 1e-2) (m₁ := 2e29) (m₂ := 1e29) (by norm_num) (by norm_num) (by norm_num)
  have hc := a_cube (f := 1e-2) (m₁ := 2e29) (m₂ := 1e29) (by norm_num) (by norm_num) (by norm_num)
  set a := utils.get_a_from_f_orb Consts.codata2018 1e-2 2e29 1e29
  have h3 : (1e21 : ℝ) ≤ a ^ 3 := by
    rw [hc, le_div_iff₀ (by positivity)]
    have := Real.pi_le_four
    have := Real.pi_pos
    nlinarith
  have h1 : (1e7 : ℝ) ≤ a := by
    by_contra hlt
    push Not at hlt
    have : a ^ 3 < 1e7 ^ 3 := by gcongr
    norm_num at this h3
    linarith
  have h4 : (1e28 : ℝ) ≤ a ^ 4 := by
    have : (1e7 : ℝ) ^ 4 ≤ a ^ 4 := by gcongr
    norm_num at this ⊢
    exact this
  have hb : utils.beta Consts.codata2018 2e29 1e29 ≤ 1e16 := by
    unfold utils.beta Consts.codata2018
    norm_num
  have hb0 := Legwork.evol.beta_pos Consts.codata2018 (m₁ := 2e29) (m₂ := 1e29) (by norm_num) (by norm_num)
  have hp : ((1 : ℝ) + 1e-2) ^ (-8 / 3 : ℝ) ≤ 1 / 1.01 := by
    have : ((1 : ℝ) + 1e-2) ^ (-8 / 3 : ℝ) ≤ ((1 : ℝ) + 1e-2) ^ (-1 : ℝ) :=
      Real.rpow_le_rpow_of_exponent_le (by norm_num) (by norm_num)
    rw [Real.rpow_neg_one] at this
    norm_num at this ⊢
    exact this
  have hq : (9e-3 : ℝ) ≤ 1 - ((1 : ℝ) + 1e-2) ^ (-8 / 3 : ℝ) := by
    norm_num at hp ⊢
    linarith
  have hF := peters_f_le_ten (e := 0.06) (by norm_num) (by norm_num)
  have hd : (2e11 : ℝ) ≤ a ^ 4 / (4 * utils.beta Consts.codata2018 2e29 1e29) := by
    rw [le_div_iff₀ (by positivity)]
    norm_num at hb h4 ⊢
    linarith
  calc (1e8 : ℝ) * peters_f 0.06 ≤ 2e11 * 9e-3 := by norm_num at hF ⊢; linarith
    _ ≤ _ := mul_le_mul hd hq (by norm_num) (by positivity)

private lemma ecc_required (tol e : ℝ) : harmonics_required Example.world.table tol e = 2 := by
  have hv : ValidTable Example.world.table := by
    refine ⟨?_, ?_, ?_, ?_, ?_⟩
    · show ([0, 0.5, 0.9] : List ℝ).Pairwise (· < ·); norm_num
    · show 2 ≤ 3; norm_num
    · rfl
    · show ∀ row ∈ ([[0, 1], [1, 2], [10, 20]] : List (List ℝ)), row.length = 2; simp
    · exact le_rfl
  obtain ⟨h1, h2⟩ := C32_range hv tol e
  exact le_antisymm h2 h1

/-- Non-vacuity of `C112_interpolated` and `C112_lisa`: the object above, with the interpolated powers and noise that are the
default. -/
example : ∃ (h h' : Heap) (r : ℕ) (C : Ctx) (v ρ : ℝ), Reachable Example.world AnyCall h ∧
    get_snr Example.world 0 {} 100 none h = (.ok r, h') ∧ (h'.snrs r)[0]? = some (some v) ∧ CallCtx Example.world h' 0 C ∧
    C.t_obs = 1e8 ∧ AllHarmonicsSnr C (rowAt eccCols 0) ρ ∧ 0.94 * ρ ≤ v ∧ v ≤ 1.02 * ρ := by
  obtain ⟨e₀, he₀, hlt⟩ := no_tolerance
  obtain ⟨c, hc⟩ := curve_exists_iff.2 fun i (_ : i < 10000) => ecc_psd (scGrid i)
  have e2 : find_eccentric_transition eccArgs.gw_lum_tol = .ok e₀ := he₀
  have e3 : filled_params eccArgs.sc_params = .ok eccDict := rfl
  obtain ⟨k, hk, hinit⟩ : ∃ k, k = heapAfterInit Example.world .Source eccArgs eccCols e₀ eccDict (some c) Example.start ∧
      init Example.world .Source eccArgs Example.start = (.ok 0, k) := by
    refine ⟨_, rfl, ?_⟩
    rcases init_run Example.world .Source eccArgs Example.start with ⟨_, _, _, _, h1, h2, h3, h4, h5⟩ | ⟨-, h⟩
    · rw [ecc_cols] at h1
      rw [e2] at h2
      rw [e3] at h3
      cases h1
      cases h2
      cases h3
      rcases h4 with ⟨-, c', hc', rfl⟩ | ⟨h4, -⟩
      · rw [hc] at hc'
        cases hc'
        exact h5
      · cases h4
    · exfalso
      rcases h with ⟨e, he⟩ | ⟨e, he⟩ | ⟨e, he⟩ | ⟨-, d, e, hd, he⟩
      · rw [ecc_cols] at he
        cases he
      · rw [e2] at he
        cases he
      · rw [e3] at he
        cases he
      · rw [e3] at hd
        cases hd
        rw [hc] at he
        cases he
  have hsrc : k.src 0 = newObject Example.world .Source eccArgs eccCols e₀ (some c) 1 := by
    rw [hk]
    change Function.update Example.start.src 0 _ 0 = _
    rw [Function.update_self]
    rfl
  have hpar : k.par 1 = ⟨eccDict, some 0⟩ := by
    rw [hk]
    change Function.update Example.start.par 1 _ 1 = _
    rw [Function.update_self]
    rfl
  have hreach : Reachable Example.world AnyCall k := by
    have h1 := Reachable.call (.init .Source eccArgs) (Reachable.start (W := Example.world) (ok := AnyCall) (h := Example.start)
      fun _ => rfl) trivial
    have h2 : (Op.run Example.world (.init .Source eccArgs) Example.start).2 = k := by
      change ((init Example.world .Source eccArgs >>= fun _ => pure ()) Example.start).2 = k
      rw [PyM.bind_run, hinit]
      rfl
    rwa [h2] at h1
  have hcls : (k.src 0).cls = .Source := by rw [hsrc]; rfl
  have hcols : (k.src 0).cols = eccCols := by rw [hsrc]; rfl
  have hp : (k.src 0).sc_params = some 1 := by rw [hsrc]; rfl
  have hrect : Rect (k.src 0).cols := by
    rw [hcols]
    refine ⟨rfl, rfl, rfl, rfl, rfl, ?_, ?_, ?_, ?_, ?_, ?_⟩ <;> simp [eccCols]
  have hsch : CompleteSchedule Example.world (k.src 0) := by
    rw [hsrc]
    intro hn
    simp [newObject, eccArgs] at hn
  have hno : FitsMask (k.src 0).cols none := fun m hm => by cases hm
  have hready : Ready Example.world k 0 := by
    refine ⟨hrect, by rw [hsrc]; exact ⟨rfl, rfl, rfl⟩, ⟨1, 1e8, c, hp, by rw [hpar]; exact (filled_params_ok e3).1, by rw [hpar]; rfl,
      by rw [hpar]; exact curve_ok_iff.1 hc, by rw [hsrc]; rfl⟩, ?_, ?_⟩
    · unfold storedSnr; rw [hsrc]; simp [newObject]
    · unfold storedHarm; rw [hsrc]; simp [newObject]
  obtain ⟨r, h', hrun⟩ := C36_succeeds (n := 100) (ws := none) (by norm_num) hsch hno hready
  have hi : (rows (k.src 0).cols)[0]? = some (rowAt eccCols 0) := by rw [hcols]; rfl
  have hch : Chosen none 0 := fun m hm => by cases hm
  obtain ⟨p', hp', hp'', hst⟩ := C36_settings (Or.inl hcls) (by norm_num) hsch hrect hno hrun
  rw [hp] at hp'
  cases hp'
  obtain ⟨⟨v1, a1, b1⟩, ⟨v2, a2, b2⟩, ⟨v3, a3, b3⟩, ⟨v4, a4, b4⟩, ⟨v5, a5, b5⟩, ⟨v6, a6, b6⟩⟩ := hst
  have hgiven : ∀ {key : String} {v w : PVal}, Given (k.par 1).dict key .none v → (k.par 1).dict.get? key = some w → v = w := by
    intro key v w hg hw
    rcases hg with ⟨hg, -⟩ | ⟨-, hg⟩
    · exact absurd rfl hg
    · rw [hg] at hw
      exact Option.some.inj hw
  rw [hgiven a1 (w := .str "LISA") (by rw [hpar]; rfl)] at b1
  rw [hgiven a2 (w := .none) (by rw [hpar]; rfl)] at b2
  rw [hgiven a3 (w := .str "auto") (by rw [hpar]; rfl)] at b3
  rw [hgiven a4 (w := .bool true) (by rw [hpar]; rfl)] at b4
  rw [hgiven a5 (w := .str "auto") (by rw [hpar]; rfl)] at b5
  have hv6 := hgiven a6 (w := .time 1e8) (by rw [hpar]; rfl)
  have b6' : (h'.par 1).dict.get? "t_obs" = some (.time 1e8) := by
    rcases b6 with b6 | ⟨b6, -⟩
    · rw [b6, hv6]
    · rw [hv6] at b6
      cases b6
  obtain ⟨_, _, _, hsrc'⟩ := (get_snr_snrCall Example.world 0 {} 100 none k).src 0
  rw [hrun] at hsrc'
  simp only at hsrc'
  obtain ⟨C, v, ρ, g1, g2, g3, g4, g5, g6⟩ := C112_lisa rfl hreach (Or.inl hcls) (by norm_num) hsch hrect hno hrun hp''
    (t_obs := 1e8) ⟨b1, b3, b4, Or.inl b5, b6'⟩ b5 b2 (by norm_num [psd.yr]) hi rfl hch
    (by
      have : (h'.src 0).stat_tol = 1e-2 := by rw [hsrc', hsrc]; rfl
      rw [this]
      exact ecc_stationary)
    (etol := e₀) (by rw [hsrc', hsrc]; rfl) hlt (by show (0.06 : ℝ) < 1; norm_num)
    (q := harmonics_required Example.world.table 0) (by rw [hsrc', hsrc]; rfl) (H := 10)
    (by left; change 1 < harmonics_required Example.world.table 0 0.06 ∧ harmonics_required Example.world.table 0 0.06 ≤ 10 ∧ _
        rw [ecc_required]; norm_num)
    (by show (6e-3 : ℝ) ≤ 1e-2; norm_num) (by show ((10 : ℕ) : ℝ) * 1e-2 ≤ 2; norm_num)
    (fun g hg m h1 h2 => by
      rw [hsrc', hsrc] at hg
      cases hg
      exact within_refl (by norm_num) (C05_nonneg _ (by show (0 : ℝ) ≤ 0.06; norm_num) (by show (0.06 : ℝ) ≤ 1; norm_num)))
    (by
      change 0.95 * peters_f 0.06 ≤ powerUpTo 10 0.06
      have h1 := (peters_g_two_ge (e := 0.06) (by norm_num) le_rfl).1
      have h2 : peters_g 2 0.06 ≤ powerUpTo 10 0.06 := by
        unfold powerUpTo
        have := Finset.single_le_sum (f := fun n : ℕ => peters_g n 0.06) (s := Finset.Icc 1 10)
          (fun n _ => C05_nonneg _ (by norm_num) (by norm_num)) (show 2 ∈ Finset.Icc 1 10 by simp)
        exact_mod_cast this
      norm_num at h1 ⊢
      linarith)
  exact ⟨k, h', r, C, v, ρ, hreach, hrun, g3, g1, g2, g4, g5, g6⟩

private lemma peters_g_two_three : 0.1 ≤ peters_g 2 0.3 := by
  have key : ∀ k : ℤ, |jv k 0.6 - (0.91 * jv k 0 + 0.045 * (jv (k - 2) 0 + jv (k + 2) 0) +
      0.3 * (jv (k - 1) 0 - jv (k + 1) 0))| ≤ 0.0437 := by
    intro k
    have := jv_expansion k (by norm_num : (0 : ℝ) ≤ 0.6) (by norm_num)
    refine le_trans (le_of_eq ?_) (this.trans (by norm_num))
    norm_num
  have h0 := abs_le.1 (key 0)
  have h2 := abs_le.1 (key 2)
  have h4 := abs_le.1 (key 4)
  simp only [jv_zero] at h0 h2 h4
  norm_num at h0 h2 h4
  unfold peters_g
  simp only
  norm_num
  generalize jv 0 (3 / 5) = j0 at *
  generalize jv 2 (3 / 5) = j2 at *
  generalize jv 4 (3 / 5) = j4 at *
  have b2 : 0.6 ≤ j0 - 2 * j2 + j4 := by norm_num; linarith
  have s2 : (0.6 : ℝ) ^ 2 ≤ (j0 - 2 * j2 + j4) ^ 2 := by gcongr
  norm_num at s2
  nlinarith [sq_nonneg (j0 - 3 / 5 * jv 1 (3 / 5) + j2 + 3 / 5 * jv 3 (3 / 5) - j4), sq_nonneg j2]

/-- Non-vacuity of `C112_get_snr`: the eccentric binary of the example object, in white noise. -/
example : ∃ (h' : Heap) (r : ℕ) (C : Ctx) (v ρ : ℝ), Reachable Example.world AnyCall Example.heap ∧
    get_snr Example.world 0 {} 100 none Example.heap = (.ok r, h') ∧ (h'.snrs r)[1]? = some (some v) ∧
    CallCtx Example.world h' 0 C ∧ AllHarmonicsSnr C (rowAt Example.cols 1) ρ ∧
    v ≤ 1.0017 ^ ((0 : ℝ) / 2) * √1 * ρ ∧ √((1 - 0.99) / (1 - 0.99 + 1 * 0.99)) * ρ ≤ 1.0017 ^ ((0 : ℝ) / 2) * √1 * v := by
  have hno : FitsMask (Example.heap.src 0).cols none := fun m hm => by cases hm
  have hcols : (Example.heap.src 0).cols = Example.cols := by rw [Example.heap_src]; rfl
  have hcls : (Example.heap.src 0).cls = .Source := by rw [Example.heap_src]; rfl
  obtain ⟨r, h', hrun⟩ := C36_succeeds (n := 100) (ws := none) (by norm_num) example_schedule hno example_ready
  obtain ⟨_, _, _, hsrc'⟩ := (get_snr_snrCall Example.world 0 {} 100 none Example.heap).src 0
  rw [hrun] at hsrc'
  simp only at hsrc'
  obtain ⟨p', hp', hp'', hst⟩ := C36_settings (Or.inl hcls) (by norm_num) example_schedule example_rect hno hrun
  have hp : (Example.heap.src 0).sc_params = some 1 := by rw [Example.heap_src]; rfl
  rw [hp] at hp'
  cases hp'
  obtain ⟨⟨v1, a1, b1⟩, ⟨v2, a2, b2⟩, ⟨v3, a3, b3⟩, ⟨v4, a4, b4⟩, ⟨v5, a5, b5⟩, ⟨v6, a6, b6⟩⟩ := hst
  have hd : (Example.heap.par 1).dict = Example.params 0 := by rw [Example.heap_par]
  have hgiven : ∀ {key : String} {v w : PVal}, Given (Example.heap.par 1).dict key .none v →
      (Example.heap.par 1).dict.get? key = some w → v = w := by
    intro key v w hg hw
    rcases hg with ⟨hg, -⟩ | ⟨-, hg⟩
    · exact absurd rfl hg
    · rw [hg] at hw
      exact Option.some.inj hw
  rw [hgiven a1 (w := .str "custom") (by rw [hd]; rfl)] at b1
  rw [hgiven a2 (w := .psdFn 0) (by rw [hd]; rfl)] at b2
  rw [hgiven a3 (w := .str "auto") (by rw [hd]; rfl)] at b3
  rw [hgiven a4 (w := .bool false) (by rw [hd]; rfl)] at b4
  rw [hgiven a5 (w := .str "auto") (by rw [hd]; rfl)] at b5
  have hv6 := hgiven a6 (w := .time 1e8) (by rw [hd]; rfl)
  have b6' : (h'.par 1).dict.get? "t_obs" = some (.time 1e8) := by
    rcases b6 with b6 | ⟨b6, -⟩
    · rw [b6, hv6]
    · rw [hv6] at b6
      cases b6
  have hreach : Reachable Example.world AnyCall Example.heap := Example.reachable (ok := AnyCall) trivial
  have heq : (h'.par 1).dict.eq (Example.params 0) := sixKeys_eq (six_keys (snr_reachable hreach trivial hrun) hp'')
    (filled_params_ok (Example.filled_custom 0)).1 (f := ⟨.time 1e8, .str "custom", .psdFn 0, .str "auto", .bool false, .str "auto"⟩)
    (agrees_iff.2 ⟨b6', b1, b2, b3, b4, b5⟩) (agrees_iff.2 ⟨rfl, rfl, rfl, rfl, rfl, rfl⟩)
  have hN : ∀ f, psd_of_dict Example.world (h'.par 1).dict f = .ok ((1e-40 : ℝ) : WithTop ℝ) := by
    intro f
    rw [psd_of_dict_congr _ heq, Example.psd_params]
    norm_num
  have hetol : Example.eccTol < 0.3 :=
    lt_of_le_of_lt (linspace_mem (by norm_num) (by norm_num) (C33_first Example.find_eccTol).1).2 (by norm_num)
  obtain ⟨C, v, ρ, g1, g2, g3, g4, g5, g6⟩ := C112_get_snr hreach (Or.inl hcls) (by norm_num) example_schedule example_rect hno hrun
    hp'' b6' (by norm_num) (k := 0) le_rfl (S := fun _ => 1e-40) ⟨fun f _ _ => by norm_num, fun f f' _ _ _ => by simp⟩
    (fun f _ _ => hN f) (i := 1) (x := rowAt Example.cols 1) (by rw [hcols]; rfl) rfl (fun m hm => by cases hm)
    (by
      have : (h'.src 0).stat_tol = 0.01 := by rw [hsrc', Example.heap_src]; show (1e-2 : ℝ) = 0.01; norm_num
      rw [this]
      exact example_wide)
    (etol := Example.eccTol) (by rw [hsrc', Example.heap_src]; rfl) hetol (by show (0.3 : ℝ) < 1; norm_num)
    (q := harmonics_required Example.world.table 0.05) (by rw [hsrc', Example.heap_src]; rfl) (H := 10)
    (by left; rw [ecc_required]; norm_num)
    (by show (1e-7 : ℝ) ≤ 1e-4; norm_num) (by show ((10 : ℕ) : ℝ) * 1e-4 ≤ 2; norm_num) (γ := 1) le_rfl
    (fun g hg m h1 h2 => by
      rw [hsrc', Example.heap_src] at hg
      cases hg
      exact within_refl le_rfl (C05_nonneg _ (by show (0 : ℝ) ≤ 0.3; norm_num) (by show (0.3 : ℝ) ≤ 1; norm_num)))
    (N := fun _ => ((1e-40 : ℝ) : WithTop ℝ)) (fun n _ => hN _)
    (fun n _ => by
      have : (0 : ℝ) < 1e-40 := by norm_num
      exact_mod_cast this)
    (tol := 0.99) (by norm_num) (by norm_num)
    (by
      change (1 - 0.99) * peters_f 0.3 ≤ powerUpTo 10 0.3
      have h1 := peters_g_two_three
      have h3 := peters_f_le_ten (e := 0.3) (by norm_num) le_rfl
      have h2 : peters_g 2 0.3 ≤ powerUpTo 10 0.3 := by
        unfold powerUpTo
        have := Finset.single_le_sum (f := fun n : ℕ => peters_g n 0.3) (s := Finset.Icc 1 10)
          (fun n _ => C05_nonneg _ (by norm_num) (by norm_num)) (show 2 ∈ Finset.Icc 1 10 by simp)
        exact_mod_cast this
      norm_num at h1 h3 ⊢
      linarith)
    (B := 121e-40) (by norm_num) (R := 1) (by norm_num)
    (fun n _ h2 => ⟨1e-40, rfl, by
      have : (n : ℝ) ≤ 10 := by exact_mod_cast h2
      have h3 : (n : ℝ) ^ 2 ≤ 100 := by nlinarith [(Nat.cast_nonneg n : (0 : ℝ) ≤ n)]
      norm_num
      linarith⟩)
    (fun n S h1 h2 => by
      have h2 : S = 1e-40 := by
        have : (1e-40 : ℝ) = S := by exact_mod_cast h2
        exact this.symm
      subst h2
      have : (11 : ℝ) ≤ n := by exact_mod_cast h1
      have h3 : (121 : ℝ) ≤ (n : ℝ) ^ 2 := by nlinarith
      norm_num
      linarith)
  exact ⟨h', r, C, v, ρ, hreach, hrun, g3, g1, g4, g5, g6⟩

/-- Non-vacuity of `C112_power`: the exact table for the eccentricities 0 and 0.06 with three harmonics, of which two are needed,
and an object with the default tolerance. -/
example : ∃ (W : World) (h : Heap) (q : ℝ → ℤ), Reachable W AnyCall h ∧ ValidTable W.table ∧ ExactTable W.table ∧
    (h.src 0).gw_lum_tol = some 0.05 ∧ W.table.e_range[1]? = some (0.06 : ℝ) ∧ (h.src 0).harmonics_required = some q ∧ q 0.06 = 2 ∧
    q 0.06 < W.table.n_max ∧ (1 - 0.05) * peters_f 0.06 ≤ powerUpTo 10 0.06 := by
  obtain ⟨T, hT, hx, hes, hn⟩ := C06_exact_table (es := [0, 0.06]) (by norm_num) (by norm_num) (N := 3) (by norm_num)
  have he0 : T.e_range[0]? = some 0 := by rw [hes]; rfl
  have he1 : T.e_range[1]? = some (0.06 : ℝ) := by rw [hes]; rfl
  have hq : harmonics_required T 0.05 0.06 = 2 := by
    refine le_antisymm ?_ (C32_range hT _ _).1
    by_contra hlt
    push Not at hlt
    obtain ⟨row, hrow⟩ : ∃ row, T.g_vals[0 + 1]? = some row :=
      ⟨_, List.getElem?_eq_getElem (by rw [hT.rows, hes]; norm_num)⟩
    have := C32_minimal hT 0.05 (i := 0) he0 he1 hrow (k := 2) (C32_first hT _ he0 le_rfl).le (by exact_mod_cast hlt)
    rw [lumUpTo_exact' hT hx he1 hrow (by omega)] at this
    have h1 := (peters_g_two_ge (e := 0.06) (by norm_num) le_rfl).1
    have h2 : peters_g 2 0.06 ≤ powerUpTo 2 0.06 := by
      unfold powerUpTo
      have := Finset.single_le_sum (f := fun n : ℕ => peters_g n 0.06) (s := Finset.Icc 1 2)
        (fun n _ => C05_nonneg _ (by norm_num) (by norm_num)) (show 2 ∈ Finset.Icc 1 2 by simp)
      exact_mod_cast this
    linarith
  obtain ⟨W, hW⟩ : ∃ W : World, W = { Example.world with table := T } := ⟨_, rfl⟩
  obtain ⟨A, hA⟩ : ∃ A : InitArgs, A = { Example.args with interpolate_sc := false } := ⟨_, rfl⟩
  have e1 : init_cols W A = .ok Example.cols := by rw [hW, hA]; exact Example.init_cols_args
  have e2 : find_eccentric_transition A.gw_lum_tol = .ok Example.eccTol := by rw [hA]; exact Example.find_eccTol
  have e3 : filled_params A.sc_params = .ok (Example.params 0) := by rw [hA]; rfl
  have hinit : init W .Source A Example.start =
      (.ok 0, heapAfterInit W .Source A Example.cols Example.eccTol (Example.params 0) none Example.start) := by
    rcases init_run W .Source A Example.start with ⟨_, _, _, _, h1, h2, h3, h4, h5⟩ | ⟨-, h⟩
    · rw [e1] at h1
      rw [e2] at h2
      rw [e3] at h3
      cases h1
      cases h2
      cases h3
      rcases h4 with ⟨h4, -⟩ | ⟨-, rfl⟩
      · rw [hA] at h4
        cases h4
      · exact h5
    · exfalso
      rcases h with ⟨e, he⟩ | ⟨e, he⟩ | ⟨e, he⟩ | ⟨h4, -⟩
      · rw [e1] at he
        cases he
      · rw [e2] at he
        cases he
      · rw [e3] at he
        cases he
      · rw [hA] at h4
        cases h4
  obtain ⟨k, hk⟩ : ∃ k, k = heapAfterInit W .Source A Example.cols Example.eccTol (Example.params 0) none Example.start := ⟨_, rfl⟩
  have hsrc : k.src 0 = newObject W .Source A Example.cols Example.eccTol none 1 := by
    rw [hk]
    change Function.update Example.start.src 0 _ 0 = _
    rw [Function.update_self]
    rfl
  rw [← hk] at hinit
  have hreach : Reachable W AnyCall k := by
    have h1 := Reachable.call (.init .Source A) (Reachable.start (W := W) (ok := AnyCall) (h := Example.start) fun _ => rfl) trivial
    have h2 : (Op.run W (.init .Source A) Example.start).2 = k := by
      change ((init W .Source A >>= fun _ => pure ()) Example.start).2 = k
      rw [PyM.bind_run, hinit]
      rfl
    rwa [h2] at h1
  have hWT : W.table = T := by rw [hW]
  have htol : (k.src 0).gw_lum_tol = some 0.05 := by rw [hsrc, hA]; rfl
  have hreq : (k.src 0).harmonics_required = some (harmonics_required T 0.05) := by rw [hsrc, hA, ← hWT]; rfl
  have hlt : harmonics_required T 0.05 0.06 < (W.table.n_max : ℤ) := by rw [hq, hWT, hn]; norm_num
  refine ⟨W, k, _, hreach, hWT ▸ hT, hWT ▸ hx, htol, by rw [hWT]; exact he1, hreq, hq, hlt, ?_⟩
  exact C112_power hreach (hWT ▸ hT) (hWT ▸ hx) htol (j := 1) le_rfl (by rw [hWT]; exact he1) (by norm_num) (by norm_num) hreq hlt
    (by left; rw [hq]; norm_num)

end Objects

end Legwork.Props
