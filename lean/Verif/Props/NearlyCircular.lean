import Verif.Props.EccEndToEnd
import Verif.Props.VisSource
import Verif.Lemmas.BesselTwo

/-!
# How accurate the SNRs of slightly eccentric binaries are: C114
-/

namespace Legwork.Props

open Real Legwork.source Legwork.Spec Legwork.snr Legwork.strain Legwork.utils Legwork.evol
open Filter (Tendsto atTop)
open PyM hiding bind

/-- The first harmonic of a slightly eccentric binary carries little power. -/
private lemma peters_g_one_le {e : ℝ} (h0 : 0 ≤ e) (h1 : e ≤ 0.06) : peters_g 1 e ≤ 0.0006 := by
  norm_num at h1
  have he2 : e ^ 2 ≤ 9 / 2500 := by nlinarith
  have he20 : 0 ≤ e ^ 2 := sq_nonneg e
  have key : ∀ k : ℤ, |jv k e - ((1 - e ^ 2 / 4) * jv k 0 + e ^ 2 / 8 * (jv (k - 2) 0 + jv (k + 2) 0) +
      e / 2 * (jv (k - 1) 0 - jv (k + 1) 0))| ≤ 0.00004 := by
    intro k
    refine (jv_expansion k h0 (by linarith)).trans ?_
    have a : e ≤ 0.06 := by norm_num; linarith
    calc _ ≤ (0.06 : ℝ) ^ 4 * (5 / 96) + 0.06 ^ 3 / 6 + 0.06 ^ 5 / 100 := by gcongr
      _ ≤ _ := by norm_num
  have jm := abs_le.1 (key (-1))
  have j0 := abs_le.1 (key 0)
  have j1 := abs_le.1 (key 1)
  have j2 := abs_le.1 (key 2)
  have j3 := abs_le.1 (key 3)
  simp only [jv_zero] at jm j0 j1 j2 j3
  norm_num at jm j0 j1 j2 j3
  unfold peters_g
  simp only
  norm_num
  generalize jv (-1) e = zm at *
  generalize jv 0 e = z0 at *
  generalize jv 1 e = z1 at *
  generalize jv 2 e = z2 at *
  generalize jv 3 e = z3 at *
  have m0 := mul_le_mul_of_nonneg_left j0.1 h0
  have m0' := mul_le_mul_of_nonneg_left j0.2 h0
  have m2 := mul_le_mul_of_nonneg_left j2.1 h0
  have m2' := mul_le_mul_of_nonneg_left j2.2 h0
  have he3 : e * e ^ 2 ≤ e * (9 / 2500) := mul_le_mul_of_nonneg_left he2 h0
  have he30 : 0 ≤ e * e ^ 2 := mul_nonneg h0 he20
  have b1 : zm - 2 * e * z0 + 2 * z1 + 2 * e * z2 - z3 ≤ 0.091 := by norm_num; nlinarith
  have b1' : -0.091 ≤ zm - 2 * e * z0 + 2 * z1 + 2 * e * z2 - z3 := by norm_num; nlinarith
  have b2 : zm - 2 * z1 + z3 ≤ 0.091 := by norm_num; nlinarith
  have b2' : -0.091 ≤ zm - 2 * z1 + z3 := by norm_num; nlinarith
  have b3 : z1 ≤ 0.031 := by norm_num; nlinarith
  have b3' : -0.031 ≤ z1 := by norm_num; nlinarith
  have s1 := sq_le_sq' b1' b1
  have s2 := sq_le_sq' b2' b2
  have s3 := sq_le_sq' b3' b3
  have s4 : (1 - e ^ 2) * (zm - 2 * z1 + z3) ^ 2 ≤ 1 * 0.091 ^ 2 :=
    mul_le_mul (by linarith) s2 (sq_nonneg _) (by norm_num)
  norm_num at s1 s3 s4 ⊢
  linarith

private lemma power_bounds {e : ℝ} (h0 : 0 ≤ e) (h1 : e ≤ 0.06) :
    0.979 ≤ peters_g 2 e ∧ peters_g 2 e ≤ 1 ∧ peters_f e ≤ 1.024 := by
  refine ⟨(peters_g_two_ge h0 h1).2, ?_, ?_⟩
  · rcases h0.eq_or_lt with rfl | h
    · rw [C05_circular (by norm_num), if_pos rfl]
    · exact (peters_g_two_lt_one h (h1.trans (by norm_num))).le
  · norm_num at h1
    have he2 : e ^ 2 ≤ 9 / 2500 := by nlinarith
    have he20 : 0 ≤ e ^ 2 := sq_nonneg e
    unfold peters_f
    simp only
    have hb : 1 + (7 / 2 : ℝ) * (-e ^ 2) ≤ (1 + -e ^ 2) ^ (7 / 2 : ℝ) :=
      one_add_mul_self_le_rpow_one_add (by nlinarith) (by norm_num)
    rw [← sub_eq_add_neg] at hb
    rw [div_le_iff₀ (rpow_pos_of_pos (by nlinarith) _)]
    have h4 : e ^ 4 ≤ 9 / 2500 * e ^ 2 := by
      have : e ^ 4 = e ^ 2 * e ^ 2 := by ring
      rw [this]
      gcongr
    nlinarith

private lemma weight_le' {N : ℕ → WithTop ℝ} {B : ℝ} (hB : 0 < B) {k : ℕ}
    (h : ∀ S : ℝ, N (k + 1) = S → B ≤ ((k : ℝ) + 1) ^ 2 * S) : weight N k ≤ 1 / B := by
  unfold weight
  generalize N (k + 1) = ν at *
  induction ν using WithTop.recTopCoe with
  | top => simp only [divNoise]; positivity
  | coe y =>
    have hy := h y rfl
    simp only [divNoise]
    rw [div_div]
    exact one_div_le_one_div_of_le hB hy

/-- The SNR of one circular source, with interpolated powers or without. -/
private lemma circ_any (C : Ctx) (ht : 0 ≤ C.t_obs) {m f d S₂ : ℝ} (hS : 0 < S₂) (hn : noise C (2 * f) = .ok (S₂ : ℝ)) :
    snr_circ_stationary C [⟨m, f, d, {}⟩] = .ok [some √(h_0_val C.K C.interpolated_g m d f 0 2 ^ 2 * C.t_obs / S₂)] := by
  rw [snr_circ_stationary_iff]
  set h := h_0_val C.K C.interpolated_g m d f 0 2 with hh
  have hc0 : 0 ≤ h ^ 2 * C.t_obs / S₂ := by positivity
  refine mapM_ok (g := fun _ => some √(h ^ 2 * C.t_obs / S₂)) fun x hx => ?_
  rw [List.mem_singleton] at hx
  subst hx
  unfold circ1
  rw [modulation_none, ok_bind]
  simp only
  rw [hn, ok_bind, one_mul, ← hh]
  simp only [divNoise]
  rw [sqrt?_nonneg hc0]
  rfl

/-- **C114** (one harmonic instead of all). Let `c` be the SNR of a binary treated as circular, and `ρ` that of all its
harmonics, computed without interpolated powers. With `S₂` the noise at the second harmonic, noise of at least `B₁` at the
first and `n² S(n f_orb)` at least `B` for the harmonics `n ≥ 3`, the ratio of the squares is at least `g(2, e)` and at most
`g(2, e) + 4 S₂ (g(1, e)/B₁ + (F(e) - g(1, e) - g(2, e))/B)`. -/
theorem C114_circular (C : Ctx) (ht : 0 ≤ C.t_obs) (hig : C.interpolated_g = none) {s : EccSrc} (h0 : 0 ≤ s.ecc)
    (h1 : s.ecc < 1) {N : ℕ → WithTop ℝ} (hN : ∀ n : ℕ, 1 ≤ n → noise C (n * s.f_orb) = .ok (N n)) (hp : ∀ n, 1 ≤ n → 0 < N n)
    {B₁ B S₂ : ℝ} (hB₁ : 0 < B₁) (hB : 0 < B) (h2 : N 2 = S₂) (hfirst : ∀ S : ℝ, N 1 = S → B₁ ≤ S)
    (hout : ∀ (n : ℕ) (S : ℝ), 3 ≤ n → N n = S → B ≤ (n : ℝ) ^ 2 * S) :
    ∃ (v : ℕ → ℝ) (ρ c : ℝ), (∀ H, snr_ecc_stationary C [s] H false false = .ok (.total [some (v H)])) ∧
      Tendsto v atTop (nhds ρ) ∧ 0 ≤ ρ ∧ snr_circ_stationary C [⟨s.m_c, s.f_orb, s.dist, {}⟩] = .ok [some c] ∧ 0 ≤ c ∧
      peters_g 2 s.ecc * c ^ 2 ≤ ρ ^ 2 ∧ ρ ^ 2 ≤ (peters_g 2 s.ecc + 4 * S₂ * (peters_g 1 s.ecc / B₁ +
        (peters_f s.ecc - peters_g 1 s.ecc - peters_g 2 s.ecc) / B)) * c ^ 2 := by
  have ha : ∀ k : ℕ, 0 ≤ peters_g ((k : ℤ) + 1) s.ecc := fun k => C05_nonneg _ h0 h1.le
  have hS0 : 0 < S₂ := by
    have := hp 2 (by norm_num)
    rw [h2] at this
    exact_mod_cast this
  obtain ⟨hsum, htail⟩ := tail_le ha (weight_nonneg hp) (C06_sum h0 h1) (H := 2) (hi := 1 / B) fun k hk =>
    weight_le' hB fun S hS => by
      have := hout (k + 1) S (by omega) hS
      push_cast at this
      exact this
  have hnn : ∀ k : ℕ, 0 ≤ peters_g ((k : ℤ) + 1) s.ecc * weight N k := fun k => mul_nonneg (ha k) (weight_nonneg hp k)
  set h := h_0_val C.K none s.m_c s.dist s.f_orb 0 2 with hh
  set A := 4 * h ^ 2 * C.t_obs with hA
  have hA0 : 0 ≤ A := by positivity
  have hc0 : 0 ≤ h ^ 2 * C.t_obs / S₂ := by positivity
  have hn2 := hN 2 (by norm_num)
  rw [h2] at hn2
  refine ⟨fun H => √(A * ∑ k ∈ Finset.range H, peters_g ((k : ℤ) + 1) s.ecc * weight N k),
    √(A * ∑' k : ℕ, peters_g ((k : ℤ) + 1) s.ecc * weight N k), √(h ^ 2 * C.t_obs / S₂),
    fun H => snr_upTo C ht hig h0 h1.le hN hp H, ?_, sqrt_nonneg _, ?_, sqrt_nonneg _, ?_⟩
  · exact (continuous_sqrt.tendsto _).comp ((hsum.hasSum.tendsto_sum_nat).const_mul A)
  · have := circ_any C ht (m := s.m_c) (d := s.dist) hS0 (by exact_mod_cast hn2)
    rw [hig] at this
    exact this
  · rw [sq_sqrt hc0, sq_sqrt (mul_nonneg hA0 (tsum_nonneg hnn))]
    have hw1 : weight N 0 ≤ 1 / B₁ := weight_le' hB₁ fun S hS => by
      have := hfirst S hS
      norm_num
      exact this
    have hw2 : weight N 1 = 1 / (4 * S₂) := by
      unfold weight
      rw [h2]
      simp only [divNoise]
      rw [div_div]
      norm_num
    have hlow := hsum.sum_le_tsum (Finset.range 2) (fun k _ => hnn k)
    rw [Finset.sum_range_succ, Finset.sum_range_one] at hlow htail
    rw [Finset.sum_range_succ, Finset.sum_range_one] at htail
    norm_num at hlow htail
    rw [hw2] at hlow htail
    have g1 : 0 ≤ peters_g 1 s.ecc := C05_nonneg _ h0 h1.le
    have e1 := mul_le_mul_of_nonneg_left hw1 g1
    have e0 := mul_nonneg g1 (weight_nonneg hp 0)
    generalize ∑' k : ℕ, peters_g ((k : ℤ) + 1) s.ecc * weight N k = Y at *
    have eA : A = 4 * S₂ * (h ^ 2 * C.t_obs / S₂) := by
      rw [hA]
      field_simp
    rw [eA]
    set c2 := h ^ 2 * C.t_obs / S₂ with hc2
    have e4 : 4 * S₂ * (peters_g 2 s.ecc * (1 / (4 * S₂))) = peters_g 2 s.ecc := by field_simp
    have hS4 : 0 ≤ 4 * S₂ := by positivity
    constructor
    · have : peters_g 2 s.ecc ≤ 4 * S₂ * Y := by
        rw [← e4]
        exact mul_le_mul_of_nonneg_left (by linarith) hS4
      calc _ ≤ 4 * S₂ * Y * c2 := mul_le_mul_of_nonneg_right this hc0
        _ = _ := by ring
    · have : 4 * S₂ * Y ≤ peters_g 2 s.ecc + 4 * S₂ * (peters_g 1 s.ecc / B₁ +
          (peters_f s.ecc - peters_g 1 s.ecc - peters_g 2 s.ecc) / B) := by
        calc 4 * S₂ * Y ≤ 4 * S₂ * (peters_g 2 s.ecc * (1 / (4 * S₂)) + (peters_g 1 s.ecc / B₁ +
            (peters_f s.ecc - peters_g 1 s.ecc - peters_g 2 s.ecc) / B)) := by
              refine mul_le_mul_of_nonneg_left ?_ hS4
              have t1 : peters_g 1 s.ecc * (1 / B₁) = peters_g 1 s.ecc / B₁ := by ring
              have t2 : (peters_f s.ecc - peters_g 1 s.ecc - peters_g 2 s.ecc) / B =
                B⁻¹ * (peters_f s.ecc - (peters_g 1 s.ecc + peters_g 2 s.ecc)) := by ring
              rw [t2, ← t1]
              linarith
          _ = _ := by rw [mul_add, e4]
      calc _ = 4 * S₂ * Y * c2 := by ring
        _ ≤ _ := mul_le_mul_of_nonneg_right this hc0

private lemma h_0_two_within (K : Consts) {g : ℤ → ℝ → ℝ} {m d f γ : ℝ} (hγ : 1 ≤ γ) (hg : WithinFactor γ (g 2 0) 1) :
    WithinFactor γ (h_0_val K (some g) m d f 0 2 ^ 2) (h_0_val K none m d f 0 2 ^ 2) := by
  have hg0 : 0 ≤ g 2 0 := by
    have := hg.2
    by_contra hlt
    push Not at hlt
    nlinarith
  unfold h_0_val
  simp only [mul_pow, div_pow]
  have e1 : g_vals (some g) 2 0 = g 2 0 := by
    unfold g_vals
    simp [hg0, not_lt.2 hg0]
  have e2 : g_vals none 2 0 = 1 := by
    change peters_g 2 0 = 1
    rw [C05_circular (by norm_num), if_pos rfl]
  rw [e1, e2]
  have hsq : ((g 2 0) ^ (1 / 2 : ℝ)) ^ 2 = g 2 0 := by
    rw [← sqrt_eq_rpow, sq_sqrt hg0]
  rw [hsq, one_rpow, one_pow]
  generalize hA : ((((2 : ℝ) ^ (28 / 3 : ℝ) / 5) ^ (0.5 : ℝ)) ^ 2 * (K.G ^ (5 / 3 : ℝ)) ^ 2 / (K.c ^ 4) ^ 2 *
    (m ^ (5 / 3 : ℝ)) ^ 2 * ((π * f) ^ (2 / 3 : ℝ)) ^ 2 / d ^ 2) = A
  have hA0 : 0 ≤ A := by rw [← hA]; positivity
  have hn0 : 0 ≤ A / (((2 : ℤ) : ℝ)) ^ 2 := by positivity
  have h1 := mul_le_mul_of_nonneg_left hg.1 hn0
  have h2 := mul_le_mul_of_nonneg_left hg.2 hn0
  constructor
  · calc A * (g 2 0 / (((2 : ℤ) : ℝ)) ^ 2) = A / (((2 : ℤ) : ℝ)) ^ 2 * g 2 0 := by ring
      _ ≤ _ := h1
      _ = _ := by ring
  · calc A * (1 / (((2 : ℤ) : ℝ)) ^ 2) = A / (((2 : ℤ) : ℝ)) ^ 2 * 1 := by ring
      _ ≤ _ := h2
      _ = _ := by ring

/-- Interpolated powers that give the circular binary a power within a factor `γ` of 1. -/
private lemma circ_powers {C : Ctx} (ht : 0 ≤ C.t_obs) {m f d S₂ γ : ℝ} (hS : 0 < S₂) (hn : noise C (2 * f) = .ok (S₂ : ℝ))
    (hγ : 1 ≤ γ) (hg : ∀ g, C.interpolated_g = some g → WithinFactor γ (g 2 0) 1) :
    ∃ c c' : ℝ, snr_circ_stationary { C with interpolated_g := none } [⟨m, f, d, {}⟩] = .ok [some c] ∧
      snr_circ_stationary C [⟨m, f, d, {}⟩] = .ok [some c'] ∧ 0 ≤ c ∧ 0 ≤ c' ∧ WithinFactor (√γ) c' c := by
  refine ⟨_, _, circ_any { C with interpolated_g := none } ht hS hn, circ_any C ht hS hn, sqrt_nonneg _, sqrt_nonneg _, ?_⟩
  simp only
  have hw : WithinFactor γ (h_0_val C.K C.interpolated_g m d f 0 2 ^ 2) (h_0_val C.K none m d f 0 2 ^ 2) := by
    rcases hig : C.interpolated_g with _ | g
    · exact within_refl hγ (sq_nonneg _)
    · exact h_0_two_within C.K hγ (hg g hig)
  have hq : 0 ≤ C.t_obs / S₂ := div_nonneg ht hS.le
  have a1 := mul_le_mul_of_nonneg_right hw.1 hq
  have a2 := mul_le_mul_of_nonneg_right hw.2 hq
  constructor
  · rw [← sqrt_mul (by linarith)]
    refine sqrt_le_sqrt ?_
    rw [mul_div_assoc, mul_div_assoc, ← mul_assoc]
    exact a1
  · rw [← sqrt_mul (by linarith)]
    refine sqrt_le_sqrt ?_
    rw [mul_div_assoc, mul_div_assoc, ← mul_assoc]
    exact a2

/-- **C114** (interpolation). Let `get_snr` return, however the program got there, with a noise of slope at most `k` in the
band of the grid and, if the powers of the harmonics are interpolated, with a power of the circular binary within a factor `γ`
of 1. For a stationary binary without position that counts as circular the SNR is within a factor `1.0017^(k/2) γ^(1/2)` of
what `snr_circ_stationary` computes without interpolation. -/
theorem C114_interpolated {W : World} {h h' : Heap} {s n r p : ℕ} {a : SnrArgs} {ws : Option (List Bool)}
    (hr : Reachable W AnyCall h) (hcls : (h.src s).cls = .Source ∨ (h.src s).cls = .VerificationBinaries) (hn : n ≠ 0)
    (hsch : CompleteSchedule W (h.src s)) (hrect : Rect (h.src s).cols) (hw : FitsMask (h.src s).cols ws)
    (hrun : get_snr W s a n ws h = (.ok r, h')) (hp : (h'.src s).sc_params = some p) {t_obs : ℝ}
    (ht : (h'.par p).dict.get? "t_obs" = some (.time t_obs)) (ht1 : 1 ≤ t_obs) {k : ℝ} (hk : 0 ≤ k) {S : ℝ → ℝ}
    (hS : SlopeAtMost k S 1e-7 2) (hN : ∀ f, 1e-7 ≤ f → f ≤ 2 → psd_of_dict W (h'.par p).dict f = .ok (S f : ℝ)) {i : ℕ}
    {x : One} (hi : (rows (h.src s).cols)[i]? = some x) (hm : x.merged = false) (hch : Chosen ws i)
    (hst : x.StationaryOver W.K t_obs (h'.src s).stat_tol) {etol : ℝ} (het : (h'.src s).ecc_tol = some etol)
    (he : x.ecc ≤ etol) (hpos : x.position = none) (hlow : 1e-7 ≤ 2 * x.f_orb) (hhigh : 2 * x.f_orb ≤ 2) {γ : ℝ} (hγ : 1 ≤ γ)
    (hg : ∀ g, (h'.src s).g = some g → WithinFactor γ (g 2 0) 1) :
    ∃ (C : Ctx) (v c : ℝ), CallCtx W h' s C ∧ C.t_obs = t_obs ∧ (h'.snrs r)[i]? = some (some v) ∧
      snr_circ_stationary { C with interpolated_g := none, interpolated_sc := none } [⟨x.m_c, x.f_orb, x.dist, {}⟩]
        = .ok [some c] ∧ 0 ≤ c ∧ WithinFactor (1.0017 ^ (k / 2) * √γ) v c := by
  obtain ⟨-, -, -, hrow⟩ := C36_get_snr hcls hn hsch hrect hw hrun
  obtain ⟨v, harm, r', hv, -, -, C, tol, q', hC, hetol, -, hstat, -⟩ := (hrow i x hi).2 hm hch
  have hreach := reach_snr hr hrun
  have hB := call_band hreach hC hp ht ht1 hk hS hN
  rw [hB.t_obs] at hstat
  rw [het] at hetol
  cases hetol
  have hCg : C.interpolated_g = (h'.src s).g := by
    obtain ⟨_, _, _, _, _, _, _, _, -, -, -, -, -, -, -, -, rfl⟩ := hC
    rfl
  have hsn := ((hstat hst).1 he).1
  have hcirc : x.circ = ⟨x.m_c, x.f_orb, x.dist, {}⟩ := by
    unfold One.circ One.orient
    rw [hpos]
  rw [hcirc] at hsn
  have h17 : (1 : ℝ) ≤ 1.0017 ^ (k / 2) := one_le_rpow (by norm_num) (by linarith)
  obtain ⟨c, c', hc, hc', hc0, hc0', hw1, hw2⟩ := circ_powers (C := { C with interpolated_sc := none }) (m := x.m_c) (d := x.dist)
    (by show 0 ≤ C.t_obs; rw [hB.t_obs]; linarith) (hS.1 _ hlow hhigh) (hB.noise _ hlow hhigh) hγ
    (fun g hg' => hg g (by rw [← hCg]; exact hg'))
  obtain ⟨v', rfl, hwv1, hwv2⟩ : ∃ v', v = some v' ∧ WithinFactor (1.0017 ^ (k / 2)) v' c' := by
    rcases hsc : C.interpolated_sc with _ | c₀
    · have hE : { C with interpolated_sc := none } = C := by rw [← hsc]
      rw [hE, hsn] at hc'
      cases hc'
      exact ⟨c', rfl, within_refl h17 hc0'⟩
    · obtain ⟨vs', hvs', hrel⟩ := C91_circular (hB.grid c₀ hsc)
        (by intro s hs; rw [List.mem_singleton] at hs; subst hs; exact ⟨hlow, hhigh⟩) hc'
      rw [hsn] at hvs'
      cases hvs'
      cases hrel with
      | cons hp' _ =>
        obtain ⟨y, y', e1, e2, hw'⟩ := hp'
        cases e1
        exact ⟨y', e2, hw'⟩
  have h17' : (0 : ℝ) ≤ 1.0017 ^ (k / 2) := by linarith
  refine ⟨C, v', c, hC, hB.t_obs, hv, hc, hc0, ?_, ?_⟩
  · rw [mul_assoc]
    exact hwv1.trans (mul_le_mul_of_nonneg_left hw1 h17')
  · rw [mul_comm _ √γ, mul_assoc]
    exact hw2.trans (mul_le_mul_of_nonneg_left hwv2 (sqrt_nonneg _))

/-- **C114.** Let `get_snr` return, however the program got there, with a noise of slope at most `k` in the band of the grid
and, if the powers of the harmonics are interpolated, with a power of the circular binary within a factor `γ` of 1. Take a
stationary binary without position that counts as circular, with the noise `S₂` at the second harmonic, at least `B₁` at the
first and `n² S(n f_orb)` at least `B` for the harmonics `n ≥ 3`. Compared with the SNR of all its harmonics, computed without
interpolation, the SNR returned is too large by at most a factor `1.0017^(k/2) (γ/g(2, e))^(1/2)` and too small by at most
`1.0017^(k/2) γ^(1/2) (g(2, e) + 4 S₂ (g(1, e)/B₁ + (F(e) - g(1, e) - g(2, e))/B))^(1/2)`. -/
theorem C114_get_snr {W : World} {h h' : Heap} {s n r p : ℕ} {a : SnrArgs} {ws : Option (List Bool)}
    (hr : Reachable W AnyCall h) (hcls : (h.src s).cls = .Source ∨ (h.src s).cls = .VerificationBinaries) (hn : n ≠ 0)
    (hsch : CompleteSchedule W (h.src s)) (hrect : Rect (h.src s).cols) (hw : FitsMask (h.src s).cols ws)
    (hrun : get_snr W s a n ws h = (.ok r, h')) (hp : (h'.src s).sc_params = some p) {t_obs : ℝ}
    (ht : (h'.par p).dict.get? "t_obs" = some (.time t_obs)) (ht1 : 1 ≤ t_obs) {k : ℝ} (hk : 0 ≤ k) {S : ℝ → ℝ}
    (hS : SlopeAtMost k S 1e-7 2) (hN : ∀ f, 1e-7 ≤ f → f ≤ 2 → psd_of_dict W (h'.par p).dict f = .ok (S f : ℝ)) {i : ℕ}
    {x : One} (hi : (rows (h.src s).cols)[i]? = some x) (hm : x.merged = false) (hch : Chosen ws i)
    (hst : x.StationaryOver W.K t_obs (h'.src s).stat_tol) {etol : ℝ} (het : (h'.src s).ecc_tol = some etol) (h0 : 0 ≤ x.ecc)
    (he : x.ecc ≤ etol) (he1 : x.ecc < 1) (hpos : x.position = none) (hlow : 1e-7 ≤ 2 * x.f_orb) (hhigh : 2 * x.f_orb ≤ 2)
    {γ : ℝ} (hγ : 1 ≤ γ) (hg : ∀ g, (h'.src s).g = some g → WithinFactor γ (g 2 0) 1) {N : ℕ → WithTop ℝ}
    (hNn : ∀ n : ℕ, 1 ≤ n → psd_of_dict W (h'.par p).dict (n * x.f_orb) = .ok (N n)) (hNp : ∀ n, 1 ≤ n → 0 < N n)
    {B₁ B S₂ : ℝ} (hB₁ : 0 < B₁) (hB : 0 < B) (h2 : N 2 = S₂) (hfirst : ∀ S : ℝ, N 1 = S → B₁ ≤ S)
    (hout : ∀ (n : ℕ) (S : ℝ), 3 ≤ n → N n = S → B ≤ (n : ℝ) ^ 2 * S) :
    ∃ (C : Ctx) (v ρ : ℝ), CallCtx W h' s C ∧ C.t_obs = t_obs ∧ (h'.snrs r)[i]? = some (some v) ∧ AllHarmonicsSnr C x ρ ∧
      √(peters_g 2 x.ecc) * v ≤ 1.0017 ^ (k / 2) * √γ * ρ ∧
      ρ ≤ 1.0017 ^ (k / 2) * √γ * √(peters_g 2 x.ecc + 4 * S₂ * (peters_g 1 x.ecc / B₁ +
        (peters_f x.ecc - peters_g 1 x.ecc - peters_g 2 x.ecc) / B)) * v := by
  obtain ⟨C, v, c, hC, hCt, hv, hc, hc0, hw1, hw2⟩ := C114_interpolated hr hcls hn hsch hrect hw hrun hp ht ht1 hk hS hN hi hm hch
    hst het he hpos hlow hhigh hγ hg
  obtain ⟨u, ρ, c', c1, c2, c3, c4, c5, c6, c7⟩ := C114_circular { C with interpolated_g := none, interpolated_sc := none }
    (by show 0 ≤ C.t_obs; linarith) rfl (s := x.eccentric) h0 he1 (fun n hn => noise_of_dict hC hp (hNn n hn)) hNp hB₁ hB h2
    hfirst hout
  have hcc : c' = c := by
    have : (Except.ok [some c] : Except PyErr (List (Option ℝ))) = .ok [some c'] := hc.symm.trans c4
    cases this
    rfl
  subst hcc
  have hκ : (0 : ℝ) ≤ 1.0017 ^ (k / 2) * √γ := mul_nonneg (rpow_nonneg (by norm_num) _) (sqrt_nonneg _)
  refine ⟨C, v, ρ, hC, hCt, hv, ⟨u, c1, c2⟩, ?_, ?_⟩
  · have d1 : √(peters_g 2 x.ecc) * c' ≤ ρ := by
      refine le_of_sq_le_sq ?_ c3
      rw [mul_pow, sq_sqrt (C05_nonneg _ h0 he1.le)]
      exact c6
    calc _ ≤ √(peters_g 2 x.ecc) * (1.0017 ^ (k / 2) * √γ * c') := mul_le_mul_of_nonneg_left hw1 (sqrt_nonneg _)
      _ = 1.0017 ^ (k / 2) * √γ * (√(peters_g 2 x.ecc) * c') := by ring
      _ ≤ _ := mul_le_mul_of_nonneg_left d1 hκ
  · set Q := peters_g 2 x.ecc + 4 * S₂ * (peters_g 1 x.ecc / B₁ +
      (peters_f x.ecc - peters_g 1 x.ecc - peters_g 2 x.ecc) / B) with hQ
    have d2 : ρ ≤ √Q * c' := by
      rcases hc0.eq_or_lt with h | h
      · have : ρ ^ 2 ≤ 0 := by
          refine c7.trans (le_of_eq ?_)
          rw [← h]
          ring
        rw [← h, mul_zero]
        exact le_of_sq_le_sq (by linarith [zero_pow (M₀ := ℝ) two_ne_zero]) le_rfl
      · have hQ0 : 0 ≤ Q := by
          by_contra hlt
          push Not at hlt
          have h3 : Q * c' ^ 2 < 0 := mul_neg_of_neg_of_pos hlt (by positivity)
          have h4 : ρ ^ 2 ≤ Q * c' ^ 2 := c7
          linarith [sq_nonneg ρ]
        refine le_of_sq_le_sq ?_ (by positivity)
        rw [mul_pow, sq_sqrt hQ0]
        exact c7
    calc ρ ≤ √Q * c' := d2
      _ ≤ √Q * (1.0017 ^ (k / 2) * √γ * v) := mul_le_mul_of_nonneg_left hw2 (sqrt_nonneg _)
      _ = _ := by ring

/-- LISA with the default settings: the noise in and out of the band. -/
private lemma lisa_noise' (K : Consts) (env : psd.Env) (t f : ℝ) :
    noise { K := K, env := env, kw := { approximate_R := true }, t_obs := t } f =
      .ok (if f ≥ 1e-7 ∧ f ≤ 2e0 then
        ((psd.lisa_J 2.5e9 (K.c / (2 * π * 2.5e9)) f + psd.get_confusion_noise_karnesis21 f t : ℝ) : WithTop ℝ) else ⊤) := by
  by_cases hb : f ≥ 1e-7 ∧ f ≤ 2e0
  · have hval : psd.lisa_J 2.5e9 (K.c / (2 * π * 2.5e9)) f = (1 / 2.5e9 ^ 2 * (psd.lisa_Poms f
        + 2 * (1 + cos (f / (K.c / (2 * π * 2.5e9))) ^ 2) * psd.lisa_Pacc f / (2 * π * f) ^ 4))
        / psd.approximate_response_function f (K.c / (2 * π * 2.5e9)) := by
      unfold psd.lisa_J psd.lisa_M psd.lisa_Q
      rw [mul_div_assoc']
    simp only [noise, psd.power_spectral_density, if_true, psd.lisa_psd, psd.NoiseArg.resolve, psd.TimeArg.resolve,
      psd.LenArg.resolve, psd.lisa_response, psd.noise_bare, psd.get_confusion_noise, Bind.bind, Except.bind, Pure.pure, Except.pure,
      if_pos hb, hval]
    simp
  · simp only [noise, psd.power_spectral_density, if_true, psd.lisa_psd, psd.NoiseArg.resolve, psd.TimeArg.resolve,
      psd.LenArg.resolve, psd.lisa_response, psd.noise_bare, psd.get_confusion_noise, Bind.bind, Except.bind, Pure.pure, Except.pure,
      if_neg hb]
    norm_num
    simp

private lemma fstar_ge' (K : Consts) (hc : K.c = 299792458) : 0.019 ≤ K.c / (2 * π * 2.5e9) := by
  rw [hc, le_div_iff₀ (by positivity)]
  have := pi_lt_d4
  nlinarith

private lemma rise_double {fs f : ℝ} (hfs : 0 < fs) : psd.lisaRise fs (2 * f) ≤ 4 * psd.lisaRise fs f := by
  unfold psd.lisaRise
  have : (2 * f / fs) ^ 2 = 4 * (f / fs) ^ 2 := by ring
  rw [this]
  nlinarith [sq_nonneg (f / fs)]

private lemma factor_le {g₁ g₂ F r₁ r₂ S₂ : ℝ} (h1 : 0 ≤ g₁) (h1' : g₁ ≤ 0.0006) (h2 : 0.979 ≤ g₂) (h2' : g₂ ≤ 1) (hF : F ≤ 1.024)
    (hs : g₁ + g₂ ≤ F) (hr1 : 0 < r₁) (hr2 : 0 < r₂) (hr : r₂ ≤ 4 * r₁) (hS : S₂ ≤ 1.45 * r₂) :
    g₂ + 4 * S₂ * (g₁ / r₁ + (F - g₁ - g₂) / (9 * r₂)) ≤ 1.045 := by
  have hS4 : 4 * S₂ ≤ 5.8 * r₂ := by norm_num at hS ⊢; linarith
  have hnn : 0 ≤ g₁ / r₁ + (F - g₁ - g₂) / (9 * r₂) := by
    have : 0 ≤ F - g₁ - g₂ := by linarith
    positivity
  have e1 : 5.8 * r₂ * (g₁ / r₁) ≤ 23.2 * g₁ := by
    rw [mul_div_assoc', div_le_iff₀ hr1]
    norm_num
    nlinarith [mul_le_mul_of_nonneg_right hr h1]
  have e2 : 5.8 * r₂ * ((F - g₁ - g₂) / (9 * r₂)) = 5.8 / 9 * (F - g₁ - g₂) := by
    field_simp
  have e3 := mul_le_mul_of_nonneg_right hS4 hnn
  rw [mul_add (5.8 * r₂), e2] at e3
  norm_num at *
  linarith

/-- **C114** (LISA, one harmonic). With LISA and the default settings, at least three months of observation, an orbital
frequency between 6 mHz and 1 Hz and an eccentricity of at most 0.06, the SNR of the second harmonic of a circular binary is
within 2.3% of the SNR of all harmonics. -/
theorem C114_lisa_circular (K : Consts) (hc : K.c = 299792458) (env : psd.Env) {t_obs : ℝ} (ht : 0.25 * psd.yr ≤ t_obs) {s : EccSrc}
    (h0 : 0 ≤ s.ecc) (he : s.ecc ≤ 0.06) (hf : 6e-3 ≤ s.f_orb) (hf' : s.f_orb ≤ 1) :
    ∃ (v : ℕ → ℝ) (ρ c : ℝ), (∀ H, snr_ecc_stationary { K := K, env := env, kw := { approximate_R := true }, t_obs := t_obs }
        [s] H false false = .ok (.total [some (v H)])) ∧ Tendsto v atTop (nhds ρ) ∧
      snr_circ_stationary { K := K, env := env, kw := { approximate_R := true }, t_obs := t_obs } [⟨s.m_c, s.f_orb, s.dist, {}⟩]
        = .ok [some c] ∧ 0 ≤ c ∧ 0.989 * c ≤ ρ ∧ ρ ≤ 1.023 * c := by
  have h1 : s.ecc < 1 := lt_of_le_of_lt he (by norm_num)
  have hfs := fstar_ge' K hc
  set fs := K.c / (2 * π * 2.5e9) with hfsd
  have hfs0 : 0 < fs := lt_of_lt_of_le (by norm_num) hfs
  have ht0 : 0 ≤ t_obs := le_trans (by have := psd.yr_pos; positivity) ht
  have hf0 : 0 < s.f_orb := lt_of_lt_of_le (by norm_num) hf
  set N : ℕ → WithTop ℝ := fun n => if (n * s.f_orb : ℝ) ≥ 1e-7 ∧ (n * s.f_orb : ℝ) ≤ 2e0 then
        ((psd.lisa_J 2.5e9 fs (n * s.f_orb) + psd.get_confusion_noise_karnesis21 (n * s.f_orb) t_obs : ℝ) : WithTop ℝ) else ⊤
    with hNdef
  have hr0 : ∀ f, 0 < psd.lisaRise fs f := by
    intro f
    unfold psd.lisaRise
    positivity
  have hlow : ∀ n : ℕ, 1 ≤ n → 6e-3 ≤ (n : ℝ) * s.f_orb := by
    intro n hn
    have : (1 : ℝ) ≤ n := by exact_mod_cast hn
    nlinarith
  have hval : ∀ (n : ℕ) (S : ℝ), 1 ≤ n → N n = S → psd.lisaRise fs (n * s.f_orb) ≤ S := by
    intro n S hn hS
    rw [hNdef] at hS
    simp only at hS
    split_ifs at hS with hb
    · rw [← WithTop.coe_inj.1 hS]
      exact (psd.lisa_high hfs ht (hlow n hn)).1
    · cases hS
  have hN : ∀ n : ℕ, 1 ≤ n → noise { K := K, env := env, kw := { approximate_R := true }, t_obs := t_obs } (n * s.f_orb) = .ok (N n) :=
    fun n _ => lisa_noise' K env t_obs _
  have hp : ∀ n, 1 ≤ n → 0 < N n := by
    intro n hn
    rcases hν : N n with _ | y
    · exact WithTop.coe_lt_top _
    · exact WithTop.coe_lt_coe.2 (lt_of_lt_of_le (hr0 _) (hval n y hn hν))
  have hb2 : (2 * s.f_orb : ℝ) ≥ 1e-7 ∧ (2 * s.f_orb : ℝ) ≤ 2e0 := by
    norm_num at hf ⊢
    constructor <;> linarith
  set S₂ : ℝ := psd.lisa_J 2.5e9 fs (2 * s.f_orb) + psd.get_confusion_noise_karnesis21 (2 * s.f_orb) t_obs with hS₂
  have e2 : N 2 = (S₂ : ℝ) := by
    rw [hNdef]
    push_cast
    exact if_pos hb2
  have hS2 : S₂ ≤ 1.45 * psd.lisaRise fs (2 * s.f_orb) := by
    have := (psd.lisa_high hfs ht (hlow 2 (by norm_num))).2
    push_cast at this
    exact this
  obtain ⟨v, ρ, c, r1, r2, r3, r4, r5, r6, r7⟩ := C114_circular { K := K, env := env, kw := { approximate_R := true }, t_obs := t_obs } ht0
    rfl h0 h1 hN hp (B₁ := psd.lisaRise fs s.f_orb) (B := 9 * psd.lisaRise fs (2 * s.f_orb)) (hr0 _) (by have := hr0 (2 * s.f_orb); positivity)
    e2 (fun S hS => by
      have := hval 1 S le_rfl hS
      norm_num at this
      exact this)
    (fun n S hn hS => by
      have a := hval n S (by omega) hS
      have hn' : (3 : ℝ) ≤ n := by exact_mod_cast hn
      have b : psd.lisaRise fs (2 * s.f_orb) ≤ psd.lisaRise fs (n * s.f_orb) :=
        psd.lisaRise_mono hfs0 (by positivity) (mul_le_mul_of_nonneg_right (by linarith) hf0.le)
      have hn9 : (9 : ℝ) ≤ (n : ℝ) ^ 2 := by nlinarith
      exact mul_le_mul hn9 (b.trans a) (hr0 _).le (by positivity))
  obtain ⟨g2, g2', hF⟩ := power_bounds h0 he
  have hsum : peters_g 1 s.ecc + peters_g 2 s.ecc ≤ peters_f s.ecc := by
    have := (C06_sum h0 h1).summable.sum_le_tsum (Finset.range 2) (fun k _ => C05_nonneg _ h0 h1.le)
    rw [(C06_sum h0 h1).tsum_eq, Finset.sum_range_succ, Finset.sum_range_one] at this
    norm_num at this
    exact this
  have hQ := factor_le (C05_nonneg 1 h0 h1.le) (peters_g_one_le h0 he) g2 g2' hF hsum (hr0 s.f_orb) (hr0 (2 * s.f_orb))
    (rise_double hfs0) hS2
  have c2 : 0 ≤ c ^ 2 := sq_nonneg c
  refine ⟨v, ρ, c, r1, r2, r4, r5, le_of_sq_le_sq ?_ r3, le_of_sq_le_sq ?_ (by positivity)⟩
  · refine le_trans ?_ r6
    rw [mul_pow]
    refine mul_le_mul_of_nonneg_right ?_ c2
    norm_num at g2 ⊢
    linarith
  · refine r7.trans ?_
    rw [mul_pow]
    refine mul_le_mul_of_nonneg_right (hQ.trans ?_) c2
    norm_num

/-- **C114** (LISA). With LISA and the default settings, an observation of at least three months and exact powers of the
harmonics or interpolated ones within 1% for circular binaries, take a stationary binary without position that counts as
circular, with an eccentricity of at most 0.06 and an orbital frequency between 6 mHz and 1 Hz. The SNR that `get_snr` returns
is at most 4% below and at most 3% above that of all its harmonics, computed without interpolation. -/
theorem C114_lisa {W : World} (hc : W.K.c = 299792458) {h h' : Heap} {s n r p : ℕ} {a : SnrArgs} {ws : Option (List Bool)}
    (hr : Reachable W AnyCall h) (hcls : (h.src s).cls = .Source ∨ (h.src s).cls = .VerificationBinaries) (hn : n ≠ 0)
    (hsch : CompleteSchedule W (h.src s)) (hrect : Rect (h.src s).cols) (hw : FitsMask (h.src s).cols ws)
    (hrun : get_snr W s a n ws h = (.ok r, h')) (hp : (h'.src s).sc_params = some p) {t_obs : ℝ}
    (hset : LisaSettings (h'.par p).dict t_obs) (hcn : (h'.par p).dict.get? "confusion_noise" = some (.str "auto"))
    (hcp : (h'.par p).dict.get? "custom_psd" = some .none) (ht : 0.25 * psd.yr ≤ t_obs) {i : ℕ} {x : One}
    (hi : (rows (h.src s).cols)[i]? = some x) (hm : x.merged = false) (hch : Chosen ws i)
    (hst : x.StationaryOver W.K t_obs (h'.src s).stat_tol) {etol : ℝ} (het : (h'.src s).ecc_tol = some etol) (h0 : 0 ≤ x.ecc)
    (he : x.ecc ≤ etol) (he1 : x.ecc ≤ 0.06) (hpos : x.position = none) (hlow : 6e-3 ≤ x.f_orb) (hhigh : x.f_orb ≤ 1)
    (hg : ∀ g, (h'.src s).g = some g → WithinFactor 1.01 (g 2 0) 1) :
    ∃ (C : Ctx) (v ρ : ℝ), CallCtx W h' s C ∧ C.t_obs = t_obs ∧ (h'.snrs r)[i]? = some (some v) ∧ AllHarmonicsSnr C x ρ ∧
      0.96 * ρ ≤ v ∧ v ≤ 1.03 * ρ := by
  have ht1 : 2 ≤ t_obs := le_trans (by norm_num [psd.yr]) ht
  obtain ⟨C₀, hC₀, h6⟩ := call_of_row hr hcls hn hsch hrect hw hrun hp hi hm hch
  obtain ⟨S, hS, hN⟩ := lisa_noise_slope hc hC₀ hp h6 hset ht
  obtain ⟨C, v, c', hC, hCt, hv, hc', hc0, hw1, hw2⟩ := C114_interpolated hr hcls hn hsch hrect hw hrun hp hset.t_obs (by linarith)
    (by norm_num : (0 : ℝ) ≤ 13) hS hN hi hm hch hst het he hpos (by norm_num at hlow ⊢; linarith) (by linarith)
    (by norm_num : (1 : ℝ) ≤ 1.01) hg
  obtain ⟨u, ρ, c, c1, c2, c3, c4, c5, c6⟩ := C114_lisa_circular W.K hc W.env ht (s := x.eccentric) h0 he1 hlow hhigh
  have hE : { C with interpolated_g := none, interpolated_sc := none } =
      ({ K := W.K, env := W.env, kw := { approximate_R := true }, t_obs := t_obs } : Ctx) := by
    obtain ⟨p', j, cp, L, aR, cn, kw, T', hp', h1, h2, h3, h4, h5, hkw, h7, rfl⟩ := hC
    rw [hp] at hp'
    cases hp'
    rw [hset.instrument] at h1
    rw [hcp] at h2
    rw [hset.L] at h3
    rw [hset.approximate_R] at h4
    rw [hcn] at h5
    rw [hset.t_obs] at h7
    cases h1
    cases h2
    cases h3
    cases h4
    cases h5
    cases h7
    cases hkw
    rfl
  have hcc : c' = c := by
    rw [hE] at hc'
    have : (Except.ok [some c'] : Except PyErr (List (Option ℝ))) = .ok [some c] := hc'.symm.trans c3
    cases this
    rfl
  subst hcc
  have hf : (1.0017 : ℝ) ^ ((13 : ℝ) / 2) * √1.01 ≤ 1.0163 := by
    have h1 : √(1.01 : ℝ) ≤ 1.005 := by
      rw [sqrt_le_left (by norm_num)]
      norm_num
    calc _ ≤ (1.0112 : ℝ) * 1.005 := mul_le_mul C91_factor.2 h1 (sqrt_nonneg _) (by norm_num)
      _ ≤ _ := by norm_num
  have hf0 : (0 : ℝ) < 1.0017 ^ ((13 : ℝ) / 2) * √1.01 := mul_pos (rpow_pos_of_pos (by norm_num) _) (sqrt_pos.2 (by norm_num))
  have hv0 : 0 ≤ v := by
    by_contra hlt
    push Not at hlt
    nlinarith [mul_neg_of_pos_of_neg hf0 hlt]
  have d1 := hw1.trans (mul_le_mul_of_nonneg_right hf hc0)
  have d2 := hw2.trans (mul_le_mul_of_nonneg_right hf hv0)
  refine ⟨C, v, ρ, hC, hCt, hv, ⟨u, fun H => by rw [hE]; exact c1 H, c2⟩, ?_, ?_⟩
  · norm_num at c6 d2 ⊢
    linarith
  · norm_num at c5 d1 ⊢
    linarith

/-! ### Examples -/

/-- Non-vacuity of `C114_lisa_circular`, and of `C114_circular` which it uses. -/
example (env : psd.Env) : ∃ (v : ℕ → ℝ) (ρ c : ℝ), (∀ H, snr_ecc_stationary { K := Consts.codata2018, env := env, kw := { approximate_R := true }, t_obs := 1e8 }
        [⟨1e29, 1e-2, 0.05, 1e20⟩] H false false = .ok (.total [some (v H)])) ∧ Tendsto v atTop (nhds ρ) ∧
      snr_circ_stationary { K := Consts.codata2018, env := env, kw := { approximate_R := true }, t_obs := 1e8 }
        [⟨1e29, 1e-2, 1e20, {}⟩] = .ok [some c] ∧ 0 ≤ c ∧ 0.989 * c ≤ ρ ∧ ρ ≤ 1.023 * c :=
  C114_lisa_circular Consts.codata2018 rfl env (by norm_num [psd.yr]) (s := ⟨1e29, 1e-2, 0.05, 1e20⟩) (by norm_num) (by norm_num)
    (by norm_num) (by norm_num)

section Objects

/-- An object with one binary of low mass at 10 mHz and eccentricity 0.06, for LISA. -/
private noncomputable def nearDict : Dict :=
  [("instrument", .str "LISA"), ("custom_psd", .none), ("t_obs", .time 1e8), ("L", .str "auto"), ("approximate_R", .bool true),
   ("confusion_noise", .str "auto")]

private noncomputable def nearArgs : InitArgs where
  m_1 := .array [2e29] true
  m_2 := .array [1e29] true
  ecc := .array [0.06] false
  dist := .array [1e20] true
  f_orb := some (.array [1e-2] true)
  sc_params := some nearDict

private noncomputable def nearCols : Cols where
  m_1 := [2e29]
  m_2 := [1e29]
  dist := [1e20]
  f_orb := [1e-2]
  ecc := [0.06]
  merged := [false]

private lemma near_cols : init_cols Example.world nearArgs = .ok nearCols := by
  unfold init_cols init_orientation init_f_orb nearArgs
  simp [bind, Except.bind, pure, Except.pure, Raw.hasUnits, Raw.toList, nearCols, List.replicate]

private lemma default_tolerance : ∃ e, find_eccentric_transition 0.05 = .ok e ∧ 0.06 ≤ e := by
  obtain ⟨e, he⟩ := find_eccentric_transition_default
  refine ⟨e, he, ?_⟩
  by_contra hlt
  push Not at hlt
  have := (peters_g_two_ge (C33_pos (by norm_num) he).le hlt.le).1
  have := (C33_first he).2.1
  linarith

private lemma near_psd (f : ℝ) : ∃ y, psd_of_dict Example.world nearDict f = .ok y := by
  have hkeys : (nearDict.keys.any fun key => decide (key ∉ DEFAULT_SC_PARAMS.keys)) = false := by
    change ((plain "LISA" (.time 0)).keys.any fun key => decide (key ∉ DEFAULT_SC_PARAMS.keys)) = false
    decide
  obtain ⟨y, -, e, -⟩ := C111_confusion_psd Example.world.K Example.world.env none (Or.inl ⟨rfl, rfl⟩) (L := .auto) (R := true)
    (inst := "LISA") (fun l hl => by cases hl) (name := "auto") (t := 1e8) (Or.inl rfl) f
  unfold psd_of_dict
  rw [hkeys]
  exact ⟨y, e⟩

private lemma near_stationary : (rowAt nearCols 0).StationaryOver Example.world.K 1e8 1e-2 := by
  rw [stationaryOver_iff]
  change evol.change_le (evol.evolve_f_orb_circ Consts.codata2018 1e-2 (utils.chirp_mass 2e29 1e29) 1e8 0.06 1e9) 1e-2 1e-2
  rw [stationarity_iff _ (by norm_num) (by norm_num) (by norm_num) (by norm_num) (by norm_num)]
  have ha := get_a_from_f_orb_pos Consts.codata2018 (f := 1e-2) (m₁ := 2e29) (m₂ := 1e29) (by norm_num) (by norm_num) (by norm_num)
  have hc := a_cube (f := 1e-2) (m₁ := 2e29) (m₂ := 1e29) (by norm_num) (by norm_num) (by norm_num)
  set a := utils.get_a_from_f_orb Consts.codata2018 1e-2 2e29 1e29
  have h3 : (1e21 : ℝ) ≤ a ^ 3 := by
    rw [hc, le_div_iff₀ (by positivity)]
    have := Real.pi_le_four
    have := Real.pi_pos
    nlinarith
  have h1 : (1e7 : ℝ) ≤ a := by
    by_contra hlt
    push Not at hlt
    have : a ^ 3 < 1e7 ^ 3 := by gcongr
    norm_num at this h3
    linarith
  have h4 : (1e28 : ℝ) ≤ a ^ 4 := by
    have : (1e7 : ℝ) ^ 4 ≤ a ^ 4 := by gcongr
    norm_num at this ⊢
    exact this
  have hb : utils.beta Consts.codata2018 2e29 1e29 ≤ 1e16 := by
    unfold utils.beta Consts.codata2018
    norm_num
  have hb0 := Legwork.evol.beta_pos Consts.codata2018 (m₁ := 2e29) (m₂ := 1e29) (by norm_num) (by norm_num)
  have hp : ((1 : ℝ) + 1e-2) ^ (-8 / 3 : ℝ) ≤ 1 / 1.01 := by
    have : ((1 : ℝ) + 1e-2) ^ (-8 / 3 : ℝ) ≤ ((1 : ℝ) + 1e-2) ^ (-1 : ℝ) :=
      Real.rpow_le_rpow_of_exponent_le (by norm_num) (by norm_num)
    rw [Real.rpow_neg_one] at this
    norm_num at this ⊢
    exact this
  have hq : (9e-3 : ℝ) ≤ 1 - ((1 : ℝ) + 1e-2) ^ (-8 / 3 : ℝ) := by
    norm_num at hp ⊢
    linarith
  have hF := peters_f_le_ten (e := 0.06) (by norm_num) (by norm_num)
  have hd : (2e11 : ℝ) ≤ a ^ 4 / (4 * utils.beta Consts.codata2018 2e29 1e29) := by
    rw [le_div_iff₀ (by positivity)]
    norm_num at hb h4 ⊢
    linarith
  calc (1e8 : ℝ) * peters_f 0.06 ≤ 2e11 * 9e-3 := by norm_num at hF ⊢; linarith
    _ ≤ _ := mul_le_mul hd hq (by norm_num) (by positivity)

/-- Non-vacuity of `C114_interpolated` and `C114_lisa`: the object above, with the interpolated powers and noise that are the
default. -/
example : ∃ (h h' : Heap) (r : ℕ) (C : Ctx) (v ρ : ℝ), Reachable Example.world AnyCall h ∧
    get_snr Example.world 0 {} 100 none h = (.ok r, h') ∧ (h'.snrs r)[0]? = some (some v) ∧ CallCtx Example.world h' 0 C ∧
    C.t_obs = 1e8 ∧ AllHarmonicsSnr C (rowAt nearCols 0) ρ ∧ 0.96 * ρ ≤ v ∧ v ≤ 1.03 * ρ := by
  obtain ⟨e₀, he₀, hle⟩ := default_tolerance
  obtain ⟨c, hc⟩ := curve_exists_iff.2 fun i (_ : i < 10000) => near_psd (scGrid i)
  have e2 : find_eccentric_transition nearArgs.gw_lum_tol = .ok e₀ := he₀
  have e3 : filled_params nearArgs.sc_params = .ok nearDict := rfl
  obtain ⟨k, hk, hinit⟩ : ∃ k, k = heapAfterInit Example.world .Source nearArgs nearCols e₀ nearDict (some c) Example.start ∧
      init Example.world .Source nearArgs Example.start = (.ok 0, k) := by
    refine ⟨_, rfl, ?_⟩
    rcases init_run Example.world .Source nearArgs Example.start with ⟨_, _, _, _, h1, h2, h3, h4, h5⟩ | ⟨-, h⟩
    · rw [near_cols] at h1
      rw [e2] at h2
      rw [e3] at h3
      cases h1
      cases h2
      cases h3
      rcases h4 with ⟨-, c', hc', rfl⟩ | ⟨h4, -⟩
      · rw [hc] at hc'
        cases hc'
        exact h5
      · cases h4
    · exfalso
      rcases h with ⟨e, he⟩ | ⟨e, he⟩ | ⟨e, he⟩ | ⟨-, d, e, hd, he⟩
      · rw [near_cols] at he
        cases he
      · rw [e2] at he
        cases he
      · rw [e3] at he
        cases he
      · rw [e3] at hd
        cases hd
        rw [hc] at he
        cases he
  have hsrc : k.src 0 = newObject Example.world .Source nearArgs nearCols e₀ (some c) 1 := by
    rw [hk]
    change Function.update Example.start.src 0 _ 0 = _
    rw [Function.update_self]
    rfl
  have hpar : k.par 1 = ⟨nearDict, some 0⟩ := by
    rw [hk]
    change Function.update Example.start.par 1 _ 1 = _
    rw [Function.update_self]
    rfl
  have hreach : Reachable Example.world AnyCall k := by
    have h1 := Reachable.call (.init .Source nearArgs) (Reachable.start (W := Example.world) (ok := AnyCall) (h := Example.start)
      fun _ => rfl) trivial
    have h2 : (Op.run Example.world (.init .Source nearArgs) Example.start).2 = k := by
      change ((init Example.world .Source nearArgs >>= fun _ => pure ()) Example.start).2 = k
      rw [PyM.bind_run, hinit]
      rfl
    rwa [h2] at h1
  have hcls : (k.src 0).cls = .Source := by rw [hsrc]; rfl
  have hcols : (k.src 0).cols = nearCols := by rw [hsrc]; rfl
  have hp : (k.src 0).sc_params = some 1 := by rw [hsrc]; rfl
  have hrect : Rect (k.src 0).cols := by
    rw [hcols]
    refine ⟨rfl, rfl, rfl, rfl, rfl, ?_, ?_, ?_, ?_, ?_, ?_⟩ <;> simp [nearCols]
  have hsch : CompleteSchedule Example.world (k.src 0) := by
    rw [hsrc]
    intro hn
    simp [newObject, nearArgs] at hn
  have hno : FitsMask (k.src 0).cols none := fun m hm => by cases hm
  have hready : Ready Example.world k 0 := by
    refine ⟨hrect, by rw [hsrc]; exact ⟨rfl, rfl, rfl⟩, ⟨1, 1e8, c, hp, by rw [hpar]; exact (filled_params_ok e3).1, by rw [hpar]; rfl,
      by rw [hpar]; exact curve_ok_iff.1 hc, by rw [hsrc]; rfl⟩, ?_, ?_⟩
    · unfold storedSnr; rw [hsrc]; simp [newObject]
    · unfold storedHarm; rw [hsrc]; simp [newObject]
  obtain ⟨r, h', hrun⟩ := C36_succeeds (n := 100) (ws := none) (by norm_num) hsch hno hready
  have hi : (rows (k.src 0).cols)[0]? = some (rowAt nearCols 0) := by rw [hcols]; rfl
  have hch : Chosen none 0 := fun m hm => by cases hm
  obtain ⟨p', hp', hp'', hst⟩ := C36_settings (Or.inl hcls) (by norm_num) hsch hrect hno hrun
  rw [hp] at hp'
  cases hp'
  obtain ⟨⟨v1, a1, b1⟩, ⟨v2, a2, b2⟩, ⟨v3, a3, b3⟩, ⟨v4, a4, b4⟩, ⟨v5, a5, b5⟩, ⟨v6, a6, b6⟩⟩ := hst
  have hgiven : ∀ {key : String} {v w : PVal}, Given (k.par 1).dict key .none v → (k.par 1).dict.get? key = some w → v = w := by
    intro key v w hg hw
    rcases hg with ⟨hg, -⟩ | ⟨-, hg⟩
    · exact absurd rfl hg
    · rw [hg] at hw
      exact Option.some.inj hw
  rw [hgiven a1 (w := .str "LISA") (by rw [hpar]; rfl)] at b1
  rw [hgiven a2 (w := .none) (by rw [hpar]; rfl)] at b2
  rw [hgiven a3 (w := .str "auto") (by rw [hpar]; rfl)] at b3
  rw [hgiven a4 (w := .bool true) (by rw [hpar]; rfl)] at b4
  rw [hgiven a5 (w := .str "auto") (by rw [hpar]; rfl)] at b5
  have hv6 := hgiven a6 (w := .time 1e8) (by rw [hpar]; rfl)
  have b6' : (h'.par 1).dict.get? "t_obs" = some (.time 1e8) := by
    rcases b6 with b6 | ⟨b6, -⟩
    · rw [b6, hv6]
    · rw [hv6] at b6
      cases b6
  obtain ⟨_, _, _, hsrc'⟩ := (get_snr_snrCall Example.world 0 {} 100 none k).src 0
  rw [hrun] at hsrc'
  simp only at hsrc'
  obtain ⟨C, v, ρ, g1, g2, g3, g4, g5, g6⟩ := C114_lisa rfl hreach (Or.inl hcls) (by norm_num) hsch hrect hno hrun hp''
    (t_obs := 1e8) ⟨b1, b3, b4, Or.inl b5, b6'⟩ b5 b2 (by norm_num [psd.yr]) hi rfl hch
    (by
      have : (h'.src 0).stat_tol = 1e-2 := by rw [hsrc', hsrc]; rfl
      rw [this]
      exact near_stationary)
    (etol := e₀) (by rw [hsrc', hsrc]; rfl) (by show (0 : ℝ) ≤ 0.06; norm_num) hle (by show (0.06 : ℝ) ≤ 0.06; norm_num) rfl
    (by show (6e-3 : ℝ) ≤ 1e-2; norm_num) (by show (1e-2 : ℝ) ≤ 1; norm_num)
    (fun g hg => by
      rw [hsrc', hsrc] at hg
      cases hg
      have : Example.world.gSpline 2 0 = 1 := by
        change peters_g 2 0 = 1
        rw [C05_circular (by norm_num), if_pos rfl]
      rw [this]
      exact within_refl (by norm_num) (by norm_num))
  exact ⟨k, h', r, C, v, ρ, hreach, hrun, g3, g1, g2, g4, g5, g6⟩

/-- Non-vacuity of `C114_get_snr`: the circular binary of the example object, in white noise. -/
example : ∃ (h' : Heap) (r : ℕ) (C : Ctx) (v ρ : ℝ), Reachable Example.world AnyCall Example.heap ∧
    get_snr Example.world 0 {} 100 none Example.heap = (.ok r, h') ∧ (h'.snrs r)[0]? = some (some v) ∧
    CallCtx Example.world h' 0 C ∧ AllHarmonicsSnr C (rowAt Example.cols 0) ρ ∧
    √(peters_g 2 0) * v ≤ 1.0017 ^ ((0 : ℝ) / 2) * √1 * ρ ∧
    ρ ≤ 1.0017 ^ ((0 : ℝ) / 2) * √1 * √(peters_g 2 0 + 4 * 1e-40 * (peters_g 1 0 / 1e-40 +
      (peters_f 0 - peters_g 1 0 - peters_g 2 0) / 9e-40)) * v := by
  have hno : FitsMask (Example.heap.src 0).cols none := fun m hm => by cases hm
  have hcols : (Example.heap.src 0).cols = Example.cols := by rw [Example.heap_src]; rfl
  have hcls : (Example.heap.src 0).cls = .Source := by rw [Example.heap_src]; rfl
  obtain ⟨r, h', hrun⟩ := C36_succeeds (n := 100) (ws := none) (by norm_num) example_schedule hno example_ready
  obtain ⟨_, _, _, hsrc'⟩ := (get_snr_snrCall Example.world 0 {} 100 none Example.heap).src 0
  rw [hrun] at hsrc'
  simp only at hsrc'
  obtain ⟨p', hp', hp'', hst⟩ := C36_settings (Or.inl hcls) (by norm_num) example_schedule example_rect hno hrun
  have hp : (Example.heap.src 0).sc_params = some 1 := by rw [Example.heap_src]; rfl
  rw [hp] at hp'
  cases hp'
  obtain ⟨⟨v1, a1, b1⟩, ⟨v2, a2, b2⟩, ⟨v3, a3, b3⟩, ⟨v4, a4, b4⟩, ⟨v5, a5, b5⟩, ⟨v6, a6, b6⟩⟩ := hst
  have hd : (Example.heap.par 1).dict = Example.params 0 := by rw [Example.heap_par]
  have hgiven : ∀ {key : String} {v w : PVal}, Given (Example.heap.par 1).dict key .none v →
      (Example.heap.par 1).dict.get? key = some w → v = w := by
    intro key v w hg hw
    rcases hg with ⟨hg, -⟩ | ⟨-, hg⟩
    · exact absurd rfl hg
    · rw [hg] at hw
      exact Option.some.inj hw
  rw [hgiven a1 (w := .str "custom") (by rw [hd]; rfl)] at b1
  rw [hgiven a2 (w := .psdFn 0) (by rw [hd]; rfl)] at b2
  rw [hgiven a3 (w := .str "auto") (by rw [hd]; rfl)] at b3
  rw [hgiven a4 (w := .bool false) (by rw [hd]; rfl)] at b4
  rw [hgiven a5 (w := .str "auto") (by rw [hd]; rfl)] at b5
  have hv6 := hgiven a6 (w := .time 1e8) (by rw [hd]; rfl)
  have b6' : (h'.par 1).dict.get? "t_obs" = some (.time 1e8) := by
    rcases b6 with b6 | ⟨b6, -⟩
    · rw [b6, hv6]
    · rw [hv6] at b6
      cases b6
  have hreach : Reachable Example.world AnyCall Example.heap := Example.reachable (ok := AnyCall) trivial
  have heq : (h'.par 1).dict.eq (Example.params 0) := sixKeys_eq (six_keys (snr_reachable hreach trivial hrun) hp'')
    (filled_params_ok (Example.filled_custom 0)).1 (f := ⟨.time 1e8, .str "custom", .psdFn 0, .str "auto", .bool false, .str "auto"⟩)
    (agrees_iff.2 ⟨b6', b1, b2, b3, b4, b5⟩) (agrees_iff.2 ⟨rfl, rfl, rfl, rfl, rfl, rfl⟩)
  have hN : ∀ f, psd_of_dict Example.world (h'.par 1).dict f = .ok ((1e-40 : ℝ) : WithTop ℝ) := by
    intro f
    rw [psd_of_dict_congr _ heq, Example.psd_params]
    norm_num
  obtain ⟨C, v, ρ, g1, g2, g3, g4, g5, g6⟩ := C114_get_snr hreach (Or.inl hcls) (by norm_num) example_schedule example_rect hno hrun
    hp'' b6' (by norm_num) (k := 0) le_rfl (S := fun _ => 1e-40) ⟨fun f _ _ => by norm_num, fun f f' _ _ _ => by simp⟩
    (fun f _ _ => hN f) (i := 0) (x := rowAt Example.cols 0) (by rw [hcols]; rfl) rfl (fun m hm => by cases hm)
    (by
      have : (h'.src 0).stat_tol = 0.01 := by rw [hsrc', Example.heap_src]; show (1e-2 : ℝ) = 0.01; norm_num
      rw [this, stationaryOver_iff]
      exact stationaryOver_iff.1 example_stationary)
    (etol := Example.eccTol) (by rw [hsrc', Example.heap_src]; rfl) (by show (0 : ℝ) ≤ 0; norm_num)
    (C33_pos (by norm_num) Example.find_eccTol).le (by show (0 : ℝ) < 1; norm_num) rfl
    (by show (1e-7 : ℝ) ≤ 2 * 1e-3; norm_num) (by show (2 : ℝ) * 1e-3 ≤ 2; norm_num) (γ := 1) le_rfl
    (fun g hg => by
      rw [hsrc', Example.heap_src] at hg
      cases hg
      have : Example.world.gSpline 2 0 = 1 := by
        change peters_g 2 0 = 1
        rw [C05_circular (by norm_num), if_pos rfl]
      rw [this]
      exact within_refl le_rfl (by norm_num))
    (N := fun _ => ((1e-40 : ℝ) : WithTop ℝ)) (fun n _ => hN _)
    (fun n _ => by
      have : (0 : ℝ) < 1e-40 := by norm_num
      exact_mod_cast this)
    (B₁ := 1e-40) (B := 9e-40) (S₂ := 1e-40) (by norm_num) (by norm_num) rfl
    (fun S h2 => by
      have : (1e-40 : ℝ) = S := by exact_mod_cast h2
      exact this.le)
    (fun n S h1 h2 => by
      have h2 : S = 1e-40 := by
        have : (1e-40 : ℝ) = S := by exact_mod_cast h2
        exact this.symm
      subst h2
      have : (3 : ℝ) ≤ n := by exact_mod_cast h1
      have h3 : (9 : ℝ) ≤ (n : ℝ) ^ 2 := by nlinarith
      norm_num
      linarith)
  exact ⟨h', r, C, v, ρ, hreach, hrun, g3, g1, g4, g5, g6⟩

end Objects

end Legwork.Props
