import Verif.Props.NearlyCircular
import Verif.Lemmas.KeplerStrain

/-!
# Eccentric binaries in white noise: C119
-/

namespace Legwork.Props

open Real Legwork.source Legwork.Spec Legwork.snr Legwork.strain Legwork.utils Legwork.evol
open Filter (Tendsto atTop)
open PyM hiding bind

private lemma white_circ (C : Ctx) (ht : 0 ≤ C.t_obs) (hig : C.interpolated_g = none) {m f d S₂ : ℝ} (hS : 0 < S₂)
    (hn : noise C (2 * f) = .ok (S₂ : ℝ)) :
    snr_circ_stationary C [⟨m, f, d, {}⟩] = .ok [some √(h_0_val C.K none m d f 0 2 ^ 2 * C.t_obs / S₂)] := by
  rw [snr_circ_stationary_iff]
  set h := h_0_val C.K none m d f 0 2 with hh
  have hc0 : 0 ≤ h ^ 2 * C.t_obs / S₂ := by positivity
  refine mapM_ok (g := fun _ => some √(h ^ 2 * C.t_obs / S₂)) fun x hx => ?_
  rw [List.mem_singleton] at hx
  subst hx
  unfold circ1
  rw [modulation_none, ok_bind]
  simp only
  rw [hn, ok_bind, one_mul, hig, ← hh]
  simp only [divNoise]
  rw [sqrt?_nonneg hc0]
  rfl

private lemma weight_between {N : ℕ → WithTop ℝ} {S₂ α : ℝ} (hS : 0 < S₂) (hα : 0 < α) {k : ℕ}
    (h : ∀ S : ℝ, N (k + 1) = S → α * S₂ ≤ S) : weight N k ≤ 1 / ((k : ℝ) + 1) ^ 2 * (1 / (α * S₂)) := by
  unfold weight
  generalize N (k + 1) = ν at *
  induction ν using WithTop.recTopCoe with
  | top => simp only [divNoise]; positivity
  | coe y =>
    have hy := h y rfl
    simp only [divNoise]
    rw [div_eq_mul_one_div _ y]
    have : 0 < α * S₂ := by positivity
    gcongr

private lemma weight_above {N : ℕ → WithTop ℝ} {S₂ β : ℝ} {k : ℕ} (hp : 0 < N (k + 1))
    (h : N (k + 1) ≤ ((β * S₂ : ℝ) : WithTop ℝ)) : 1 / ((k : ℝ) + 1) ^ 2 * (1 / (β * S₂)) ≤ weight N k := by
  unfold weight
  generalize N (k + 1) = ν at *
  induction ν using WithTop.recTopCoe with
  | top => exact absurd (top_le_iff.1 h) (WithTop.coe_ne_top)
  | coe y =>
    have hy : y ≤ β * S₂ := WithTop.coe_le_coe.1 h
    have hy0 : 0 < y := WithTop.coe_pos.1 hp
    simp only [divNoise]
    rw [div_eq_mul_one_div _ y]
    gcongr

private lemma gain_eq {e : ℝ} : 1 / (3 * √(1 - e ^ 2)) - 1 / 12 = (1 / 4) * ((4 / √(1 - e ^ 2) - 1) / 3) := by
  rw [one_div, mul_inv]
  ring

private lemma gain_pos {e : ℝ} (h1 : e ^ 2 < 1) : 1 ≤ (4 / √(1 - e ^ 2) - 1) / 3 := by
  have h2 : √(1 - e ^ 2) ≤ 1 := by
    rw [sqrt_le_one]
    nlinarith [sq_nonneg e]
  have h3 : 0 < √(1 - e ^ 2) := sqrt_pos.2 (by linarith)
  have : 4 ≤ 4 / √(1 - e ^ 2) := by
    rw [le_div_iff₀ h3]
    linarith
  linarith

private lemma gain_lt {e e' : ℝ} (h0 : 0 ≤ e) (h : e < e') (h1 : e' < 1) :
    (4 / √(1 - e ^ 2) - 1) / 3 < (4 / √(1 - e' ^ 2) - 1) / 3 := by
  have h2 : 0 < 1 - e' ^ 2 := by nlinarith
  have h3 : √(1 - e' ^ 2) < √(1 - e ^ 2) := sqrt_lt_sqrt h2.le (by nlinarith)
  have h4 : 0 < √(1 - e' ^ 2) := sqrt_pos.2 h2
  have : 4 / √(1 - e ^ 2) < 4 / √(1 - e' ^ 2) := by gcongr
  linarith

/-- **C119** (noise that varies). Take a stationary binary and let `c` be the SNR of the circular binary with the same chirp mass,
orbital frequency and distance. If the noise at the harmonics is nowhere below `α` times the noise at the second one, then the
SNRs of the first `H` harmonics tend to a number `ρ` whose square is at most `(4/√(1-e²) - 1)/(3α)` times `c²`, and at least
`(4/√(1-e²) - 1)/(3β)` times `c²` if the noise is nowhere above `β` times that at the second harmonic. No number of harmonics
gives more than `ρ`. -/
theorem C119_bounds (C : Ctx) (ht : 0 ≤ C.t_obs) (hig : C.interpolated_g = none) {s : EccSrc} (h0 : 0 ≤ s.ecc) (h1 : s.ecc < 1)
    {N : ℕ → WithTop ℝ} (hN : ∀ n : ℕ, 1 ≤ n → noise C (n * s.f_orb) = .ok (N n)) (hp : ∀ n, 1 ≤ n → 0 < N n)
    {α S₂ : ℝ} (hα : 0 < α) (h2 : N 2 = S₂) (hlow : ∀ (n : ℕ) (S : ℝ), 1 ≤ n → N n = S → α * S₂ ≤ S) :
    ∃ (v : ℕ → ℝ) (ρ c : ℝ), (∀ H, snr_ecc_stationary C [s] H false false = .ok (.total [some (v H)])) ∧
      Tendsto v atTop (nhds ρ) ∧ (∀ H, 0 ≤ v H ∧ v H ≤ ρ) ∧
      snr_circ_stationary C [⟨s.m_c, s.f_orb, s.dist, {}⟩] = .ok [some c] ∧ 0 ≤ c ∧
      ρ ^ 2 ≤ (4 / √(1 - s.ecc ^ 2) - 1) / (3 * α) * c ^ 2 ∧
      ∀ β : ℝ, (∀ n, 1 ≤ n → N n ≤ ((β * S₂ : ℝ) : WithTop ℝ)) → (4 / √(1 - s.ecc ^ 2) - 1) / (3 * β) * c ^ 2 ≤ ρ ^ 2 := by
  have ha : ∀ k : ℕ, 0 ≤ peters_g ((k : ℤ) + 1) s.ecc := fun k => C05_nonneg _ h0 h1.le
  have hS0 : 0 < S₂ := by
    have := hp 2 (by norm_num)
    rw [h2] at this
    exact_mod_cast this
  have hnn : ∀ k : ℕ, 0 ≤ peters_g ((k : ℤ) + 1) s.ecc * weight N k := fun k => mul_nonneg (ha k) (weight_nonneg hp k)
  have hG := Kepler.hasSum_strain h0 h1
  rw [gain_eq] at hG
  set G := (4 / √(1 - s.ecc ^ 2) - 1) / 3 with hGdef
  have hup := hG.mul_right (1 / (α * S₂))
  have hle : ∀ k : ℕ, peters_g ((k : ℤ) + 1) s.ecc * weight N k ≤
      peters_g ((k : ℤ) + 1) s.ecc / ((k : ℝ) + 1) ^ 2 * (1 / (α * S₂)) := by
    intro k
    have := mul_le_mul_of_nonneg_left (weight_between hS0 hα (k := k) fun S hS => hlow (k + 1) S (by omega) hS) (ha k)
    refine this.trans (le_of_eq ?_)
    ring
  have hsum : Summable fun k : ℕ => peters_g ((k : ℤ) + 1) s.ecc * weight N k := Summable.of_nonneg_of_le hnn hle hup.summable
  set h := h_0_val C.K none s.m_c s.dist s.f_orb 0 2 with hh
  set A := 4 * h ^ 2 * C.t_obs with hA
  have hA0 : 0 ≤ A := by positivity
  have hc0 : 0 ≤ h ^ 2 * C.t_obs / S₂ := by positivity
  have hn2 := hN 2 (by norm_num)
  rw [h2] at hn2
  refine ⟨fun H => √(A * ∑ k ∈ Finset.range H, peters_g ((k : ℤ) + 1) s.ecc * weight N k),
    √(A * ∑' k : ℕ, peters_g ((k : ℤ) + 1) s.ecc * weight N k), √(h ^ 2 * C.t_obs / S₂),
    fun H => snr_upTo C ht hig h0 h1.le hN hp H, ?_, fun H => ⟨sqrt_nonneg _, ?_⟩, ?_, sqrt_nonneg _, ?_, ?_⟩
  · exact (continuous_sqrt.tendsto _).comp ((hsum.hasSum.tendsto_sum_nat).const_mul A)
  · exact sqrt_le_sqrt (mul_le_mul_of_nonneg_left (hsum.sum_le_tsum _ fun k _ => hnn k) hA0)
  · exact white_circ C ht hig hS0 (by exact_mod_cast hn2)
  · rw [sq_sqrt hc0, sq_sqrt (mul_nonneg hA0 (tsum_nonneg hnn))]
    have := mul_le_mul_of_nonneg_left (hasSum_le hle hsum.hasSum hup) hA0
    refine this.trans (le_of_eq ?_)
    rw [hA, hGdef]
    field_simp
  · intro β hβ
    have hβ0 : 0 < β := by
      have := hβ 2 (by norm_num)
      rw [h2] at this
      have := WithTop.coe_le_coe.1 this
      by_contra hlt
      push Not at hlt
      nlinarith
    rw [sq_sqrt hc0, sq_sqrt (mul_nonneg hA0 (tsum_nonneg hnn))]
    have hge : ∀ k : ℕ, peters_g ((k : ℤ) + 1) s.ecc / ((k : ℝ) + 1) ^ 2 * (1 / (β * S₂)) ≤
        peters_g ((k : ℤ) + 1) s.ecc * weight N k := by
      intro k
      have := mul_le_mul_of_nonneg_left (weight_above (hp (k + 1) (by omega)) (hβ (k + 1) (by omega))) (ha k)
      refine le_trans (le_of_eq ?_) this
      ring
    have := mul_le_mul_of_nonneg_left (hasSum_le hge (hG.mul_right (1 / (β * S₂))) hsum.hasSum) hA0
    refine le_trans (le_of_eq ?_) this
    rw [hA, hGdef]
    field_simp

/-- **C119** (white noise). If the noise is the same at all harmonics, the SNR of all harmonics of a stationary binary is
`√((4/√(1-e²) - 1)/3)` times that of the circular binary with the same chirp mass, orbital frequency and distance. -/
theorem C119_white (C : Ctx) (ht : 0 ≤ C.t_obs) (hig : C.interpolated_g = none) {s : EccSrc} (h0 : 0 ≤ s.ecc) (h1 : s.ecc < 1)
    {S : ℝ} (hS : 0 < S) (hN : ∀ n : ℕ, 1 ≤ n → noise C (n * s.f_orb) = .ok (S : ℝ)) :
    ∃ (v : ℕ → ℝ) (c : ℝ), (∀ H, snr_ecc_stationary C [s] H false false = .ok (.total [some (v H)])) ∧
      snr_circ_stationary C [⟨s.m_c, s.f_orb, s.dist, {}⟩] = .ok [some c] ∧ 0 ≤ c ∧
      Tendsto v atTop (nhds (√((4 / √(1 - s.ecc ^ 2) - 1) / 3) * c)) ∧
      ∀ H, v H ≤ √((4 / √(1 - s.ecc ^ 2) - 1) / 3) * c := by
  obtain ⟨v, ρ, c, r1, r2, r3, r4, r5, r6, r7⟩ := C119_bounds C ht hig h0 h1 (N := fun _ => (S : ℝ)) hN
    (fun _ _ => WithTop.coe_pos.2 hS) (α := 1) (S₂ := S) one_pos rfl (fun n S' _ h => by
      rw [one_mul]
      exact (WithTop.coe_inj.1 h).le)
  have r8 := r7 1 fun _ _ => by rw [one_mul]
  rw [mul_one] at r6 r8
  have hρ0 : 0 ≤ ρ := (r3 0).1.trans (r3 0).2
  have hG := gain_pos (e := s.ecc) (by nlinarith)
  have hρ : ρ = √((4 / √(1 - s.ecc ^ 2) - 1) / 3) * c := by
    have h2 : (√((4 / √(1 - s.ecc ^ 2) - 1) / 3) * c) ^ 2 = (4 / √(1 - s.ecc ^ 2) - 1) / 3 * c ^ 2 := by
      rw [mul_pow, sq_sqrt (by linarith)]
    rw [← sq_eq_sq₀ hρ0 (by positivity), h2]
    exact le_antisymm r6 r8
  exact ⟨v, c, r1, r4, r5, hρ ▸ r2, fun H => hρ ▸ (r3 H).2⟩

/-- **C119** (louder). In white noise the more eccentric of two otherwise identical stationary binaries is the louder one: from some
number of harmonics on, its SNR exceeds that of any number of harmonics of the other. -/
theorem C119_louder (C : Ctx) (ht : 0 < C.t_obs) (hig : C.interpolated_g = none) {m f d e e' : ℝ} (hm : 0 < m) (hf : 0 < f)
    (hd : 0 < d) (h0 : 0 ≤ e) (h : e < e') (h1 : e' < 1) {S : ℝ} (hS : 0 < S)
    (hN : ∀ n : ℕ, 1 ≤ n → noise C (n * f) = .ok (S : ℝ)) :
    ∃ (v v' : ℕ → ℝ), (∀ H, snr_ecc_stationary C [⟨m, f, e, d⟩] H false false = .ok (.total [some (v H)])) ∧
      (∀ H, snr_ecc_stationary C [⟨m, f, e', d⟩] H false false = .ok (.total [some (v' H)])) ∧
      ∃ H₀, ∀ H, H₀ ≤ H → ∀ M, v M < v' H := by
  obtain ⟨v, c, r1, r2, r3, -, r5⟩ := C119_white C ht.le hig (s := ⟨m, f, e, d⟩) h0 (h.trans h1) hS hN
  obtain ⟨v', c', r1', r2', -, r4', -⟩ := C119_white C ht.le hig (s := ⟨m, f, e', d⟩) (h0.trans h.le) h1 hS hN
  have hcc : c' = c := by
    simp only at r2 r2'
    rw [r2] at r2'
    simpa using r2'.symm
  subst hcc
  have hc : 0 < c' := by
    have hn := hN 2 (by norm_num)
    have := white_circ C ht.le hig (m := m) (d := d) hS (by exact_mod_cast hn)
    simp only at r2
    rw [this] at r2
    have hc' : c' = √(h_0_val C.K none m d f 0 2 ^ 2 * C.t_obs / S) := by simpa using r2.symm
    rw [hc']
    have hG := C.K.G_pos
    have hcl := C.K.c_pos
    have hg2 : g_vals none 2 0 = 1 := by
      change peters_g 2 0 = 1
      rw [C05_circular (by norm_num), if_pos rfl]
    have : 0 < h_0_val C.K none m d f 0 2 := by
      unfold h_0_val
      simp only [hg2]
      positivity
    exact sqrt_pos.2 (by positivity)
  have hlt : √((4 / √(1 - e ^ 2) - 1) / 3) * c' < √((4 / √(1 - e' ^ 2) - 1) / 3) * c' :=
    mul_lt_mul_of_pos_right (sqrt_lt_sqrt (by linarith [gain_pos (e := e) (by nlinarith)]) (gain_lt h0 h h1)) hc
  obtain ⟨H₀, hH⟩ := Filter.eventually_atTop.1 (r4'.eventually (lt_mem_nhds hlt))
  exact ⟨v, v', r1, r1', H₀, fun H hle M => (r5 M).trans_lt (hH H hle)⟩

/-- **C119** (red noise). If the noise at the harmonics is inversely proportional to the square of the frequency, the SNR of all
harmonics of a stationary binary is `√F(e)` times that of the circular binary with the same chirp mass, orbital frequency and
distance: as much as it emits more. -/
theorem C119_red (C : Ctx) (ht : 0 ≤ C.t_obs) (hig : C.interpolated_g = none) {s : EccSrc} (h0 : 0 ≤ s.ecc) (h1 : s.ecc < 1)
    {A : ℝ} (hA : 0 < A) (hf : 0 < s.f_orb) (hN : ∀ n : ℕ, 1 ≤ n → noise C (n * s.f_orb) = .ok ((A / (n * s.f_orb) ^ 2 : ℝ) : WithTop ℝ)) :
    ∃ (v : ℕ → ℝ) (c : ℝ), (∀ H, snr_ecc_stationary C [s] H false false = .ok (.total [some (v H)])) ∧
      snr_circ_stationary C [⟨s.m_c, s.f_orb, s.dist, {}⟩] = .ok [some c] ∧ 0 ≤ c ∧
      Tendsto v atTop (nhds (√(peters_f s.ecc) * c)) ∧ ∀ H, v H ≤ √(peters_f s.ecc) * c := by
  set N : ℕ → WithTop ℝ := fun n => ((A / (n * s.f_orb) ^ 2 : ℝ) : WithTop ℝ) with hNdef
  have hp : ∀ n, 1 ≤ n → 0 < N n := fun n hn => WithTop.coe_pos.2 (by
    have : (0 : ℝ) < n := by exact_mod_cast hn
    positivity)
  have hw : ∀ k, weight N k = s.f_orb ^ 2 / A := by
    intro k
    unfold weight
    simp only [hNdef, divNoise]
    have : (0 : ℝ) < (k : ℝ) + 1 := by positivity
    push_cast
    field_simp
  have ha : ∀ k : ℕ, 0 ≤ peters_g ((k : ℤ) + 1) s.ecc := fun k => C05_nonneg _ h0 h1.le
  have hG := (C06_sum h0 h1).mul_right (s.f_orb ^ 2 / A)
  set h := h_0_val C.K none s.m_c s.dist s.f_orb 0 2 with hh
  set S₂ := A / (2 * s.f_orb) ^ 2 with hS₂
  have hS0 : 0 < S₂ := by positivity
  have hc0 : 0 ≤ h ^ 2 * C.t_obs / S₂ := by positivity
  have hB : 0 ≤ 4 * h ^ 2 * C.t_obs := by positivity
  have hF := (peters_f_pos h0 h1).le
  have hlim : √(peters_f s.ecc) * √(h ^ 2 * C.t_obs / S₂) = √(4 * h ^ 2 * C.t_obs * (peters_f s.ecc * (s.f_orb ^ 2 / A))) := by
    rw [← sqrt_mul hF]
    congr 1
    rw [hS₂]
    field_simp
    norm_num
  have hform : ∀ H, snr_ecc_stationary C [s] H false false = .ok (.total [some √(4 * h ^ 2 * C.t_obs *
      ∑ k ∈ Finset.range H, peters_g ((k : ℤ) + 1) s.ecc * (s.f_orb ^ 2 / A))]) := by
    intro H
    have := snr_upTo (N := N) C ht hig h0 h1.le hN hp H
    rw [this]
    simp only [hw]
    rfl
  refine ⟨_, √(h ^ 2 * C.t_obs / S₂), hform, ?_, sqrt_nonneg _, ?_, ?_⟩
  · have hn2 := hN 2 (by norm_num)
    exact white_circ C ht hig hS0 (by exact_mod_cast hn2)
  · rw [hlim]
    exact (continuous_sqrt.tendsto _).comp ((hG.tendsto_sum_nat).const_mul _)
  · intro H
    rw [hlim]
    exact sqrt_le_sqrt (mul_le_mul_of_nonneg_left (sum_le_hasSum _ (fun k _ => mul_nonneg (ha k) (by positivity)) hG) hB)

/-- **C119** (`get_snr`). Let `get_snr` return, however the program got there, in white noise and, if the powers of the harmonics are
interpolated, with values within a factor `γ` of the exact ones. Take a stationary eccentric binary whose harmonics used reach no
further than 2 Hz and carry all but a fraction `tol` of its power. Its SNR is `√((4/√(1-e²) - 1)/3)` times that of the circular
binary with the same chirp mass, orbital frequency and distance, too large by at most a factor `γ^(1/2)` and too small by at most
`(γ/(1 - tol))^(1/2)`. -/
theorem C119_get_snr {W : World} {h h' : Heap} {s n r p : ℕ} {a : SnrArgs} {ws : Option (List Bool)}
    (hr : Reachable W AnyCall h) (hcls : (h.src s).cls = .Source ∨ (h.src s).cls = .VerificationBinaries) (hn : n ≠ 0)
    (hsch : CompleteSchedule W (h.src s)) (hrect : Rect (h.src s).cols) (hw : FitsMask (h.src s).cols ws)
    (hrun : get_snr W s a n ws h = (.ok r, h')) (hp : (h'.src s).sc_params = some p) {t_obs : ℝ}
    (ht : (h'.par p).dict.get? "t_obs" = some (.time t_obs)) (ht1 : 1 ≤ t_obs) {S : ℝ} (hS : 0 < S)
    (hN : ∀ f, 0 < f → psd_of_dict W (h'.par p).dict f = .ok (S : ℝ)) {i : ℕ}
    {x : One} (hi : (rows (h.src s).cols)[i]? = some x) (hm : x.merged = false) (hch : Chosen ws i)
    (hst : x.StationaryOver W.K t_obs (h'.src s).stat_tol) {etol : ℝ} (het : (h'.src s).ecc_tol = some etol)
    (he : etol < x.ecc) (he1 : x.ecc < 1) {q : ℝ → ℤ} (hq : (h'.src s).harmonics_required = some q) {H : ℕ}
    (hH : HarmonicLimit (q x.ecc) H) (hlow : 1e-7 ≤ x.f_orb) (hhigh : H * x.f_orb ≤ 2) {γ : ℝ} (hγ : 1 ≤ γ)
    (hg : ∀ g, (h'.src s).g = some g → ∀ n : ℕ, 1 ≤ n → n ≤ H → WithinFactor γ (g n x.ecc) (peters_g n x.ecc))
    {tol : ℝ} (ht0 : 0 ≤ tol) (htl : tol < 1) (hpow : (1 - tol) * peters_f x.ecc ≤ powerUpTo H x.ecc) :
    ∃ (C : Ctx) (v c : ℝ), CallCtx W h' s C ∧ C.t_obs = t_obs ∧ (h'.snrs r)[i]? = some (some v) ∧
      snr_circ_stationary { C with interpolated_g := none, interpolated_sc := none } [⟨x.m_c, x.f_orb, x.dist, {}⟩]
        = .ok [some c] ∧ 0 ≤ c ∧
      v ≤ √γ * (√((4 / √(1 - x.ecc ^ 2) - 1) / 3) * c) ∧
      √(1 - tol) * (√((4 / √(1 - x.ecc ^ 2) - 1) / 3) * c) ≤ √γ * v := by
  have hf : 0 < x.f_orb := lt_of_lt_of_le (by norm_num) hlow
  have hNn : ∀ n : ℕ, 1 ≤ n → psd_of_dict W (h'.par p).dict (n * x.f_orb) = .ok ((S : ℝ) : WithTop ℝ) := fun n hn =>
    hN _ (mul_pos (by exact_mod_cast hn) hf)
  have h0 : 0 ≤ x.ecc := ((Reachable.eccInv (snr_reachable hr trivial hrun)) s _ het).1.trans he.le
  obtain ⟨C, v, ρ, c1, c2, c3, ⟨u, c4, c4'⟩, c5, c6⟩ := C112_get_snr hr hcls hn hsch hrect hw hrun hp ht ht1 (k := 0) le_rfl
    (S := fun _ => S) ⟨fun f _ _ => hS, fun f f' _ _ _ => by simp⟩ (fun f a _ => hN f (lt_of_lt_of_le (by norm_num) a)) hi hm hch hst
    het he he1 hq hH hlow hhigh hγ hg (N := fun _ => ((S : ℝ) : WithTop ℝ)) hNn (fun _ _ => WithTop.coe_pos.2 hS) ht0 htl hpow
    (B := ((H : ℝ) + 1) ^ 2 * S) (by positivity) (R := 1) zero_le_one
    (fun n _ h2 => ⟨S, rfl, by
      have : (n : ℝ) ≤ H + 1 := by exact_mod_cast h2.trans (Nat.le_succ H)
      rw [one_mul]
      gcongr⟩)
    (fun n S' h1 h2 => by
      have h2 : S = S' := WithTop.coe_inj.1 h2
      subst h2
      have : (H : ℝ) + 1 ≤ n := by exact_mod_cast h1
      gcongr)
  obtain ⟨v', c, w1, w2, w3, w4, -⟩ := C119_white { C with interpolated_g := none, interpolated_sc := none }
    (by show 0 ≤ C.t_obs; linarith) rfl (s := x.eccentric) h0 he1 hS (fun n hn => noise_of_dict c1 hp (hNn n hn))
  have huv : u = v' := by
    funext H
    have := c4 H
    rw [w1 H] at this
    simpa using this.symm
  subst huv
  have hρ := tendsto_nhds_unique c4' w4
  have e1 : (1.0017 : ℝ) ^ ((0 : ℝ) / 2) = 1 := by norm_num
  have e2 : (1 - tol) / (1 - tol + 1 * tol) = 1 - tol := by
    have : 1 - tol + 1 * tol = 1 := by ring
    rw [this, div_one]
  rw [e1, one_mul, hρ] at c5
  rw [e1, e2, one_mul, hρ] at c6
  exact ⟨C, v, c, c1, c2, c3, w2, w3, c5, c6⟩

/-! ### Examples -/

/-- Non-vacuity of `C119_bounds`: noise that is twice as large at the first harmonic as at the others. -/
example (K : Consts) (env : psd.Env) : ∃ (C : Ctx) (v : ℕ → ℝ) (ρ c : ℝ),
    (∀ H, snr_ecc_stationary C [⟨1e30, 1e-3, 0.6, 1e20⟩] H false false = .ok (.total [some (v H)])) ∧
    Tendsto v atTop (nhds ρ) ∧ snr_circ_stationary C [⟨1e30, 1e-3, 1e20, {}⟩] = .ok [some c] ∧
    ρ ^ 2 ≤ 4 / 3 * c ^ 2 ∧ 2 / 3 * c ^ 2 ≤ ρ ^ 2 := by
  classical
  set sc : ℝ → WithTop ℝ := (fun f => (((if f = 1e-3 then 2e-40 else 1e-40) : ℝ) : WithTop ℝ)) with hsc
  set C : Ctx := { K := K, env := env, kw := {}, t_obs := 1e8, interpolated_sc := some sc } with hC
  have hq : √(1 - (0.6 : ℝ) ^ 2) = 4 / 5 := by
    rw [show (1 : ℝ) - 0.6 ^ 2 = (4 / 5) ^ 2 by norm_num, sqrt_sq (by norm_num)]
  obtain ⟨v, ρ, c, r1, r2, -, r4, -, r6, r7⟩ := C119_bounds C (by norm_num [hC]) rfl (s := ⟨1e30, 1e-3, 0.6, 1e20⟩) (by norm_num)
    (by norm_num) (N := fun n : ℕ => (((if n = 1 then 2e-40 else 1e-40) : ℝ) : WithTop ℝ))
    (fun n hn => by
      have : (n : ℝ) * 1e-3 = 1e-3 ↔ n = 1 := by
        constructor
        · intro h
          have : (n : ℝ) = 1 := by linarith
          exact_mod_cast this
        · rintro rfl
          norm_num
      change (Except.ok _ : Except PyErr (WithTop ℝ)) = Except.ok _
      simp only [hsc, this])
    (fun n _ => WithTop.coe_pos.2 (by split_ifs <;> norm_num)) (α := 1) (S₂ := 1e-40) one_pos (by simp)
    (fun n S _ h => by
      have := WithTop.coe_inj.1 h
      rw [← this]
      split_ifs <;> norm_num)
  have r8 := r7 2 fun n _ => WithTop.coe_le_coe.2 (by split_ifs <;> norm_num)
  simp only [hq] at r6 r8
  norm_num at r6 r8
  exact ⟨C, v, ρ, c, r1, r2, r4, r6, r8⟩

/-- Non-vacuity of `C119_white` and `C119_louder`: white noise, given by the user. At eccentricity 0.6 all harmonics together have
√(4/3) times the SNR of the circular binary. -/
example (K : Consts) (env : psd.Env) : ∃ (C : Ctx) (v v' : ℕ → ℝ) (c : ℝ) (H₀ : ℕ),
    (∀ H, snr_ecc_stationary C [⟨1e30, 1e-3, 0.6, 1e20⟩] H false false = .ok (.total [some (v H)])) ∧
    snr_circ_stationary C [⟨1e30, 1e-3, 1e20, {}⟩] = .ok [some c] ∧ Tendsto v atTop (nhds (√(4 / 3) * c)) ∧
    (∀ H, snr_ecc_stationary C [⟨1e30, 1e-3, 0.7, 1e20⟩] H false false = .ok (.total [some (v' H)])) ∧
    ∀ H, H₀ ≤ H → ∀ M, v M < v' H := by
  set C : Ctx := { K := K, env := env, kw := {}, t_obs := 1e8, interpolated_sc := some fun _ => ((1e-40 : ℝ) : WithTop ℝ) } with hC
  have hq : √(1 - (0.6 : ℝ) ^ 2) = 4 / 5 := by
    rw [show (1 : ℝ) - 0.6 ^ 2 = (4 / 5) ^ 2 by norm_num, sqrt_sq (by norm_num)]
  obtain ⟨v, c, r1, r2, -, r4, -⟩ := C119_white C (by norm_num [hC]) rfl (s := ⟨1e30, 1e-3, 0.6, 1e20⟩) (by norm_num) (by norm_num)
    (S := 1e-40) (by norm_num) (fun n _ => rfl)
  obtain ⟨w, v', s1, s2, H₀, s3⟩ := C119_louder C (by norm_num [hC]) rfl (m := 1e30) (f := 1e-3) (d := 1e20) (e := 0.6) (e' := 0.7)
    (by norm_num) (by norm_num) (by norm_num) (by norm_num) (by norm_num) (by norm_num) (S := 1e-40) (by norm_num) (fun n _ => rfl)
  have hwv : w = v := by
    funext H
    have := s1 H
    rw [r1 H] at this
    simpa using this.symm
  subst hwv
  have e1 : ((4 / √(1 - (0.6 : ℝ) ^ 2) - 1) / 3) = 4 / 3 := by
    rw [hq]
    norm_num
  simp only [e1] at r4
  exact ⟨C, w, v', c, H₀, r1, r2, r4, s2, s3⟩

/-- Non-vacuity of `C119_red`: noise that falls with the square of the frequency. -/
example (K : Consts) (env : psd.Env) : ∃ (C : Ctx) (v : ℕ → ℝ) (c : ℝ),
    (∀ H, snr_ecc_stationary C [⟨1e30, 1e-3, 0.6, 1e20⟩] H false false = .ok (.total [some (v H)])) ∧
    snr_circ_stationary C [⟨1e30, 1e-3, 1e20, {}⟩] = .ok [some c] ∧ Tendsto v atTop (nhds (√(peters_f 0.6) * c)) := by
  set C : Ctx := { K := K, env := env, kw := {}, t_obs := 1e8, interpolated_sc := some fun f => ((1e-46 / f ^ 2 : ℝ) : WithTop ℝ) } with hC
  obtain ⟨v, c, r1, r2, -, r4, -⟩ := C119_red C (by norm_num [hC]) rfl (s := ⟨1e30, 1e-3, 0.6, 1e20⟩) (by norm_num) (by norm_num)
    (A := 1e-46) (by norm_num) (by norm_num) (fun n _ => rfl)
  exact ⟨C, v, c, r1, r2, r4⟩

private lemma white_required (tol e : ℝ) : harmonics_required Example.world.table tol e = 2 := by
  have hv : ValidTable Example.world.table := by
    refine ⟨?_, ?_, ?_, ?_, ?_⟩
    · show ([0, 0.5, 0.9] : List ℝ).Pairwise (· < ·); norm_num
    · show 2 ≤ 3; norm_num
    · rfl
    · show ∀ row ∈ ([[0, 1], [1, 2], [10, 20]] : List (List ℝ)), row.length = 2; simp
    · exact le_rfl
  obtain ⟨h1, h2⟩ := C32_range hv tol e
  exact le_antisymm h2 h1


private lemma white_g_two : 0.1 ≤ peters_g 2 0.3 := by
  have key : ∀ k : ℤ, |jv k 0.6 - (0.91 * jv k 0 + 0.045 * (jv (k - 2) 0 + jv (k + 2) 0) +
      0.3 * (jv (k - 1) 0 - jv (k + 1) 0))| ≤ 0.0437 := by
    intro k
    have := jv_expansion k (by norm_num : (0 : ℝ) ≤ 0.6) (by norm_num)
    refine le_trans (le_of_eq ?_) (this.trans (by norm_num))
    norm_num
  have h0 := abs_le.1 (key 0)
  have h2 := abs_le.1 (key 2)
  have h4 := abs_le.1 (key 4)
  simp only [jv_zero] at h0 h2 h4
  norm_num at h0 h2 h4
  unfold peters_g
  simp only
  norm_num
  generalize jv 0 (3 / 5) = j0 at *
  generalize jv 2 (3 / 5) = j2 at *
  generalize jv 4 (3 / 5) = j4 at *
  have b2 : 0.6 ≤ j0 - 2 * j2 + j4 := by norm_num; linarith
  have s2 : (0.6 : ℝ) ^ 2 ≤ (j0 - 2 * j2 + j4) ^ 2 := by gcongr
  norm_num at s2
  nlinarith [sq_nonneg (j0 - 3 / 5 * jv 1 (3 / 5) + j2 + 3 / 5 * jv 3 (3 / 5) - j4), sq_nonneg j2]

/-- Non-vacuity of `C119_get_snr`: the eccentric binary of the example object, in white noise. -/
example : ∃ (h' : Heap) (r : ℕ) (C : Ctx) (v c : ℝ), Reachable Example.world AnyCall Example.heap ∧
    get_snr Example.world 0 {} 100 none Example.heap = (.ok r, h') ∧ (h'.snrs r)[1]? = some (some v) ∧
    CallCtx Example.world h' 0 C ∧
    v ≤ √1 * (√((4 / √(1 - 0.3 ^ 2) - 1) / 3) * c) ∧ √(1 - 0.99) * (√((4 / √(1 - 0.3 ^ 2) - 1) / 3) * c) ≤ √1 * v := by
  have hno : FitsMask (Example.heap.src 0).cols none := fun m hm => by cases hm
  have hcols : (Example.heap.src 0).cols = Example.cols := by rw [Example.heap_src]; rfl
  have hcls : (Example.heap.src 0).cls = .Source := by rw [Example.heap_src]; rfl
  obtain ⟨r, h', hrun⟩ := C36_succeeds (n := 100) (ws := none) (by norm_num) example_schedule hno example_ready
  obtain ⟨_, _, _, hsrc'⟩ := (get_snr_snrCall Example.world 0 {} 100 none Example.heap).src 0
  rw [hrun] at hsrc'
  simp only at hsrc'
  obtain ⟨p', hp', hp'', hst⟩ := C36_settings (Or.inl hcls) (by norm_num) example_schedule example_rect hno hrun
  have hp : (Example.heap.src 0).sc_params = some 1 := by rw [Example.heap_src]; rfl
  rw [hp] at hp'
  cases hp'
  obtain ⟨⟨v1, a1, b1⟩, ⟨v2, a2, b2⟩, ⟨v3, a3, b3⟩, ⟨v4, a4, b4⟩, ⟨v5, a5, b5⟩, ⟨v6, a6, b6⟩⟩ := hst
  have hd : (Example.heap.par 1).dict = Example.params 0 := by rw [Example.heap_par]
  have hgiven : ∀ {key : String} {v w : PVal}, Given (Example.heap.par 1).dict key .none v →
      (Example.heap.par 1).dict.get? key = some w → v = w := by
    intro key v w hg hw
    rcases hg with ⟨hg, -⟩ | ⟨-, hg⟩
    · exact absurd rfl hg
    · rw [hg] at hw
      exact Option.some.inj hw
  rw [hgiven a1 (w := .str "custom") (by rw [hd]; rfl)] at b1
  rw [hgiven a2 (w := .psdFn 0) (by rw [hd]; rfl)] at b2
  rw [hgiven a3 (w := .str "auto") (by rw [hd]; rfl)] at b3
  rw [hgiven a4 (w := .bool false) (by rw [hd]; rfl)] at b4
  rw [hgiven a5 (w := .str "auto") (by rw [hd]; rfl)] at b5
  have hv6 := hgiven a6 (w := .time 1e8) (by rw [hd]; rfl)
  have b6' : (h'.par 1).dict.get? "t_obs" = some (.time 1e8) := by
    rcases b6 with b6 | ⟨b6, -⟩
    · rw [b6, hv6]
    · rw [hv6] at b6
      cases b6
  have hreach : Reachable Example.world AnyCall Example.heap := Example.reachable (ok := AnyCall) trivial
  have heq : (h'.par 1).dict.eq (Example.params 0) := sixKeys_eq (six_keys (snr_reachable hreach trivial hrun) hp'')
    (filled_params_ok (Example.filled_custom 0)).1 (f := ⟨.time 1e8, .str "custom", .psdFn 0, .str "auto", .bool false, .str "auto"⟩)
    (agrees_iff.2 ⟨b6', b1, b2, b3, b4, b5⟩) (agrees_iff.2 ⟨rfl, rfl, rfl, rfl, rfl, rfl⟩)
  have hN : ∀ f, psd_of_dict Example.world (h'.par 1).dict f = .ok ((1e-40 : ℝ) : WithTop ℝ) := by
    intro f
    rw [psd_of_dict_congr _ heq, Example.psd_params]
    norm_num
  have hetol : Example.eccTol < 0.3 :=
    lt_of_le_of_lt (linspace_mem (by norm_num) (by norm_num) (C33_first Example.find_eccTol).1).2 (by norm_num)
  obtain ⟨C, v, c, g1, g2, g3, -, -, g5, g6⟩ := C119_get_snr hreach (Or.inl hcls) (by norm_num) example_schedule example_rect hno hrun
    hp'' b6' (by norm_num) (S := 1e-40) (by norm_num) (fun f _ => hN f) (i := 1) (x := rowAt Example.cols 1) (by rw [hcols]; rfl) rfl (fun m hm => by cases hm)
    (by
      have : (h'.src 0).stat_tol = 0.01 := by rw [hsrc', Example.heap_src]; show (1e-2 : ℝ) = 0.01; norm_num
      rw [this]
      exact example_wide)
    (etol := Example.eccTol) (by rw [hsrc', Example.heap_src]; rfl) hetol (by show (0.3 : ℝ) < 1; norm_num)
    (q := harmonics_required Example.world.table 0.05) (by rw [hsrc', Example.heap_src]; rfl) (H := 10)
    (by left; rw [white_required]; norm_num)
    (by show (1e-7 : ℝ) ≤ 1e-4; norm_num) (by show ((10 : ℕ) : ℝ) * 1e-4 ≤ 2; norm_num) (γ := 1) le_rfl
    (fun g hg m h1 h2 => by
      rw [hsrc', Example.heap_src] at hg
      cases hg
      exact within_refl le_rfl (C05_nonneg _ (by show (0 : ℝ) ≤ 0.3; norm_num) (by show (0.3 : ℝ) ≤ 1; norm_num)))
    (tol := 0.99) (by norm_num) (by norm_num)
    (by
      change (1 - 0.99) * peters_f 0.3 ≤ powerUpTo 10 0.3
      have h1 := white_g_two
      have h3 := peters_f_le_ten (e := 0.3) (by norm_num) le_rfl
      have h2 : peters_g 2 0.3 ≤ powerUpTo 10 0.3 := by
        unfold powerUpTo
        have := Finset.single_le_sum (f := fun n : ℕ => peters_g n 0.3) (s := Finset.Icc 1 10)
          (fun n _ => C05_nonneg _ (by norm_num) (by norm_num)) (show 2 ∈ Finset.Icc 1 10 by simp)
        exact_mod_cast this
      norm_num at h1 h3 ⊢
      linarith)
  exact ⟨h', r, C, v, c, hreach, hrun, g3, g1, g5, g6⟩

end Legwork.Props
