import Verif.Lemmas.Truncation
import Verif.Lemmas.LisaExtremes
import Verif.Lemmas.BesselLow
import Verif.Props.SnrStationary

/-!
# C95: how much signal-to-noise ratio the luminosity tolerance costs
-/

namespace Legwork.Props

open Real Filter Legwork.utils Legwork.strain Legwork.snr Legwork.Spec

private lemma power_range (H : ℕ) (e : ℝ) : powerUpTo H e = ∑ k ∈ Finset.range H, peters_g ((k : ℤ) + 1) e := by
  unfold powerUpTo
  induction H with
  | zero => simp
  | succ N ih => rw [Finset.sum_Icc_succ_top (by omega), ih, Finset.sum_range_succ]; push_cast; rfl

private lemma strain_two (K : Consts) (m d f : ℝ) {h : ℝ} (hh : h_0_n K none [2] [⟨m, d, [(f, 0)], {}⟩] = .ok [[[h]]]) :
    h_0_val K none m d f 0 2 = h := by
  rw [h_0_n_ok (μ := fun _ => 1) K none (by simp) (by simp; rfl)] at hh
  simpa using hh

/-- The SNRs with `H` harmonics and their limit, in terms of the weights. -/
private lemma snr_series (C : Ctx) (ht : 0 ≤ C.t_obs) (hig : C.interpolated_g = none) {s : EccSrc} (h0 : 0 ≤ s.ecc)
    (h1 : s.ecc < 1) {N : ℕ → WithTop ℝ} (hN : ∀ n : ℕ, 1 ≤ n → noise C (n * s.f_orb) = .ok (N n)) (hp : ∀ n, 1 ≤ n → 0 < N n)
    (hs : Summable fun k : ℕ => peters_g ((k : ℤ) + 1) s.ecc * weight N k) :
    ∃ (v : ℕ → ℝ) (ρ : ℝ), (∀ H, snr_ecc_stationary C [s] H false false = .ok (.total [some (v H)])) ∧ Monotone v ∧
      Tendsto v atTop (nhds ρ) ∧ (∀ H, 0 ≤ v H) ∧ 0 ≤ ρ ∧
      (∀ H, v H ^ 2 = 4 * h_0_val C.K none s.m_c s.dist s.f_orb 0 2 ^ 2 * C.t_obs *
        ∑ k ∈ Finset.range H, peters_g ((k : ℤ) + 1) s.ecc * weight N k) ∧
      ρ ^ 2 = 4 * h_0_val C.K none s.m_c s.dist s.f_orb 0 2 ^ 2 * C.t_obs *
        ∑' k : ℕ, peters_g ((k : ℤ) + 1) s.ecc * weight N k := by
  have hnn : ∀ k : ℕ, 0 ≤ peters_g ((k : ℤ) + 1) s.ecc * weight N k := fun k =>
    mul_nonneg (C05_nonneg _ h0 h1.le) (weight_nonneg hp k)
  set A := 4 * h_0_val C.K none s.m_c s.dist s.f_orb 0 2 ^ 2 * C.t_obs with hA
  have hA0 : 0 ≤ A := by positivity
  refine ⟨fun H => √(A * ∑ k ∈ Finset.range H, peters_g ((k : ℤ) + 1) s.ecc * weight N k),
    √(A * ∑' k : ℕ, peters_g ((k : ℤ) + 1) s.ecc * weight N k), fun H => snr_upTo C ht hig h0 h1.le hN hp H, ?_, ?_,
    fun H => sqrt_nonneg _, sqrt_nonneg _, fun H => sq_sqrt (mul_nonneg hA0 (Finset.sum_nonneg fun k _ => hnn k)),
    sq_sqrt (mul_nonneg hA0 (tsum_nonneg hnn))⟩
  · intro a b hab
    exact sqrt_le_sqrt (mul_le_mul_of_nonneg_left
      (Finset.sum_le_sum_of_subset_of_nonneg (Finset.range_mono hab) fun k _ _ => hnn k) hA0)
  · exact (continuous_sqrt.tendsto _).comp ((hs.hasSum.tendsto_sum_nat).const_mul A)

private lemma weight_le {N : ℕ → WithTop ℝ} {B : ℝ} (hB : 0 < B) {k : ℕ}
    (h : ∀ S : ℝ, N (k + 1) = S → B ≤ ((k : ℝ) + 1) ^ 2 * S) : weight N k ≤ 1 / B := by
  unfold weight
  generalize N (k + 1) = ν at *
  induction ν using WithTop.recTopCoe with
  | top => simp only [divNoise]; positivity
  | coe y =>
    have hy := h y rfl
    simp only [divNoise]
    rw [div_div]
    exact one_div_le_one_div_of_le hB hy

/-- The SNR of one circular source. -/
private lemma circ_one (C : Ctx) (ht : 0 ≤ C.t_obs) (hig : C.interpolated_g = none) {m f d S₂ : ℝ} (hS : 0 < S₂)
    (hn : noise C (2 * f) = .ok (S₂ : ℝ)) :
    snr_circ_stationary C [⟨m, f, d, {}⟩] = .ok [some √(h_0_val C.K none m d f 0 2 ^ 2 * C.t_obs / S₂)] := by
  rw [snr_circ_stationary_iff]
  set h := h_0_val C.K none m d f 0 2 with hh
  have hc0 : 0 ≤ h ^ 2 * C.t_obs / S₂ := by positivity
  refine mapM_ok (g := fun _ => some √(h ^ 2 * C.t_obs / S₂)) fun x hx => ?_
  rw [List.mem_singleton] at hx
  subst hx
  unfold circ1
  rw [modulation_none, ok_bind]
  simp only
  rw [hn, ok_bind, hig, one_mul, ← hh]
  simp only [divNoise]
  rw [sqrt?_nonneg hc0]
  rfl

/-- **C95** (convergence). If the noise is at least `S` at every harmonic of an eccentric source, its stationary SNR grows
with the number of harmonics and converges, and its square lacks at most `4 h² t_obs / S` times the power left out
divided by `(H + 1)²`, where `h` is the strain of a circular source of the same mass, distance and frequency. -/
theorem C95_limit (C : Ctx) (ht : 0 ≤ C.t_obs) (hig : C.interpolated_g = none) {s : EccSrc} (h0 : 0 ≤ s.ecc) (h1 : s.ecc < 1)
    {N : ℕ → WithTop ℝ} (hN : ∀ n : ℕ, 1 ≤ n → noise C (n * s.f_orb) = .ok (N n)) {S : ℝ} (hS : 0 < S)
    (hlo : ∀ n, 1 ≤ n → (S : WithTop ℝ) ≤ N n) {h : ℝ}
    (hh : h_0_n C.K none [2] [⟨s.m_c, s.dist, [(s.f_orb, 0)], {}⟩] = .ok [[[h]]]) :
    ∃ (v : ℕ → ℝ) (ρ : ℝ), (∀ H, snr_ecc_stationary C [s] H false false = .ok (.total [some (v H)])) ∧ Monotone v ∧
      Tendsto v atTop (nhds ρ) ∧ (∀ H, 0 ≤ v H ∧ v H ≤ ρ) ∧
      ∀ H : ℕ, ρ ^ 2 - v H ^ 2 ≤ 4 * h ^ 2 * C.t_obs / S * ((peters_f s.ecc - powerUpTo H s.ecc) / (H + 1) ^ 2) := by
  have hp : ∀ n, 1 ≤ n → 0 < N n := fun n hn => lt_of_lt_of_le (by exact_mod_cast hS) (hlo n hn)
  have ha : ∀ k : ℕ, 0 ≤ peters_g ((k : ℤ) + 1) s.ecc := fun k => C05_nonneg _ h0 h1.le
  have hw : ∀ (H k : ℕ), H ≤ k → weight N k ≤ 1 / (((H : ℝ) + 1) ^ 2 * S) := by
    intro H k hk
    refine weight_le (by positivity) fun y hy => ?_
    have hSy := hlo (k + 1) (by omega)
    rw [hy] at hSy
    have : S ≤ y := by exact_mod_cast hSy
    have hk' : (H : ℝ) ≤ k := by exact_mod_cast hk
    gcongr
  have htail := fun H : ℕ => tail_le ha (weight_nonneg hp) (C06_sum h0 h1) (hw H)
  obtain ⟨v, ρ, r1, r2, r3, r4, r5, r6, r7⟩ := snr_series C ht hig h0 h1 hN hp (htail 0).1
  refine ⟨v, ρ, r1, r2, r3, fun H => ⟨r4 H, r2.ge_of_tendsto r3 H⟩, fun H => ?_⟩
  rw [r6, r7, strain_two _ _ _ _ hh, ← mul_sub, power_range]
  have hA0 : 0 ≤ 4 * h ^ 2 * C.t_obs := by positivity
  calc _ ≤ 4 * h ^ 2 * C.t_obs * (1 / (((H : ℝ) + 1) ^ 2 * S) * (peters_f s.ecc - ∑ k ∈ Finset.range H, peters_g ((k : ℤ) + 1) s.ecc)) :=
        mul_le_mul_of_nonneg_left (by linarith [(htail H).2]) hA0
    _ = _ := by
        field_simp

/-- **C95** (tolerance). Let the first `H` harmonics carry all but a fraction `tol` of the power, and let `n² S(n f_orb)` be at
least `B` for all harmonics left out and at most `R B` for those included. Then the SNR with `H` harmonics is within a
factor `((1 - tol)/(1 - tol + R tol))^(1/2)` of the SNR with all harmonics, and never above. With `R = 1` the squared SNR
misses at most a fraction `tol`, the same as the luminosity. -/
theorem C95_tolerance (C : Ctx) (ht : 0 ≤ C.t_obs) (hig : C.interpolated_g = none) {s : EccSrc} (h0 : 0 ≤ s.ecc)
    (h1 : s.ecc < 1) {N : ℕ → WithTop ℝ} (hN : ∀ n : ℕ, 1 ≤ n → noise C (n * s.f_orb) = .ok (N n)) (hp : ∀ n, 1 ≤ n → 0 < N n)
    {H : ℕ} {tol : ℝ} (ht0 : 0 ≤ tol) (ht1 : tol < 1) (hpow : (1 - tol) * peters_f s.ecc ≤ powerUpTo H s.ecc) {B R : ℝ}
    (hB : 0 < B) (hR : 0 ≤ R) (hin : ∀ n, 1 ≤ n → n ≤ H → ∃ S : ℝ, N n = S ∧ (n : ℝ) ^ 2 * S ≤ R * B)
    (hout : ∀ (n : ℕ) (S : ℝ), H < n → N n = S → B ≤ (n : ℝ) ^ 2 * S) :
    ∃ (v : ℕ → ℝ) (ρ : ℝ), (∀ H, snr_ecc_stationary C [s] H false false = .ok (.total [some (v H)])) ∧
      Tendsto v atTop (nhds ρ) ∧ √((1 - tol) / (1 - tol + R * tol)) * ρ ≤ v H ∧ v H ≤ ρ := by
  have ha : ∀ k : ℕ, 0 ≤ peters_g ((k : ℤ) + 1) s.ecc := fun k => C05_nonneg _ h0 h1.le
  have hF := peters_f_pos h0 h1
  obtain ⟨hsum, htail⟩ := tail_le ha (weight_nonneg hp) (C06_sum h0 h1) (H := H) (hi := 1 / B) (fun k hk =>
    weight_le hB fun S hS => by
      have := hout (k + 1) S (by omega) hS
      push_cast at this
      exact this)
  obtain ⟨v, ρ, r1, r2, r3, r4, r5, r6, r7⟩ := snr_series C ht hig h0 h1 hN hp hsum
  refine ⟨v, ρ, r1, r3, ?_, r2.ge_of_tendsto r3 H⟩
  rw [power_range] at hpow
  set P := ∑ k ∈ Finset.range H, peters_g ((k : ℤ) + 1) s.ecc with hP
  set X := ∑ k ∈ Finset.range H, peters_g ((k : ℤ) + 1) s.ecc * weight N k with hX
  set Y := ∑' k : ℕ, peters_g ((k : ℤ) + 1) s.ecc * weight N k with hY
  have hX0 : 0 ≤ X := Finset.sum_nonneg fun k _ => mul_nonneg (ha k) (weight_nonneg hp k)
  have hd : 0 < 1 - tol + R * tol := by
    have : 0 ≤ R * tol := by positivity
    linarith
  have hPX : P ≤ R * B * X := by
    rw [hP, hX, Finset.mul_sum]
    refine Finset.sum_le_sum fun k hk => ?_
    rw [Finset.mem_range] at hk
    obtain ⟨S, hS, hle⟩ := hin (k + 1) (by omega) (by omega)
    have hS0 : 0 < S := by
      have := hp (k + 1) (by omega)
      rw [hS] at this
      exact_mod_cast this
    have hw : weight N k = 1 / (((k : ℝ) + 1) ^ 2 * S) := by
      unfold weight
      rw [hS]
      simp only [divNoise]
      rw [div_div]
    push_cast at hle
    have hone : 1 ≤ R * B * weight N k := by
      rw [hw, mul_one_div, le_div_iff₀ (by positivity), one_mul]
      exact hle
    nlinarith [ha k]
  have hmiss : peters_f s.ecc - P ≤ tol * peters_f s.ecc := by linarith
  -- (1 - tol)(Y - X) ≤ R tol X
  have key : (1 - tol) * (Y - X) ≤ R * tol * X := by
    have t1 : Y - X ≤ 1 / B * (tol * peters_f s.ecc) :=
      le_trans (by linarith) (mul_le_mul_of_nonneg_left hmiss (by positivity))
    have t2 : (1 - tol) * peters_f s.ecc ≤ R * B * X := hpow.trans hPX
    calc (1 - tol) * (Y - X) ≤ (1 - tol) * (1 / B * (tol * peters_f s.ecc)) := mul_le_mul_of_nonneg_left t1 (by linarith)
      _ = tol / B * ((1 - tol) * peters_f s.ecc) := by ring
      _ ≤ tol / B * (R * B * X) := mul_le_mul_of_nonneg_left t2 (by positivity)
      _ = R * tol * X := by field_simp
  have hA0 : 0 ≤ 4 * h_0_val C.K none s.m_c s.dist s.f_orb 0 2 ^ 2 * C.t_obs := by positivity
  refine le_of_sq_le_sq ?_ (r4 H)
  rw [mul_pow, sq_sqrt (div_nonneg (by linarith) hd.le), r6, r7, div_mul_eq_mul_div, div_le_iff₀ hd]
  have : (1 - tol) * Y ≤ X * (1 - tol + R * tol) := by linarith
  nlinarith [mul_le_mul_of_nonneg_left this hA0]

/-- **C95** (treated as circular). Let the second harmonic carry all but a fraction `tol` of the power of a source, and let
`n² S(n f_orb)` be at least `B` for the others and `4 S(2 f_orb)` at most `R B` with `R ≥ 1`. If the source is treated as
circular, giving `c`, then the squared SNR of all harmonics is at least `F(e) (1 - tol) c²` and at most
`F(e) (1 + (R - 1) tol) c²`. -/
theorem C95_circular (C : Ctx) (ht : 0 ≤ C.t_obs) (hig : C.interpolated_g = none) {s : EccSrc} (h0 : 0 ≤ s.ecc)
    (h1 : s.ecc < 1) {N : ℕ → WithTop ℝ} (hN : ∀ n : ℕ, 1 ≤ n → noise C (n * s.f_orb) = .ok (N n)) (hp : ∀ n, 1 ≤ n → 0 < N n)
    {tol : ℝ} (hpow : (1 - tol) * peters_f s.ecc ≤ peters_g 2 s.ecc) {B R S₂ : ℝ} (hB : 0 < B) (hR1 : 1 ≤ R) (h2 : N 2 = S₂)
    (hR : 4 * S₂ ≤ R * B) (hout : ∀ (n : ℕ) (S : ℝ), 1 ≤ n → n ≠ 2 → N n = S → B ≤ (n : ℝ) ^ 2 * S) :
    ∃ (v : ℕ → ℝ) (ρ c : ℝ), (∀ H, snr_ecc_stationary C [s] H false false = .ok (.total [some (v H)])) ∧
      Tendsto v atTop (nhds ρ) ∧ 0 ≤ ρ ∧ snr_circ_stationary C [⟨s.m_c, s.f_orb, s.dist, {}⟩] = .ok [some c] ∧ 0 ≤ c ∧
      peters_f s.ecc * (1 - tol) * c ^ 2 ≤ ρ ^ 2 ∧ ρ ^ 2 ≤ peters_f s.ecc * (1 + (R - 1) * tol) * c ^ 2 := by
  have ha : ∀ k : ℕ, 0 ≤ peters_g ((k : ℤ) + 1) s.ecc := fun k => C05_nonneg _ h0 h1.le
  have hS0 : 0 < S₂ := by
    have := hp 2 (by norm_num)
    rw [h2] at this
    exact_mod_cast this
  have hw : ∀ k : ℕ, k ≠ 1 → weight N k ≤ 1 / B := fun k hk =>
    weight_le hB fun S hS => by
      have := hout (k + 1) S (by omega) (by omega) hS
      push_cast at this
      exact this
  obtain ⟨hsum, -⟩ := tail_le ha (weight_nonneg hp) (C06_sum h0 h1) (H := 2) (hi := 1 / B) fun k hk => hw k (by omega)
  obtain ⟨v, ρ, r1, r2, r3, r4, r5, r6, r7⟩ := snr_series C ht hig h0 h1 hN hp hsum
  set h := h_0_val C.K none s.m_c s.dist s.f_orb 0 2 with hh
  have hc0 : 0 ≤ h ^ 2 * C.t_obs / S₂ := by positivity
  refine ⟨v, ρ, √(h ^ 2 * C.t_obs / S₂), r1, r3, r5, ?_, sqrt_nonneg _, ?_⟩
  · have hn := hN 2 (by norm_num)
    rw [h2] at hn
    exact circ_one C ht hig hS0 (by exact_mod_cast hn)
  · rw [sq_sqrt hc0, r7, hsum.tsum_eq_add_tsum_ite 1]
    have hs2 : Summable fun k : ℕ => if k = 1 then 0 else peters_g ((k : ℤ) + 1) s.ecc :=
      Summable.of_nonneg_of_le (fun k => by split <;> simp [ha]) (fun k => by split <;> simp [ha]) (C06_sum h0 h1).summable
    have hle : ∀ k : ℕ, (if k = 1 then 0 else peters_g ((k : ℤ) + 1) s.ecc * weight N k) ≤
        (if k = 1 then 0 else peters_g ((k : ℤ) + 1) s.ecc) * (1 / B) := by
      intro k
      split
      · simp
      · rename_i hk
        exact mul_le_mul_of_nonneg_left (hw k hk) (ha k)
    have hge : ∀ k : ℕ, 0 ≤ (if k = 1 then 0 else peters_g ((k : ℤ) + 1) s.ecc * weight N k) := by
      intro k
      split
      · rfl
      · exact mul_nonneg (ha k) (weight_nonneg hp k)
    have hZ : ∑' k : ℕ, (if k = 1 then 0 else peters_g ((k : ℤ) + 1) s.ecc * weight N k) ≤
        (peters_f s.ecc - peters_g 2 s.ecc) * (1 / B) := by
      refine le_trans (Summable.tsum_le_tsum hle (Summable.of_nonneg_of_le hge hle (hs2.mul_right _)) (hs2.mul_right _)) ?_
      rw [tsum_mul_right]
      refine mul_le_mul_of_nonneg_right (le_of_eq ?_) (by positivity)
      have := (C06_sum h0 h1).summable.tsum_eq_add_tsum_ite 1
      rw [(C06_sum h0 h1).tsum_eq] at this
      norm_num at this
      linarith
    have hZ0 := tsum_nonneg (L := .unconditional ℕ) hge
    have hgF : peters_g 2 s.ecc ≤ peters_f s.ecc := by
      have := (C06_sum h0 h1).summable.le_tsum 1 (fun k _ => ha k)
      rw [(C06_sum h0 h1).tsum_eq] at this
      norm_num at this
      exact this
    have hw2 : weight N 1 = 1 / (4 * S₂) := by
      unfold weight
      rw [h2]
      simp only [divNoise]
      rw [div_div]
      norm_num
    set Z := ∑' k : ℕ, (if k = 1 then 0 else peters_g ((k : ℤ) + 1) s.ecc * weight N k) with hZd
    have e1 : 4 * h ^ 2 * C.t_obs * (peters_g (((1 : ℕ) : ℤ) + 1) s.ecc * weight N 1 + Z) =
        peters_g 2 s.ecc * (h ^ 2 * C.t_obs / S₂) + 4 * S₂ * Z * (h ^ 2 * C.t_obs / S₂) := by
      rw [hw2]
      norm_num
      field_simp
    rw [e1]
    set c2 := h ^ 2 * C.t_obs / S₂ with hc2
    have hSZ : 4 * S₂ * Z ≤ R * (peters_f s.ecc - peters_g 2 s.ecc) := by
      calc 4 * S₂ * Z ≤ R * B * Z := mul_le_mul_of_nonneg_right hR hZ0
        _ ≤ R * B * ((peters_f s.ecc - peters_g 2 s.ecc) * (1 / B)) := mul_le_mul_of_nonneg_left hZ (by positivity)
        _ = _ := by field_simp
    constructor
    · have : 0 ≤ 4 * S₂ * Z * c2 := by positivity
      nlinarith [mul_le_mul_of_nonneg_right hpow hc0]
    · rw [← add_mul]
      refine mul_le_mul_of_nonneg_right ?_ hc0
      nlinarith [mul_le_mul_of_nonneg_left hpow (by linarith : 0 ≤ R - 1)]

/-- **C95** (out of band). Harmonics at which the noise is infinite change nothing: if all harmonics above `H` are out of the
band of the detector, the SNR is the same for every larger number of harmonics. -/
theorem C95_out_of_band (C : Ctx) (ht : 0 ≤ C.t_obs) (hig : C.interpolated_g = none) {s : EccSrc} (h0 : 0 ≤ s.ecc)
    (h1 : s.ecc < 1) {N : ℕ → WithTop ℝ} (hN : ∀ n : ℕ, 1 ≤ n → noise C (n * s.f_orb) = .ok (N n)) (hp : ∀ n, 1 ≤ n → 0 < N n)
    {H : ℕ} (hout : ∀ n, H < n → N n = ⊤) (H' : ℕ) (hH : H ≤ H') :
    snr_ecc_stationary C [s] H' false false = snr_ecc_stationary C [s] H false false := by
  rw [snr_upTo C ht hig h0 h1.le hN hp, snr_upTo C ht hig h0 h1.le hN hp,
    ← Finset.sum_range_add_sum_Ico _ hH, Finset.sum_eq_zero (s := Finset.Ico H H') fun k hk => ?_, add_zero]
  rw [Finset.mem_Ico] at hk
  unfold weight
  rw [hout (k + 1) (by omega)]
  simp [divNoise]

/-- LISA with the default settings: the noise in and out of the band. -/
private lemma lisa_noise (K : Consts) (env : psd.Env) (t f : ℝ) :
    noise { K := K, env := env, kw := { approximate_R := true }, t_obs := t } f =
      .ok (if f ≥ 1e-7 ∧ f ≤ 2e0 then
        ((psd.lisa_J 2.5e9 (K.c / (2 * π * 2.5e9)) f + psd.get_confusion_noise_karnesis21 f t : ℝ) : WithTop ℝ) else ⊤) := by
  by_cases hb : f ≥ 1e-7 ∧ f ≤ 2e0
  · have hval : psd.lisa_J 2.5e9 (K.c / (2 * π * 2.5e9)) f = (1 / 2.5e9 ^ 2 * (psd.lisa_Poms f
        + 2 * (1 + cos (f / (K.c / (2 * π * 2.5e9))) ^ 2) * psd.lisa_Pacc f / (2 * π * f) ^ 4))
        / psd.approximate_response_function f (K.c / (2 * π * 2.5e9)) := by
      unfold psd.lisa_J psd.lisa_M psd.lisa_Q
      rw [mul_div_assoc']
    simp only [noise, psd.power_spectral_density, if_true, psd.lisa_psd, psd.NoiseArg.resolve, psd.TimeArg.resolve,
      psd.LenArg.resolve, psd.lisa_response, psd.noise_bare, psd.get_confusion_noise, Bind.bind, Except.bind, Pure.pure, Except.pure,
      if_pos hb, hval]
    simp
  · simp only [noise, psd.power_spectral_density, if_true, psd.lisa_psd, psd.NoiseArg.resolve, psd.TimeArg.resolve,
      psd.LenArg.resolve, psd.lisa_response, psd.noise_bare, psd.get_confusion_noise, Bind.bind, Except.bind, Pure.pure, Except.pure,
      if_neg hb]
    norm_num
    simp

private lemma fstar_ge (K : Consts) (hc : K.c = 299792458) : 0.019 ≤ K.c / (2 * π * 2.5e9) := by
  rw [hc, le_div_iff₀ (by positivity)]
  have := pi_lt_d4
  nlinarith

private lemma lisa_noise_pos (K : Consts) (hc : K.c = 299792458) (t f : ℝ) :
    ((1.2e-40 : ℝ) : WithTop ℝ) ≤ if f ≥ 1e-7 ∧ f ≤ 2e0 then
        ((psd.lisa_J 2.5e9 (K.c / (2 * π * 2.5e9)) f + psd.get_confusion_noise_karnesis21 f t : ℝ) : WithTop ℝ) else ⊤ := by
  split
  · rename_i hb
    have hf : 0 < f := lt_of_lt_of_le (by norm_num) hb.1
    have a := psd.floorJ_le (L := 2.5e9) (by norm_num) le_rfl
      (lt_of_lt_of_le (by norm_num) (fstar_ge K hc) : 0 < K.c / (2 * π * 2.5e9)) hf
    have b := psd.karnesis_pos hf t
    have c : (1.2e-40 : ℝ) ≤ psd.floorJ f := by
      unfold psd.floorJ
      have : (0 : ℝ) < 8e-51 / f ^ 4 := by positivity
      linarith
    exact WithTop.coe_le_coe.2 (by linarith)
  · exact le_top

/-- **C95** (LISA, high frequencies). With LISA and the default settings, if the harmonics used carry at least 95% of the
power of a source with an orbital frequency of at least 6 mHz, its stationary SNR is at most 4% below that of all
harmonics. -/
theorem C95_lisa (K : Consts) (hc : K.c = 299792458) (env : psd.Env) {t_obs : ℝ} (ht : 0.25 * psd.yr ≤ t_obs) {s : EccSrc}
    (h0 : 0 ≤ s.ecc) (h1 : s.ecc < 1) (hf : 6e-3 ≤ s.f_orb) {H : ℕ} (hH : 0.95 * peters_f s.ecc ≤ powerUpTo H s.ecc) :
    ∃ (v : ℕ → ℝ) (ρ : ℝ), (∀ H, snr_ecc_stationary { K := K, env := env, kw := { approximate_R := true }, t_obs := t_obs }
        [s] H false false = .ok (.total [some (v H)])) ∧
      Tendsto v atTop (nhds ρ) ∧ 0.96 * ρ ≤ v H ∧ v H ≤ ρ := by
  set C : Ctx := { K := K, env := env, kw := { approximate_R := true }, t_obs := t_obs } with hC
  have hfs := fstar_ge K hc
  have hfs0 : 0 < K.c / (2 * π * 2.5e9) := lt_of_lt_of_le (by norm_num) hfs
  have ht0 : 0 ≤ C.t_obs := le_trans (by have := psd.yr_pos; positivity) ht
  have hf0 : 0 < s.f_orb := lt_of_lt_of_le (by norm_num) hf
  set N : ℕ → WithTop ℝ := fun n => if (n * s.f_orb : ℝ) ≥ 1e-7 ∧ (n * s.f_orb : ℝ) ≤ 2e0 then
        ((psd.lisa_J 2.5e9 (K.c / (2 * π * 2.5e9)) (n * s.f_orb) +
          psd.get_confusion_noise_karnesis21 (n * s.f_orb) t_obs : ℝ) : WithTop ℝ) else ⊤ with hNdef
  have hN : ∀ n : ℕ, 1 ≤ n → noise C (n * s.f_orb) = .ok (N n) := fun n _ => lisa_noise K env t_obs _
  have hp : ∀ n, 1 ≤ n → 0 < N n := fun n _ => lt_of_lt_of_le (by
    have : (0 : ℝ) < 1.2e-40 := by norm_num
    exact_mod_cast this) (lisa_noise_pos K hc t_obs (n * s.f_orb))
  have hlow : ∀ n : ℕ, 1 ≤ n → 6e-3 ≤ (n : ℝ) * s.f_orb := by
    intro n hn
    have : (1 : ℝ) ≤ n := by exact_mod_cast hn
    nlinarith
  have hband : ∀ n : ℕ, 1 ≤ n → (1e-7 : ℝ) ≤ (n : ℝ) * s.f_orb := fun n hn => le_trans (by norm_num) (hlow n hn)
  by_cases hHf : (H : ℝ) * s.f_orb ≤ 2e0
  · set rise := psd.lisaRise (K.c / (2 * π * 2.5e9)) with hrise
    set B : ℝ := ((H : ℝ) + 1) ^ 2 * rise (((H : ℝ) + 1) * s.f_orb) with hB
    have hr0 : ∀ f, 0 < rise f := by
      intro f
      rw [hrise]
      unfold psd.lisaRise
      positivity
    have hB0 : 0 < B := mul_pos (by positivity) (hr0 _)
    obtain ⟨v, ρ, r1, r2, r3, r4⟩ := C95_tolerance C ht0 rfl h0 h1 hN hp (H := H) (tol := 0.05) (by norm_num) (by norm_num)
      (by norm_num at hH ⊢; linarith) hB0 (R := 1.45) (by norm_num)
      (fun n hn hnH => by
        have hnH' : (n : ℝ) ≤ H := by exact_mod_cast hnH
        have hle : (n : ℝ) * s.f_orb ≤ 2e0 := le_trans (mul_le_mul_of_nonneg_right hnH' hf0.le) hHf
        refine ⟨_, if_pos ⟨hband n hn, hle⟩, ?_⟩
        have a := (psd.lisa_high hfs ht (hlow n hn)).2
        have b : rise (n * s.f_orb) ≤ rise (((H : ℝ) + 1) * s.f_orb) :=
          psd.lisaRise_mono hfs0 (by positivity) (mul_le_mul_of_nonneg_right (by linarith) hf0.le)
        calc _ ≤ (n : ℝ) ^ 2 * (1.45 * rise (n * s.f_orb)) := mul_le_mul_of_nonneg_left a (by positivity)
          _ ≤ ((H : ℝ) + 1) ^ 2 * (1.45 * rise (((H : ℝ) + 1) * s.f_orb)) := by
              have := (hr0 (n * s.f_orb)).le
              gcongr
              linarith
          _ = 1.45 * B := by rw [hB]; ring)
      (fun n S hn hS => by
        have hn1 : 1 ≤ n := by omega
        have hnH : (H : ℝ) + 1 ≤ n := by exact_mod_cast hn
        have hin : (n * s.f_orb : ℝ) ≥ 1e-7 ∧ (n * s.f_orb : ℝ) ≤ 2e0 := by
          by_contra hno
          rw [hNdef] at hS
          simp only [if_neg hno] at hS
          exact absurd hS WithTop.top_ne_coe
        rw [hNdef] at hS
        simp only [if_pos hin, WithTop.coe_inj] at hS
        rw [← hS]
        have a := (psd.lisa_high hfs ht (hlow n hn1)).1
        have b : rise (((H : ℝ) + 1) * s.f_orb) ≤ rise (n * s.f_orb) :=
          psd.lisaRise_mono hfs0 (by positivity) (mul_le_mul_of_nonneg_right hnH hf0.le)
        rw [hB]
        have := (hr0 (((H : ℝ) + 1) * s.f_orb)).le
        exact mul_le_mul (by gcongr) (b.trans a) this (by positivity))
    refine ⟨v, ρ, r1, r2, le_trans ?_ r3, r4⟩
    have hρ : 0 ≤ ρ := by
      refine ge_of_tendsto' r2 fun n => ?_
      have h := snr_upTo C ht0 rfl h0 h1.le hN hp n
      rw [r1 n] at h
      injection h with h
      injection h with h
      injection h with h
      injection h with h
      rw [h]
      exact sqrt_nonneg _
    refine mul_le_mul_of_nonneg_right ?_ hρ
    refine le_sqrt_of_sq_le ?_
    norm_num
  · have hout : ∀ n, H < n → N n = ⊤ := by
      intro n hn
      have hn' : (H : ℝ) ≤ n := by exact_mod_cast hn.le
      exact if_neg fun h => hHf (le_trans (mul_le_mul_of_nonneg_right hn' hf0.le) h.2)
    have hsame := C95_out_of_band C ht0 rfl h0 h1 hN hp hout
    have hu := snr_upTo C ht0 rfl h0 h1.le hN hp
    refine ⟨_, _, hu, tendsto_atTop_of_eventually_const (i₀ := H) fun n hn => ?_, ?_, le_rfl⟩
    · have h := hsame n hn
      rw [hu, hu] at h
      injection h with h
      injection h with h
      injection h with h
      injection h with h
    · have := sqrt_nonneg (4 * h_0_val C.K none s.m_c s.dist s.f_orb 0 2 ^ 2 * C.t_obs *
        ∑ k ∈ Finset.range H, peters_g ((k : ℤ) + 1) s.ecc * weight N k)
      linarith

/-- **C95** (LISA, low frequencies). The luminosity tolerance does not bound the error of SNRs: with LISA, the default settings
and the default tolerance of 5%, every source with eccentricity 0.06 is treated as circular, and if its orbital frequency is
between 5e-8 Hz and 1e-5 Hz, its SNR is then more than 7% below that of all harmonics. -/
theorem C95_circular_lisa (K : Consts) (hc : K.c = 299792458) (env : psd.Env) {t_obs : ℝ} (ht : 0 < t_obs) {s : EccSrc}
    (he : s.ecc = 0.06) (hm : 0 < s.m_c) (hd : 0 < s.dist) (hf : 5e-8 ≤ s.f_orb) (hf' : s.f_orb ≤ 1e-5) :
    ∃ (v : ℕ → ℝ) (ρ c e : ℝ),
      (∀ H, snr_ecc_stationary { K := K, env := env, kw := { approximate_R := true }, t_obs := t_obs } [s] H false false
        = .ok (.total [some (v H)])) ∧ Tendsto v atTop (nhds ρ) ∧
      source.find_eccentric_transition 0.05 = .ok e ∧ s.ecc < e ∧
      snr_circ_stationary { K := K, env := env, kw := { approximate_R := true }, t_obs := t_obs }
        [⟨s.m_c, s.f_orb, s.dist, {}⟩] = .ok [some c] ∧ 0 < c ∧ 1.07 * c < ρ := by
  set C : Ctx := { K := K, env := env, kw := { approximate_R := true }, t_obs := t_obs } with hC
  have hfs := fstar_ge K hc
  have hf0 : 0 < s.f_orb := lt_of_lt_of_le (by norm_num) hf
  have h0 : 0 ≤ s.ecc := by rw [he]; norm_num
  have h1 : s.ecc < 1 := by rw [he]; norm_num
  set N : ℕ → WithTop ℝ := fun n => if (n * s.f_orb : ℝ) ≥ 1e-7 ∧ (n * s.f_orb : ℝ) ≤ 2e0 then
        ((psd.lisa_J 2.5e9 (K.c / (2 * π * 2.5e9)) (n * s.f_orb) +
          psd.get_confusion_noise_karnesis21 (n * s.f_orb) t_obs : ℝ) : WithTop ℝ) else ⊤ with hNdef
  have hN : ∀ n : ℕ, 1 ≤ n → noise C (n * s.f_orb) = .ok (N n) := fun n _ => lisa_noise K env t_obs _
  have hlo : ∀ n, ((1.2e-40 : ℝ) : WithTop ℝ) ≤ N n := fun n => lisa_noise_pos K hc t_obs (n * s.f_orb)
  have hp : ∀ n, 1 ≤ n → 0 < N n := fun n _ => lt_of_lt_of_le (by
    have : (0 : ℝ) < 1.2e-40 := by norm_num
    exact_mod_cast this) (hlo n)
  have ha : ∀ k : ℕ, 0 ≤ peters_g ((k : ℤ) + 1) s.ecc := fun k => C05_nonneg _ h0 h1.le
  obtain ⟨hsum, -⟩ := tail_le ha (weight_nonneg hp) (C06_sum h0 h1) (H := 0) (hi := 1 / 1.2e-40) (fun k _ =>
    weight_le (by norm_num) fun S hS => by
      have h := hlo (k + 1)
      rw [hS] at h
      have h' : (1.2e-40 : ℝ) ≤ S := by exact_mod_cast h
      have hk : (1 : ℝ) ≤ ((k : ℝ) + 1) ^ 2 := by
        have : (0 : ℝ) ≤ k := by positivity
        nlinarith
      nlinarith)
  obtain ⟨v, ρ, r1, r2, r3, r4, r5, r6, r7⟩ := snr_series C ht.le rfl h0 h1 hN hp hsum
  set h := h_0_val C.K none s.m_c s.dist s.f_orb 0 2 with hh
  have hpos : 0 < h := by
    rw [hh]
    unfold h_0_val
    simp only [g_vals]
    rw [C05_circular (by norm_num : (1 : ℤ) ≤ 2), if_pos rfl]
    have := C.K.G_pos
    have := C.K.c_pos
    positivity
  have hn2 : (2 * s.f_orb : ℝ) ≥ 1e-7 ∧ (2 * s.f_orb : ℝ) ≤ 2e0 := by
    norm_num at hf hf' ⊢
    constructor <;> linarith
  have hn3 : (3 * s.f_orb : ℝ) ≥ 1e-7 ∧ (3 * s.f_orb : ℝ) ≤ 2e0 := by
    norm_num at hf hf' ⊢
    constructor <;> linarith
  set S2 : ℝ := psd.lisa_J 2.5e9 (K.c / (2 * π * 2.5e9)) (2 * s.f_orb) +
    psd.get_confusion_noise_karnesis21 (2 * s.f_orb) t_obs with hS2
  set S3 : ℝ := psd.lisa_J 2.5e9 (K.c / (2 * π * 2.5e9)) (3 * s.f_orb) +
    psd.get_confusion_noise_karnesis21 (3 * s.f_orb) t_obs with hS3
  have e2 : N 2 = (S2 : ℝ) := by
    rw [hNdef]
    push_cast
    exact if_pos hn2
  have e3 : N 3 = (S3 : ℝ) := by
    rw [hNdef]
    push_cast
    exact if_pos hn3
  have h2pos : 0 < S2 := by
    have := hp 2 (by norm_num)
    rw [e2] at this
    exact_mod_cast this
  have h3pos : 0 < S3 := by
    have := hp 3 (by norm_num)
    rw [e3] at this
    exact_mod_cast this
  have hratio : 11 * S3 ≤ S2 := psd.lisa_low hfs ht hf0 hf'
  have hc0 : 0 < h ^ 2 * C.t_obs / S2 := by
    have : 0 < C.t_obs := ht
    positivity
  obtain ⟨et, het⟩ := find_eccentric_transition_default
  refine ⟨v, ρ, √(h ^ 2 * C.t_obs / S2), et, r1, r3, het, ?_, ?_, sqrt_pos.2 hc0, ?_⟩
  · obtain ⟨a, b, -⟩ := C33_first het
    by_contra hle
    rw [not_lt, he] at hle
    have het0 : 0 ≤ et := (C33_pos (by norm_num) het).le
    exact absurd (peters_g_two_ge het0 hle).1 (not_le.2 b)
  · have hn := hN 2 (by norm_num)
    rw [e2] at hn
    exact circ_one C ht.le rfl h2pos (by exact_mod_cast hn)
  · refine lt_of_pow_lt_pow_left₀ 2 r5 ?_
    rw [mul_pow, sq_sqrt hc0.le]
    have hge : v 3 ^ 2 ≤ ρ ^ 2 := by
      have := r2.ge_of_tendsto r3 3
      have := r4 3
      gcongr
    refine lt_of_lt_of_le ?_ hge
    have hw2 : weight N 1 = 1 / (4 * S2) := by
      unfold weight
      rw [e2]
      simp only [divNoise]
      rw [div_div]
      norm_num
    have hw3 : weight N 2 = 1 / (9 * S3) := by
      unfold weight
      rw [e3]
      simp only [divNoise]
      rw [div_div]
      norm_num
    have g1 : 0 ≤ peters_g 1 s.ecc * weight N 0 := mul_nonneg (C05_nonneg _ h0 h1.le) (weight_nonneg hp 0)
    have g2 := (peters_g_two_ge h0 (by rw [he])).2
    have g3 := peters_g_three_ge
    rw [← he] at g3
    have hsum3 : ∑ k ∈ Finset.range 3, peters_g ((k : ℤ) + 1) s.ecc * weight N k = peters_g 1 s.ecc * weight N 0
        + peters_g 2 s.ecc * weight N 1 + peters_g 3 s.ecc * weight N 2 := by
      rw [Finset.sum_range_succ, Finset.sum_range_succ, Finset.sum_range_succ, Finset.sum_range_zero]
      norm_num
    rw [r6 3, hsum3, hw2, hw3]
    have hA : 0 < h ^ 2 * C.t_obs := by
      have : 0 < C.t_obs := ht
      positivity
    have hr : 11 * (1 / S2) ≤ 1 / S3 := by
      rw [mul_one_div, div_le_div_iff₀ h2pos h3pos]
      linarith
    have hi2 : 0 < 1 / S2 := by positivity
    have t3 : 0.037 * (11 * (1 / S2)) ≤ peters_g 3 s.ecc * (1 / S3) :=
      mul_le_mul g3 hr (by positivity) (le_trans (by norm_num) g3)
    have t2 : 0.979 * (1 / S2) ≤ peters_g 2 s.ecc * (1 / S2) := mul_le_mul_of_nonneg_right g2 hi2.le
    have e4 : 1 / (4 * S2) = 1 / 4 * (1 / S2) := by field_simp
    have e9 : 1 / (9 * S3) = 1 / 9 * (1 / S3) := by field_simp
    rw [e4, e9, div_eq_mul_one_div (h ^ 2 * C.t_obs)]
    generalize 1 / S2 = y at *
    generalize 1 / S3 = z at *
    have fin : 1.07 ^ 2 * y < 4 * (peters_g 1 s.ecc * weight N 0 + peters_g 2 s.ecc * (1 / 4 * y) + peters_g 3 s.ecc * (1 / 9 * z)) := by
      norm_num at t2 t3 ⊢
      nlinarith
    calc 1.07 ^ 2 * (h ^ 2 * C.t_obs * y) = h ^ 2 * C.t_obs * (1.07 ^ 2 * y) := by ring
      _ < _ := mul_lt_mul_of_pos_left fin hA
      _ = _ := by ring

/-- The hypotheses of `C95_limit`, `C95_tolerance` and `C95_circular` on the noise hold, e.g., for LISA and a source at 1 mHz with
eccentricity 0.06, for which the second harmonic is within the default tolerance. -/
example (K : Consts) (hc : K.c = 299792458) (env : psd.Env) (t : ℝ) : ∃ (N : ℕ → WithTop ℝ) (S₂ : ℝ),
    (∀ n : ℕ, 1 ≤ n → noise { K := K, env := env, kw := { approximate_R := true }, t_obs := t } (n * 1e-3) = .ok (N n)) ∧
    (∀ n, 1 ≤ n → ((1.2e-40 : ℝ) : WithTop ℝ) ≤ N n) ∧ N 2 = (S₂ : ℝ) ∧ (1 - 0.05) * peters_f 0.06 ≤ peters_g 2 0.06 ∧
    ∀ (n : ℕ) (S : ℝ), 1 ≤ n → n ≠ 2 → N n = S → 1.2e-40 ≤ (n : ℝ) ^ 2 * S := by
  refine ⟨fun n => if (n * 1e-3 : ℝ) ≥ 1e-7 ∧ (n * 1e-3 : ℝ) ≤ 2e0 then
        ((psd.lisa_J 2.5e9 (K.c / (2 * π * 2.5e9)) (n * 1e-3) + psd.get_confusion_noise_karnesis21 (n * 1e-3) t : ℝ) : WithTop ℝ)
        else ⊤, _, fun n _ => lisa_noise K env t _, fun n _ => lisa_noise_pos K hc t (n * 1e-3), if_pos (by norm_num),
        (peters_g_two_ge (by norm_num) le_rfl).1, fun n S hn _ hS => ?_⟩
  have h := (lisa_noise_pos K hc t (n * 1e-3)).trans_eq hS
  have h' : (1.2e-40 : ℝ) ≤ S := by exact_mod_cast h
  have hn' : (1 : ℝ) ≤ (n : ℝ) ^ 2 := one_le_pow₀ (by exact_mod_cast hn)
  nlinarith

/-- For every eccentricity enough harmonics satisfy the hypothesis of `C95_lisa`. -/
example {e : ℝ} (h0 : 0 ≤ e) (h1 : e < 1) : ∃ H, 0.95 * peters_f e ≤ powerUpTo H e := by
  obtain ⟨N, hN⟩ := C06_reach h0 h1 (tol := 0.05) (by norm_num)
  exact ⟨N, by have := hN N le_rfl; norm_num at this ⊢; linarith⟩

end Legwork.Props
