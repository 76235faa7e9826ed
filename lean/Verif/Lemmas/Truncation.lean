import Verif.Lemmas.SnrOne
import Verif.Lemmas.StatSnr
import Verif.Props.PetersSum

/-!
# Signal-to-noise ratios with finitely many harmonics
-/

namespace Legwork.snr

open Real Filter Legwork.utils Legwork.strain Legwork.Spec Legwork.Props

/-- The weight of the power of harmonic `k + 1` in the squared SNR: `1/(n² S)`, 0 for infinite noise. -/
noncomputable def weight (N : ℕ → WithTop ℝ) (k : ℕ) : ℝ := divNoise (1 / ((k : ℝ) + 1) ^ 2) (N (k + 1))

theorem weight_nonneg {N : ℕ → WithTop ℝ} (hN : ∀ n, 1 ≤ n → 0 < N n) (k : ℕ) : 0 ≤ weight N k := by
  unfold weight
  have h := hN (k + 1) (by omega)
  generalize N (k + 1) = ν at *
  induction ν using WithTop.recTopCoe with
  | top => simp [divNoise]
  | coe y =>
    have : 0 < y := by exact_mod_cast h
    simp only [divNoise]
    positivity

theorem h_0_sq (K : Consts) (m d f : ℝ) {e : ℝ} (h0 : 0 ≤ e) (h1 : e ≤ 1) (n : ℤ) :
    h_0_val K none m d f e n ^ 2 = 4 * h_0_val K none m d f 0 2 ^ 2 * (peters_g n e / (n : ℝ) ^ 2) := by
  have hg := C05_nonneg n h0 h1
  unfold h_0_val
  simp only [g_vals]
  rw [C05_circular (by norm_num : (1 : ℤ) ≤ 2), if_pos rfl, ← sqrt_eq_rpow, one_rpow]
  rw [mul_pow, mul_pow, div_pow (√(peters_g n e)), sq_sqrt hg]
  push_cast
  ring

theorem sum_harmonics (φ : ℤ → ℝ) (H : ℕ) :
    ((harmonics H).map φ).sum = ∑ k ∈ Finset.range H, φ ((k : ℤ) + 1) := by
  unfold harmonics
  rw [List.map_map]
  induction H with
  | zero => simp
  | succ H ih => rw [List.range_succ, List.map_append, List.sum_append, ih, Finset.sum_range_succ]; simp

/-- The SNR with `H` harmonics. -/
theorem snr_upTo (C : Ctx) (ht : 0 ≤ C.t_obs) (hig : C.interpolated_g = none) {s : EccSrc} (h0 : 0 ≤ s.ecc) (h1 : s.ecc ≤ 1)
    {N : ℕ → WithTop ℝ} (hN : ∀ n : ℕ, 1 ≤ n → noise C (n * s.f_orb) = .ok (N n)) (hp : ∀ n, 1 ≤ n → 0 < N n) (H : ℕ) :
    snr_ecc_stationary C [s] H false false = .ok (.total [some (√(4 * h_0_val C.K none s.m_c s.dist s.f_orb 0 2 ^ 2 * C.t_obs *
      ∑ k ∈ Finset.range H, peters_g ((k : ℤ) + 1) s.ecc * weight N k))]) := by
  rw [ecc_stat_one, hig]
  have e : (harmonics H).mapM (fun n : ℤ => noise C (n * s.f_orb) >>= fun ν =>
      pure (divNoise (h_0_val C.K none s.m_c s.dist s.f_orb s.ecc n ^ 2 * C.t_obs) ν)) =
      .ok ((harmonics H).map fun n : ℤ => 4 * h_0_val C.K none s.m_c s.dist s.f_orb 0 2 ^ 2 * C.t_obs *
        (peters_g n s.ecc * weight N (n.toNat - 1))) := by
    apply mapM_ok
    intro n hn
    unfold harmonics at hn
    obtain ⟨k, -, rfl⟩ := List.mem_map.1 hn
    have hk := hN (k + 1) (by omega)
    push_cast at hk ⊢
    rw [hk, ok_bind, pure_ok, h_0_sq _ _ _ _ h0 h1]
    have : ((k : ℤ) + 1).toNat - 1 = k := by omega
    rw [this]
    unfold weight
    rw [← divNoise_mul, ← divNoise_mul]
    push_cast
    congr 1
    ring
  rw [e, ok_bind]
  unfold finish
  simp only [Bool.false_eq_true, if_false, List.map_cons, List.map_nil]
  rw [sum_harmonics, sqrt?_nonneg]
  · have : ∀ k : ℕ, ((k : ℤ) + 1).toNat - 1 = k := fun k => by omega
    simp only [this, ← Finset.mul_sum]
    rfl
  · refine Finset.sum_nonneg fun k _ => ?_
    have := weight_nonneg hp (((k : ℤ) + 1).toNat - 1)
    have := C05_nonneg ((k : ℤ) + 1) h0 h1
    positivity

/-- A weighted series whose weights are bounded by `hi` from term `H` on. -/
theorem tail_le {a q : ℕ → ℝ} (ha : ∀ k, 0 ≤ a k) (hq : ∀ k, 0 ≤ q k) {F : ℝ} (hF : HasSum a F) {H : ℕ} {hi : ℝ}
    (hh : ∀ k, H ≤ k → q k ≤ hi) :
    Summable (fun k => a k * q k) ∧
      ∑' k, a k * q k ≤ ∑ k ∈ Finset.range H, a k * q k + hi * (F - ∑ k ∈ Finset.range H, a k) := by
  have hhi : 0 ≤ hi := (hq H).trans (hh H le_rfl)
  have hs : Summable fun k => a (k + H) * hi := ((summable_nat_add_iff H).2 hF.summable).mul_right hi
  have hs' : Summable fun k => a (k + H) * q (k + H) :=
    Summable.of_nonneg_of_le (fun k => mul_nonneg (ha _) (hq _))
      (fun k => mul_le_mul_of_nonneg_left (hh _ (by omega)) (ha _)) hs
  have hsum : Summable fun k => a k * q k := (summable_nat_add_iff H).1 hs'
  refine ⟨hsum, ?_⟩
  rw [← hsum.sum_add_tsum_nat_add H]
  gcongr
  calc ∑' k, a (k + H) * q (k + H) ≤ ∑' k, a (k + H) * hi :=
        hs'.tsum_le_tsum (fun k => mul_le_mul_of_nonneg_left (hh _ (by omega)) (ha _)) hs
    _ = hi * (F - ∑ k ∈ Finset.range H, a k) := by
        rw [tsum_mul_right, ← hF.tsum_eq, ← hF.summable.sum_add_tsum_nat_add H]
        ring

end Legwork.snr
