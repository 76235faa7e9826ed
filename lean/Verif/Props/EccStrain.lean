import Verif.Lemmas.KeplerStrain
import Verif.Lemmas.Strain
import Verif.Props.PetersSum
import Verif.Spec.Total

/-!
# Eccentric binaries have stronger strains: C107
-/

namespace Legwork.Props

open Real Legwork.utils Legwork.strain Legwork.Spec
open Filter (Tendsto atTop)

private lemma first_ge (N : ℕ) : ((firstHarmonics N).any fun k => decide (k < 1)) = false := by
  simp only [firstHarmonics, List.any_map, List.any_eq_false, Function.comp, decide_eq_true_eq]
  intro k _
  omega

private lemma one_row {val : ℝ → ℝ → ℝ → ℝ → ℤ → ℝ} {n : List ℤ} {m d f e : ℝ} {o : Orientation} {s : List ℝ}
    (h : [(⟨m, d, [(f, e)], o⟩ : Row)].mapM (row_strain val n) = .ok [[s]]) :
    ∃ a, modulation o = .ok a ∧ s = n.map fun k => a * val m d f e k := by
  simp only [List.mapM_cons, List.mapM_nil, row_strain] at h
  rcases hm : modulation o with er | a
  · rw [hm] at h; simp [bind, Except.bind] at h
  · rw [hm] at h
    simp only [bind, Except.bind, pure, Except.pure, Except.ok.injEq, List.cons.injEq, and_true, List.map_cons,
      List.map_nil] at h
    exact ⟨a, rfl, h.symm⟩

private lemma strains_eq {K : Consts} {m d f e : ℝ} {o : Orientation} {n : List ℤ} {s : List ℝ}
    (h : StrainsAre K m d f e o n s) :
    ∃ a, modulation o = .ok a ∧ s = n.map fun k => a * h_0_val K none m d f e k := by
  unfold StrainsAre h_0_n at h
  split_ifs at h
  exact one_row h

private lemma characteristic_eq {K : Consts} {m d f e : ℝ} {o : Orientation} {n : List ℤ} {s : List ℝ}
    (h : CharacteristicAre K m d f e o n s) :
    ∃ a, modulation o = .ok a ∧ s = n.map fun k => a * h_c_val K none m d f e k := by
  unfold CharacteristicAre h_c_n at h
  split_ifs at h
  exact one_row h

private lemma together_first (N : ℕ) (v : ℤ → ℝ) :
    together ((firstHarmonics N).map v) = ∑ n ∈ Finset.range N, v ((n : ℤ) + 1) ^ 2 := by
  unfold together firstHarmonics
  rw [List.map_map, List.map_map]
  induction N with
  | zero => simp
  | succ N ih => rw [List.range_succ, List.map_append, List.sum_append, ih, Finset.sum_range_succ]; simp

private lemma circ_two : peters_g 2 0 = 1 := by rw [C05_circular (by norm_num)]; simp

/-- The factor by which eccentricity increases the squared strain. -/
private lemma gain {e : ℝ} : 1 / (3 * √(1 - e ^ 2)) - 1 / 12 = (1 / 4) * ((4 / √(1 - e ^ 2) - 1) / 3) := by
  rcases eq_or_ne (√(1 - e ^ 2)) 0 with h | h
  · rw [h]; norm_num
  · field_simp
    ring

/-- **C107** (all harmonics). The squares of the strains of the harmonics `1, …, N` of a binary of eccentricity `e` add
up, as `N` grows, to `(4/√(1-e²) - 1)/3` times the square of the strain (in the harmonic `n = 2`) of the circular binary
with the same chirp mass, distance, orbital frequency and orientation. -/
theorem C107_total {K : Consts} {m_c d f e : ℝ} {o : Orientation} (h0 : 0 ≤ e) (h1 : e < 1) {s : ℕ → List ℝ} {h₂ : ℝ}
    (hs : ∀ N, StrainsAre K m_c d f e o (firstHarmonics N) (s N)) (hc : StrainsAre K m_c d f 0 o [2] [h₂]) :
    Tendsto (fun N => together (s N)) atTop (nhds ((4 / √(1 - e ^ 2) - 1) / 3 * h₂ ^ 2)) ∧
    ∀ N, together (s N) ≤ (4 / √(1 - e ^ 2) - 1) / 3 * h₂ ^ 2 := by
  obtain ⟨a, ha, hh⟩ := strains_eq hc
  simp only [List.map_cons, List.map_nil, List.cons.injEq, and_true] at hh
  set A := 2 ^ (28 / 3 : ℝ) / 5 * (K.G ^ (5 / 3 : ℝ)) ^ 2 / K.c ^ 8
      * (m_c ^ (5 / 3 : ℝ)) ^ 2 * ((π * f) ^ (2 / 3 : ℝ)) ^ 2 / d ^ 2 with hA
  have hA0 : 0 ≤ A := by have := K.G_pos; have := K.c_pos; rw [hA]; positivity
  have h2sq : h₂ ^ 2 = a ^ 2 * A * (1 / 4) := by
    rw [hh, mul_pow, h_0_val_sq K none le_rfl zero_le_one]
    simp only [g_vals, circ_two]
    push_cast
    rw [hA]
    ring
  have hval : ∀ N, together (s N) =
      ∑ n ∈ Finset.range N, a ^ 2 * A * (peters_g ((n : ℤ) + 1) e / ((n : ℝ) + 1) ^ 2) := by
    intro N
    obtain ⟨b, hb, hsN⟩ := strains_eq (hs N)
    rw [ha, Except.ok.injEq] at hb
    subst hb
    rw [hsN, together_first]
    refine Finset.sum_congr rfl fun n _ => ?_
    rw [mul_pow, h_0_val_sq K none h0 h1.le]
    simp only [g_vals]
    push_cast
    rw [hA]
    ring
  have hsum := (Kepler.hasSum_strain h0 h1).mul_left (a ^ 2 * A)
  have hlim : a ^ 2 * A * (1 / (3 * √(1 - e ^ 2)) - 1 / 12) = (4 / √(1 - e ^ 2) - 1) / 3 * h₂ ^ 2 := by
    rw [h2sq, gain]; ring
  rw [hlim] at hsum
  have hfun : (fun N => together (s N)) = fun N =>
      ∑ n ∈ Finset.range N, a ^ 2 * A * (peters_g ((n : ℤ) + 1) e / ((n : ℝ) + 1) ^ 2) := funext hval
  refine ⟨by rw [hfun]; exact hsum.tendsto_sum_nat, fun N => ?_⟩
  rw [hval]
  refine sum_le_hasSum _ (fun n _ => ?_) hsum
  exact mul_nonneg (mul_nonneg (sq_nonneg _) hA0) (div_nonneg (C05_nonneg _ h0 h1.le) (sq_nonneg _))

private lemma gain_lt {e e' : ℝ} (h0 : 0 ≤ e) (h : e < e') (h1 : e' < 1) :
    (4 / √(1 - e ^ 2) - 1) / 3 < (4 / √(1 - e' ^ 2) - 1) / 3 := by
  have hp : 0 < 1 - e' ^ 2 := by nlinarith
  have hlt : √(1 - e' ^ 2) < √(1 - e ^ 2) := sqrt_lt_sqrt hp.le (by nlinarith)
  have := div_lt_div_of_pos_left (four_pos (α := ℝ)) (sqrt_pos.mpr hp) hlt
  linarith

/-- **C107** (stronger). The more eccentric of two otherwise identical binaries has the stronger strain: from some number
of harmonics on, the harmonics of the more eccentric one together are stronger than any number of harmonics of the other,
in particular (`e = 0`) than everything a circular binary emits. The hypothesis `h₂ ≠ 0` says that the detector sees the
binaries at all. -/
theorem C107_stronger {K : Consts} {m_c d f e e' : ℝ} {o : Orientation} (h0 : 0 ≤ e) (h : e < e') (h1 : e' < 1)
    {s s' : ℕ → List ℝ} {h₂ : ℝ} (hs : ∀ N, StrainsAre K m_c d f e o (firstHarmonics N) (s N))
    (hs' : ∀ N, StrainsAre K m_c d f e' o (firstHarmonics N) (s' N))
    (hc : StrainsAre K m_c d f 0 o [2] [h₂]) (hne : h₂ ≠ 0) :
    ∃ N₀, ∀ N, N₀ ≤ N → ∀ M, together (s M) < together (s' N) := by
  obtain ⟨-, hle⟩ := C107_total h0 (h.trans h1) hs hc
  obtain ⟨hl, -⟩ := C107_total (h0.trans h.le) h1 hs' hc
  have hpos : 0 < h₂ ^ 2 := sq_pos_of_ne_zero hne
  have := hl.eventually (lt_mem_nhds (mul_lt_mul_of_pos_right (gain_lt h0 h h1) hpos))
  obtain ⟨N, hN⟩ := Filter.eventually_atTop.1 this
  exact ⟨N, fun M hM k => lt_of_le_of_lt (hle k) (hN M hM)⟩

private lemma poly_lt {u : ℝ} (hu : 1 < u) : 4 * u - 1 < 3 * u ^ 7 := by
  have : (u - 1) * (3 * (u ^ 6 + u ^ 5 + u ^ 4 + u ^ 3 + u ^ 2 + u + 1) - 4) > 0 := by
    have : 0 < u - 1 := by linarith
    have : (1 : ℝ) ≤ u ^ 6 := one_le_pow₀ hu.le
    have h5 : 0 < u ^ 5 + u ^ 4 + u ^ 3 + u ^ 2 + u := by positivity
    exact mul_pos (by linarith) (by linarith)
  nlinarith

private lemma average_lt {e : ℝ} (h0 : 0 < e) (h1 : e < 1) :
    4 * (1 / (3 * √(1 - e ^ 2)) - 1 / 12) < peters_f e := by
  have hp : 0 < 1 - e ^ 2 := by nlinarith
  have hw7 : (1 - e ^ 2) ^ (7 / 2 : ℝ) = √(1 - e ^ 2) ^ 7 := by
    rw [sqrt_eq_rpow, ← rpow_natCast ((1 - e ^ 2) ^ (1 / 2 : ℝ)), ← rpow_mul hp.le]; norm_num
  have hw1 : √(1 - e ^ 2) < 1 := by
    have := sqrt_lt_sqrt hp.le (show 1 - e ^ 2 < 1 by nlinarith)
    rwa [sqrt_one] at this
  unfold peters_f
  rw [hw7]
  have hw := sqrt_pos.mpr hp
  generalize √(1 - e ^ 2) = w at hw hw1
  have hu : 1 < 1 / w := by rw [lt_div_iff₀ hw]; linarith
  have h := poly_lt hu
  have h3 : 1 / w ^ 7 ≤ (1 + 73 / 24 * e ^ 2 + 37 / 96 * e ^ 4) / w ^ 7 := by
    apply div_le_div_of_nonneg_right _ (by positivity)
    have : 0 ≤ e ^ 2 := by positivity
    have : 0 ≤ e ^ 4 := by positivity
    linarith
  have h4 : (1 / w) ^ 7 = 1 / w ^ 7 := by rw [div_pow, one_pow]
  have h5 : 4 * (1 / (3 * w) - 1 / 12) = (4 * (1 / w) - 1) / 3 := by field_simp; ring
  rw [h5]
  linarith

/-- **C107** (characteristic strain). It is the other way round for the characteristic strain: all harmonics of an
eccentric binary together have a smaller characteristic strain than the circular binary with the same chirp mass,
distance, orbital frequency and orientation, because the binary sweeps through its frequencies faster. -/
theorem C107_characteristic {K : Consts} {m_c d f e : ℝ} {o : Orientation} (h0 : 0 < e) (h1 : e < 1)
    {s : ℕ → List ℝ} {h₂ : ℝ} (hs : ∀ N, CharacteristicAre K m_c d f e o (firstHarmonics N) (s N))
    (hc : CharacteristicAre K m_c d f 0 o [2] [h₂]) (hne : h₂ ≠ 0) (N : ℕ) :
    together (s N) < h₂ ^ 2 := by
  obtain ⟨a, ha, hh⟩ := characteristic_eq hc
  obtain ⟨b, hb, hsN⟩ := characteristic_eq (hs N)
  rw [ha, Except.ok.injEq] at hb
  subst hb
  simp only [List.map_cons, List.map_nil, List.cons.injEq, and_true] at hh
  set B := 2 ^ (5 / 3 : ℝ) / (3 * π ^ (4 / 3 : ℝ)) * (K.G ^ (5 / 6 : ℝ)) ^ 2 / K.c ^ 3
      * (m_c ^ (5 / 6 : ℝ)) ^ 2 / d ^ 2 * (f ^ (-1 / 6 : ℝ)) ^ 2 with hB
  have hF := peters_f_pos h0.le h1
  have hF0 : peters_f 0 = 1 := by simp [peters_f]
  have h2sq : h₂ ^ 2 = a ^ 2 * B * (1 / 2) := by
    rw [hh, mul_pow, h_c_val_sq K none le_rfl one_pos (by norm_num)]
    simp only [g_vals, circ_two, hF0]
    push_cast
    rw [hB]
    ring
  have hval : together (s N) =
      a ^ 2 * B * ((∑ n ∈ Finset.range N, peters_g ((n : ℤ) + 1) e / ((n : ℝ) + 1)) / peters_f e) := by
    rw [hsN, together_first, Finset.sum_div, Finset.mul_sum]
    refine Finset.sum_congr rfl fun n _ => ?_
    rw [mul_pow, h_c_val_sq K none h0.le h1 (by omega)]
    simp only [g_vals]
    push_cast
    rw [hB]
    ring
  have hg : ∀ n : ℕ, 0 ≤ peters_g ((n : ℤ) + 1) e := fun n => C05_nonneg _ h0.le h1.le
  have hsum1 := sum_le_hasSum (Finset.range N) (fun n _ => hg n) (C06_sum h0.le h1)
  have hsum2 := sum_le_hasSum (Finset.range N) (fun n _ => div_nonneg (hg n) (sq_nonneg ((n : ℝ) + 1)))
    (Kepler.hasSum_strain h0.le h1)
  have hterm : ∑ n ∈ Finset.range N, peters_g ((n : ℤ) + 1) e / ((n : ℝ) + 1) ≤
      ∑ n ∈ Finset.range N, ((1 / 4) * peters_g ((n : ℤ) + 1) e + peters_g ((n : ℤ) + 1) e / ((n : ℝ) + 1) ^ 2) := by
    refine Finset.sum_le_sum fun n _ => ?_
    have hn : (0 : ℝ) < (n : ℝ) + 1 := by positivity
    have hk : 1 / ((n : ℝ) + 1) ≤ 1 / 4 + 1 / ((n : ℝ) + 1) ^ 2 := by
      have := sq_nonneg (1 / 2 - 1 / ((n : ℝ) + 1))
      have e1 : (1 / 2 - 1 / ((n : ℝ) + 1)) ^ 2 = 1 / 4 + 1 / ((n : ℝ) + 1) ^ 2 - 1 / ((n : ℝ) + 1) := by
        field_simp; ring
      linarith
    have := mul_le_mul_of_nonneg_left hk (hg n)
    calc peters_g ((n : ℤ) + 1) e / ((n : ℝ) + 1) = peters_g ((n : ℤ) + 1) e * (1 / ((n : ℝ) + 1)) := by ring
      _ ≤ peters_g ((n : ℤ) + 1) e * (1 / 4 + 1 / ((n : ℝ) + 1) ^ 2) := this
      _ = _ := by ring
  rw [Finset.sum_add_distrib, ← Finset.mul_sum] at hterm
  have hav := average_lt h0 h1
  have hlt : (∑ n ∈ Finset.range N, peters_g ((n : ℤ) + 1) e / ((n : ℝ) + 1)) / peters_f e < 1 / 2 := by
    rw [div_lt_iff₀ hF]; linarith
  have hpos : 0 < a ^ 2 * B := by
    have : 0 < h₂ ^ 2 := sq_pos_of_ne_zero hne
    rw [h2sq] at this
    linarith
  rw [hval, h2sq]
  exact mul_lt_mul_of_pos_left hlt hpos

/-- The hypotheses are met by a binary of chirp mass 1, distance 1 and orbital frequency 1 with any constants, observed
without a sky position: with `e = 0.6` its strain is stronger, and its characteristic strain weaker, than without
eccentricity. -/
example (K : Consts) : ∃ (s s' c : ℕ → List ℝ) (h₂ c₂ : ℝ),
    (∀ N, StrainsAre K 1 1 1 0 {} (firstHarmonics N) (s N)) ∧
    (∀ N, StrainsAre K 1 1 1 0.6 {} (firstHarmonics N) (s' N)) ∧
    (∀ N, CharacteristicAre K 1 1 1 0.6 {} (firstHarmonics N) (c N)) ∧
    StrainsAre K 1 1 1 0 {} [2] [h₂] ∧ CharacteristicAre K 1 1 1 0 {} [2] [c₂] ∧ h₂ ≠ 0 ∧ c₂ ≠ 0 ∧
    Tendsto (fun N => together (s' N)) atTop (nhds (4 / 3 * h₂ ^ 2)) ∧
    (∃ N₀, ∀ N, N₀ ≤ N → ∀ M, together (s M) < together (s' N)) ∧ ∀ N, together (c N) < c₂ ^ 2 := by
  have hS : ∀ e N, StrainsAre K 1 1 1 e {} (firstHarmonics N)
      ((firstHarmonics N).map fun k => 1 * h_0_val K none 1 1 1 e k) := by
    intro e N
    unfold StrainsAre h_0_n
    rw [first_ge]
    rfl
  have hC : ∀ e N, CharacteristicAre K 1 1 1 e {} (firstHarmonics N)
      ((firstHarmonics N).map fun k => 1 * h_c_val K none 1 1 1 e k) := by
    intro e N
    unfold CharacteristicAre h_c_n
    rw [first_ge]
    rfl
  have h2 : StrainsAre K 1 1 1 0 {} [2] [1 * h_0_val K none 1 1 1 0 2] := by
    unfold StrainsAre h_0_n
    rw [if_neg (by norm_num)]
    rfl
  have c2 : CharacteristicAre K 1 1 1 0 {} [2] [1 * h_c_val K none 1 1 1 0 2] := by
    unfold CharacteristicAre h_c_n
    rw [if_neg (by norm_num)]
    rfl
  have hG := K.G_pos
  have hc := K.c_pos
  have n2 : 1 * h_0_val K none 1 1 1 0 2 ≠ 0 := by
    unfold h_0_val
    simp only [g_vals, circ_two]
    positivity
  have nc : 1 * h_c_val K none 1 1 1 0 2 ≠ 0 := by
    unfold h_c_val
    simp only [g_vals, circ_two, show peters_f 0 = 1 by simp [peters_f]]
    positivity
  refine ⟨_, _, _, _, _, hS 0, hS 0.6, hC 0.6, h2, c2, n2, nc, ?_,
    C107_stronger le_rfl (by norm_num) (by norm_num) (hS 0) (hS 0.6) h2 n2,
    C107_characteristic (by norm_num) (by norm_num) (hC 0.6) c2 nc⟩
  have := (C107_total (by norm_num) (by norm_num) (hS 0.6) h2).1
  have hw : √(1 - (0.6 : ℝ) ^ 2) = 0.8 := by
    rw [show (1 : ℝ) - 0.6 ^ 2 = 0.8 ^ 2 by norm_num, sqrt_sq (by norm_num)]
  rw [hw] at this
  norm_num at this ⊢
  exact this

end Legwork.Props
