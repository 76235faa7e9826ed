import Verif.Lemmas.BesselPoly
import Verif.Lemmas.KeplerStrain
import Verif.Lemmas.Strain
import Verif.Props.Response
import Verif.Spec.Total

/-!
# Which harmonic is the strongest: C118

The tutorial on strains says that the strain of the harmonic `n = 2` declines with eccentricity and that the harmonic `n = 3` becomes
stronger around `e = 0.33`. Here are the eccentricities where that happens.
-/

namespace Legwork.Props

open Real Legwork.utils Legwork.strain Legwork.Spec Legwork.PolyCheck
open scoped Nat

/-! ### Inequalities between the powers -/

theorem gap_strain {e : ℝ} (h0 : 0 ≤ e) (h1 : e < 1) :
    (e ≤ 0.4245 → peters_g 3 e / 9 < peters_g 2 e / 4) ∧
    (0.4246 ≤ e → e ≤ 0.8018 → peters_g 2 e / 4 < peters_g 3 e / 9) ∧
    (0.8019 ≤ e → peters_g 3 e / 9 < peters_g 2 e / 4) := by
  have f2 : ((0 + 2 : ℕ) : ℚ) ^ 20 / (20 ! : ℕ) ≤ 1 / 10 := by decide +kernel
  have f3 : ((1 + 2 : ℕ) : ℚ) ^ 20 / (20 ! : ℕ) ≤ 1 / 10 := by decide +kernel
  refine ⟨fun h => ?_, fun h h' => ?_, fun h => ?_⟩
  · have := gap_sound (M := 20) (a := 9) (b := 4) (j := 0) (k := 1) (by norm_num) (by norm_num) f2 f3 (x := 0)
      (y := 4245001 / 10000000) (by decide +kernel) h0 h1.le (by simpa using h0) (h.trans_lt (by norm_num))
    norm_num at this
    linarith
  · have := gap_sound (M := 20) (a := 4) (b := 9) (j := 1) (k := 0) (by norm_num) (by norm_num) f3 f2 (x := 4246 / 10000)
      (y := 8018001 / 10000000) (by decide +kernel) h0 h1.le (le_trans (by norm_num) h) (h'.trans_lt (by norm_num))
    norm_num at this
    linarith
  · have := gap_sound (M := 20) (a := 9) (b := 4) (j := 0) (k := 1) (by norm_num) (by norm_num) f2 f3 (x := 8019 / 10000)
      (y := 1) (by decide +kernel) h0 h1.le (le_trans (by norm_num) h) (by simpa using h1)
    norm_num at this
    linarith

private theorem gap_characteristic {e : ℝ} (h0 : 0 ≤ e) (h1 : e < 1) :
    (e ≤ 0.3536 → peters_g 3 e / 3 < peters_g 2 e / 2) ∧
    (0.3537 ≤ e → e < 0.75 → peters_g 2 e / 2 < peters_g 3 e / 3) := by
  have f2 : ((0 + 2 : ℕ) : ℚ) ^ 20 / (20 ! : ℕ) ≤ 1 / 10 := by decide +kernel
  have f3 : ((1 + 2 : ℕ) : ℚ) ^ 20 / (20 ! : ℕ) ≤ 1 / 10 := by decide +kernel
  refine ⟨fun h => ?_, fun h h' => ?_⟩
  · have := gap_sound (M := 20) (a := 3) (b := 2) (j := 0) (k := 1) (by norm_num) (by norm_num) f2 f3 (x := 0)
      (y := 3536001 / 10000000) (by decide +kernel) h0 h1.le (by simpa using h0) (h.trans_lt (by norm_num))
    norm_num at this
    linarith
  · have := gap_sound (M := 20) (a := 2) (b := 3) (j := 1) (k := 0) (by norm_num) (by norm_num) f3 f2 (x := 3537 / 10000)
      (y := 3 / 4) (by decide +kernel) h0 h1.le (le_trans (by norm_num) h) (h'.trans_le (by norm_num))
    norm_num at this
    linarith

/-- **C118** (power). The third harmonic carries more power than the second from an eccentricity between 0.2918 and 0.2919 on, at
least up to 0.75. -/
theorem C118_power {e : ℝ} (h0 : 0 ≤ e) :
    (e ≤ 0.2918 → peters_g 3 e < peters_g 2 e) ∧ (0.2919 ≤ e → e < 0.75 → peters_g 2 e < peters_g 3 e) := by
  have f2 : ((0 + 2 : ℕ) : ℚ) ^ 20 / (20 ! : ℕ) ≤ 1 / 10 := by decide +kernel
  have f3 : ((1 + 2 : ℕ) : ℚ) ^ 20 / (20 ! : ℕ) ≤ 1 / 10 := by decide +kernel
  refine ⟨fun h => ?_, fun h h' => ?_⟩
  · have := gap_sound (M := 20) (a := 1) (b := 1) (j := 0) (k := 1) (by norm_num) (by norm_num) f2 f3 (x := 0)
      (y := 2918001 / 10000000) (by decide +kernel) h0 (h.trans (by norm_num)) (by simpa using h0) (h.trans_lt (by norm_num))
    norm_num at this
    linarith
  · have := gap_sound (M := 20) (a := 1) (b := 1) (j := 1) (k := 0) (by norm_num) (by norm_num) f3 f2 (x := 2919 / 10000)
      (y := 3 / 4) (by decide +kernel) h0 (h'.le.trans (by norm_num)) (le_trans (by norm_num) h) (h'.trans_le (by norm_num))
    norm_num at this
    linarith

/-! ### From powers to strains -/

private theorem modulation_pos {o : Orientation} {a : ℝ} (h : modulation o = .ok a) : 0 < a := by
  unfold modulation at h
  split_ifs at h with hc
  · obtain ⟨p, q, io⟩ := o
    rcases p with _ | ⟨lat, lon⟩
    · cases q <;> cases io <;> simp [Except.map, amplitude_modulation] at h
    rcases q with _ | pol
    · cases io <;> simp [Except.map, amplitude_modulation] at h
    rcases io with _ | inc
    · simp [Except.map, amplitude_modulation] at h
    obtain ⟨b, hb, hb0, -⟩ := C09_modulation_bounds lat lon pol inc
    rw [hb] at h
    simp only [Except.map, Except.ok.injEq] at h
    rw [← h]
    exact rpow_pos_of_pos hb0 _
  · cases h; exact one_pos

lemma one_row_of {val : ℝ → ℝ → ℝ → ℝ → ℤ → ℝ} {n : List ℤ} {m d f e : ℝ} {o : Orientation} {s : List ℝ}
    (h : [(⟨m, d, [(f, e)], o⟩ : Row)].mapM (row_strain val n) = .ok [[s]]) :
    ∃ a, modulation o = .ok a ∧ s = n.map fun k => a * val m d f e k := by
  simp only [List.mapM_cons, List.mapM_nil, row_strain] at h
  rcases hm : modulation o with er | a
  · rw [hm] at h; simp [bind, Except.bind] at h
  · rw [hm] at h
    simp only [bind, Except.bind, pure, Except.pure, Except.ok.injEq, List.cons.injEq, and_true, List.map_cons,
      List.map_nil] at h
    exact ⟨a, rfl, h.symm⟩

/-- The strain of a harmonic is a positive factor times `√(g/n²)`. -/
theorem strain_form {K : Consts} {m d f e : ℝ} {o : Orientation} (hm : 0 < m) (hd : 0 < d) (hf : 0 < f) {a : ℝ}
    (ha : modulation o = .ok a) : ∃ c, 0 < c ∧ ∀ (e : ℝ) (k : ℤ), 0 ≤ e → e < 1 → 1 ≤ k →
      a * h_0_val K none m d f e k = c * √(peters_g k e / (k : ℝ) ^ 2) := by
  have hG := K.G_pos
  have hc := K.c_pos
  have ha0 := modulation_pos ha
  refine ⟨a * ((2 ^ (28 / 3 : ℝ) / 5) ^ (0.5 : ℝ) * K.G ^ (5 / 3 : ℝ) / K.c ^ 4 * m ^ (5 / 3 : ℝ) * (π * f) ^ (2 / 3 : ℝ) / d),
    by positivity, fun e k h0 h1 hk => ?_⟩
  have hk' : (0 : ℝ) ≤ k := by exact_mod_cast (by omega : 0 ≤ k)
  rw [sqrt_div (C05_nonneg k h0 h1.le), sqrt_sq hk', sqrt_eq_rpow]
  unfold h_0_val
  simp only [g_vals]
  ring

private theorem characteristic_form {K : Consts} {m d f e : ℝ} {o : Orientation} (hm : 0 < m) (hd : 0 < d) (hf : 0 < f)
    (h0 : 0 ≤ e) (h1 : e < 1) {a : ℝ} (ha : modulation o = .ok a) : ∃ c, 0 < c ∧ ∀ k : ℤ,
      a * h_c_val K none m d f e k = c * √(peters_g k e / (k : ℝ)) := by
  have hG := K.G_pos
  have hc := K.c_pos
  have ha0 := modulation_pos ha
  have hF := peters_f_pos h0 h1
  refine ⟨a * ((2 ^ (5 / 3 : ℝ) / (3 * π ^ (4 / 3 : ℝ))) ^ (0.5 : ℝ) * K.G ^ (5 / 6 : ℝ) / K.c ^ (3 / 2 : ℝ) *
    m ^ (5 / 6 : ℝ) / d * f ^ (-1 / 6 : ℝ) / peters_f e ^ (0.5 : ℝ)), by positivity, fun k => ?_⟩
  rw [sqrt_eq_rpow]
  unfold h_c_val
  simp only [g_vals]
  ring

/-- **C118** (strain). Of two harmonics as `strain.h_0_n` gives them, for any binary and detector orientation: `n = 2` is stronger
than `n = 3` up to eccentricity 0.4245, weaker from 0.4246 to 0.8018 and stronger again from 0.8019 on. -/
theorem C118_strain {K : Consts} {m_c d f e : ℝ} {o : Orientation} (hm : 0 < m_c) (hd : 0 < d) (hf : 0 < f) (h0 : 0 ≤ e)
    (h1 : e < 1) {h₂ h₃ : ℝ} (hs : StrainsAre K m_c d f e o [2, 3] [h₂, h₃]) :
    (e ≤ 0.4245 → h₃ < h₂) ∧ (0.4246 ≤ e → e ≤ 0.8018 → h₂ < h₃) ∧ (0.8019 ≤ e → h₃ < h₂) := by
  unfold StrainsAre h_0_n at hs
  split_ifs at hs
  obtain ⟨a, ha, hs⟩ := one_row_of hs
  obtain ⟨c, hc, hform⟩ := strain_form (K := K) (e := e) hm hd hf ha
  simp only [List.map_cons, List.map_nil, List.cons.injEq, and_true] at hs
  rw [hs.1, hs.2, hform e 2 h0 h1 (by norm_num), hform e 3 h0 h1 (by norm_num)]
  obtain ⟨g1, g2, g3⟩ := gap_strain h0 h1
  have p2 : 0 ≤ peters_g 2 e / ((2 : ℤ) : ℝ) ^ 2 := div_nonneg (C05_nonneg 2 h0 h1.le) (sq_nonneg _)
  have p3 : 0 ≤ peters_g 3 e / ((3 : ℤ) : ℝ) ^ 2 := div_nonneg (C05_nonneg 3 h0 h1.le) (sq_nonneg _)
  refine ⟨fun h => mul_lt_mul_of_pos_left (sqrt_lt_sqrt p3 ?_) hc, fun h h' => mul_lt_mul_of_pos_left (sqrt_lt_sqrt p2 ?_) hc,
    fun h => mul_lt_mul_of_pos_left (sqrt_lt_sqrt p3 ?_) hc⟩
  · have := g1 h
    norm_num
    exact this
  · have := g2 h h'
    norm_num
    exact this
  · have := g3 h
    norm_num
    exact this

/-- **C118** (characteristic strain). For `strain.h_c_n` the harmonic `n = 3` overtakes `n = 2` between 0.3536 and 0.3537. -/
theorem C118_characteristic {K : Consts} {m_c d f e : ℝ} {o : Orientation} (hm : 0 < m_c) (hd : 0 < d) (hf : 0 < f) (h0 : 0 ≤ e)
    (h1 : e < 1) {h₂ h₃ : ℝ} (hs : CharacteristicAre K m_c d f e o [2, 3] [h₂, h₃]) :
    (e ≤ 0.3536 → h₃ < h₂) ∧ (0.3537 ≤ e → e < 0.75 → h₂ < h₃) := by
  unfold CharacteristicAre h_c_n at hs
  split_ifs at hs
  obtain ⟨a, ha, hs⟩ := one_row_of hs
  obtain ⟨c, hc, hform⟩ := characteristic_form (K := K) hm hd hf h0 h1 ha
  simp only [List.map_cons, List.map_nil, List.cons.injEq, and_true] at hs
  rw [hs.1, hs.2, hform 2, hform 3]
  obtain ⟨g1, g2⟩ := gap_characteristic h0 h1
  have p2 : 0 ≤ peters_g 2 e / ((2 : ℤ) : ℝ) := div_nonneg (C05_nonneg 2 h0 h1.le) (by norm_num)
  have p3 : 0 ≤ peters_g 3 e / ((3 : ℤ) : ℝ) := div_nonneg (C05_nonneg 3 h0 h1.le) (by norm_num)
  refine ⟨fun h => mul_lt_mul_of_pos_left (sqrt_lt_sqrt p3 ?_) hc, fun h h' => mul_lt_mul_of_pos_left (sqrt_lt_sqrt p2 ?_) hc⟩
  · have := g1 h
    norm_num
    exact this
  · have := g2 h h'
    norm_num
    exact this

/-! ### The strongest of all harmonics -/

/-- A polynomial above `1/√(1-e²)`. -/
private def rootPoly : List ℚ := [1, 0, 1 / 2, 0, 3 / 8, 0, 5 / 16, 0, 35 / 128, 0, 63 / 256, 0, 3 / 10]

private def restPoly : List ℚ :=
  add (add (add (smul (1 / 2) (gPoly 20 0)) (smul (1 / 9) (gPoly 20 1))) (smul (1 / 16) (gPoly 20 2)))
    (add (smul (-1 / 3) rootPoly) [1 / 12 - (gErr 20 0 / 2 + gErr 20 1 / 9 + gErr 20 2 / 16 + 1 / 10 ^ 9)])

private theorem root_le {e : ℝ} (h0 : 0 ≤ e) (h1 : e ≤ 0.4245) : 1 / √(1 - e ^ 2) ≤ ev rootPoly e := by
  have hpos : 0 < 1 - e ^ 2 := by
    norm_num at h1
    nlinarith
  have h := check_sound (p := add (mul (pow rootPoly 2) [1, 0, -1]) [-1]) (a := 0) (b := 4246 / 10000) (by decide +kernel)
    (x := e) (by simpa using h0) (h1.trans_lt (by norm_num))
  rw [ev_add, ev_mul, ev_pow] at h
  have hu : 0 ≤ ev rootPoly e := ev_nonneg (by decide +kernel) h0
  have hq : ev [1, 0, -1] e = 1 - e ^ 2 := by simp; ring
  have hm1 : ev [-1] e = -1 := by simp
  rw [hq, hm1] at h
  rw [div_le_iff₀ (sqrt_pos.2 hpos)]
  have : 1 ≤ (ev rootPoly e * √(1 - e ^ 2)) ^ 2 := by
    rw [mul_pow, sq_sqrt hpos.le]
    linarith
  exact (one_le_sq_iff₀ (mul_nonneg hu (sqrt_nonneg _))).1 this

private theorem rest_lt {e : ℝ} (h0 : 0 ≤ e) (h1 : e ≤ 0.4245) :
    1 / (3 * √(1 - e ^ 2)) - 1 / 12 < peters_g 2 e / 2 + peters_g 3 e / 9 + peters_g 4 e / 16 := by
  have hle : e ≤ 1 := h1.trans (by norm_num)
  have h := check_sound (p := restPoly) (a := 0) (b := 4246 / 10000) (by decide +kernel)
    (x := e) (by simpa using h0) (h1.trans_lt (by norm_num))
  have g2 := (abs_le.1 (gPoly_close 20 0 (by decide +kernel) h0 hle)).1
  have g3 := (abs_le.1 (gPoly_close 20 1 (by decide +kernel) h0 hle)).1
  have g4 := (abs_le.1 (gPoly_close 20 2 (by decide +kernel) h0 hle)).1
  have hr := root_le h0 h1
  simp only [restPoly, ev_add, ev_smul, ev_cons ((1 : ℚ) / 12 - _) [], ev_nil] at h
  push_cast at h
  norm_num at g2 g3 g4
  have e1 : 1 / (3 * √(1 - e ^ 2)) = 1 / √(1 - e ^ 2) / 3 := by
    rw [mul_comm, div_mul_eq_div_div]
  rw [e1]
  linarith

/-- **C118** (strongest). Up to eccentricity 0.4245 the harmonic `n = 2` has a stronger strain than every other one. -/
theorem C118_strongest {K : Consts} {m_c d f e : ℝ} {o : Orientation} (hm : 0 < m_c) (hd : 0 < d) (hf : 0 < f) (h0 : 0 ≤ e)
    (h1 : e ≤ 0.4245) {n : ℤ} (hn : n ≠ 2) {h₂ hn' : ℝ} (hs : StrainsAre K m_c d f e o [2, n] [h₂, hn']) : hn' < h₂ := by
  have hlt : e < 1 := h1.trans_lt (by norm_num)
  unfold StrainsAre h_0_n at hs
  split_ifs at hs with hany
  have hn1 : 1 ≤ n := by
    simp only [List.any_cons, List.any_nil, Bool.or_false, Bool.or_eq_true, decide_eq_true_eq, not_or, not_lt] at hany
    exact hany.2
  obtain ⟨a, ha, hs⟩ := one_row_of hs
  obtain ⟨c, hc, hform⟩ := strain_form (K := K) (e := e) hm hd hf ha
  simp only [List.map_cons, List.map_nil, List.cons.injEq, and_true] at hs
  rw [hs.1, hs.2, hform e 2 h0 hlt (by norm_num), hform e n h0 hlt hn1]
  have pn : 0 ≤ peters_g n e / (n : ℝ) ^ 2 := div_nonneg (C05_nonneg n h0 hlt.le) (sq_nonneg _)
  refine mul_lt_mul_of_pos_left (sqrt_lt_sqrt pn ?_) hc
  have hr := rest_lt h0 h1
  have hsum := Kepler.hasSum_strain h0 hlt
  have hnn : ∀ i : ℕ, 0 ≤ peters_g ((i : ℤ) + 1) e / ((i : ℝ) + 1) ^ 2 := fun i => div_nonneg (C05_nonneg _ h0 hlt.le) (sq_nonneg _)
  rcases eq_or_ne n 3 with rfl | h3
  · have := (gap_strain h0 hlt).1 h1
    norm_num
    exact this
  rcases eq_or_ne n 4 with rfl | h4
  · have := gap_sound (M := 20) (a := 4) (b := 1) (j := 0) (k := 2) (by norm_num) (by norm_num) (by decide +kernel)
      (by decide +kernel) (x := 0) (y := 4246 / 10000) (by decide +kernel) h0 hlt.le (by simpa using h0) (h1.trans_lt (by norm_num))
    norm_num at this ⊢
    linarith
  · obtain ⟨i, rfl⟩ : ∃ i : ℕ, n = (i : ℤ) + 1 := ⟨(n - 1).toNat, by omega⟩
    have hle := sum_le_hasSum {1, 2, 3, i} (fun i _ => hnn i) hsum
    rw [Finset.sum_insert (by simp; omega), Finset.sum_insert (by simp; omega), Finset.sum_insert (by simp; omega),
      Finset.sum_singleton] at hle
    have t1 : peters_g (((1 : ℕ) : ℤ) + 1) e / (((1 : ℕ) : ℝ) + 1) ^ 2 = peters_g 2 e / 4 := by norm_num
    have t2 : peters_g (((2 : ℕ) : ℤ) + 1) e / (((2 : ℕ) : ℝ) + 1) ^ 2 = peters_g 3 e / 9 := by norm_num
    have t3 : peters_g (((3 : ℕ) : ℤ) + 1) e / (((3 : ℕ) : ℝ) + 1) ^ 2 = peters_g 4 e / 16 := by norm_num
    have c1 : (((i : ℤ) + 1 : ℤ) : ℝ) = (i : ℝ) + 1 := by push_cast; rfl
    have c2 : ((2 : ℤ) : ℝ) ^ 2 = 4 := by norm_num
    rw [t1, t2, t3] at hle
    rw [c1, c2]
    linarith

/-- **C118** (not declining). The strain of the harmonic `n = 2` falls as binaries become more eccentric up to eccentricity 0.35, but
not all the way: at 0.9 it is more than twice as strong as at 0.75. -/
theorem C118_second {K : Consts} {m_c d f : ℝ} {o : Orientation} (hm : 0 < m_c) (hd : 0 < d) (hf : 0 < f) {h : ℝ → ℝ}
    (hs : ∀ e, StrainsAre K m_c d f e o [2] [h e]) :
    (∀ e e', 0 ≤ e → e ≤ e' → e' ≤ 0.35 → h e' ≤ h e) ∧ 2 * h 0.75 < h 0.9 := by
  have hval : ∃ a, modulation o = .ok a ∧ ∀ e, h e = a * h_0_val K none m_c d f e 2 := by
    have key : ∀ e, ∃ a, modulation o = .ok a ∧ h e = a * h_0_val K none m_c d f e 2 := by
      intro e
      have := hs e
      unfold StrainsAre h_0_n at this
      split_ifs at this
      obtain ⟨a, ha, hs⟩ := one_row_of this
      simp only [List.map_cons, List.map_nil, List.cons.injEq, and_true] at hs
      exact ⟨a, ha, hs⟩
    obtain ⟨a, ha, -⟩ := key 0
    refine ⟨a, ha, fun e => ?_⟩
    obtain ⟨b, hb, he⟩ := key e
    rw [ha, Except.ok.injEq] at hb
    rw [he, hb]
  obtain ⟨a, ha, hval⟩ := hval
  obtain ⟨c, hc, hform⟩ := strain_form (K := K) (e := 0) hm hd hf ha
  constructor
  · intro e e' h0 hee h1
    rw [hval, hval, hform e 2 h0 (by norm_num at h1 ⊢; linarith) (by norm_num),
      hform e' 2 (h0.trans hee) (by norm_num at h1 ⊢; linarith) (by norm_num)]
    have := peters_g_two_antitone ⟨h0, hee.trans h1⟩ ⟨h0.trans hee, h1⟩ hee
    gcongr
  · rw [hval, hval, hform 0.75 2 (by norm_num) (by norm_num) (by norm_num), hform 0.9 2 (by norm_num) (by norm_num) (by norm_num)]
    have lo := check_sound (p := add [1 / 100] (smul (-1) (gPoly 20 0))) (a := 3 / 4) (b := 75001 / 100000) (by decide +kernel)
      (x := 0.75) (by norm_num) (by norm_num)
    have hi := check_sound (p := add [-5 / 100] (gPoly 20 0)) (a := 9 / 10) (b := 90001 / 100000) (by decide +kernel)
      (x := 0.9) (by norm_num) (by norm_num)
    have E : (gErr 20 0 : ℝ) ≤ 1 / 1000 := by
      have : gErr 20 0 ≤ 1 / 1000 := by decide +kernel
      have := (Rat.cast_le (K := ℝ)).2 this
      push_cast at this
      exact this
    have g1 := (abs_le.1 (gPoly_close 20 0 (by decide +kernel) (e := 0.75) (by norm_num) (by norm_num))).2
    have g2 := (abs_le.1 (gPoly_close 20 0 (by decide +kernel) (e := 0.9) (by norm_num) (by norm_num))).1
    simp only [ev_add, ev_smul, ev_cons, ev_nil] at lo hi
    norm_num at lo hi g1 g2 E
    have hlt : 4 * (peters_g 2 0.75 / ((2 : ℤ) : ℝ) ^ 2) < peters_g 2 0.9 / ((2 : ℤ) : ℝ) ^ 2 := by
      norm_num
      linarith
    have h4 : 2 * √(peters_g 2 0.75 / ((2 : ℤ) : ℝ) ^ 2) = √(4 * (peters_g 2 0.75 / ((2 : ℤ) : ℝ) ^ 2)) := by
      rw [sqrt_mul (by norm_num), show (4 : ℝ) = 2 ^ 2 by norm_num, sqrt_sq (by norm_num)]
    rw [mul_left_comm, h4]
    refine mul_lt_mul_of_pos_left (sqrt_lt_sqrt ?_ hlt) hc
    have := C05_nonneg 2 (e := 0.75) (by norm_num) (by norm_num)
    positivity

/-! ### The hypotheses are met -/

theorem strains_exist (K : Consts) (e : ℝ) (n : List ℤ) (hn : n.any (fun k => decide (k < 1)) = false) :
    StrainsAre K 1 1 1 e {} n (n.map fun k => 1 * h_0_val K none 1 1 1 e k) := by
  unfold StrainsAre h_0_n
  rw [hn]
  rfl

/-- A binary where the documentation puts the crossing: `n = 2` is stronger. -/
example (K : Consts) : ∃ h₂ h₃, StrainsAre K 1 1 1 0.33 {} [2, 3] [h₂, h₃] ∧ h₃ < h₂ :=
  ⟨_, _, strains_exist K 0.33 [2, 3] rfl,
    (C118_strain one_pos one_pos one_pos (by norm_num) (by norm_num) (strains_exist K 0.33 [2, 3] rfl)).1 (by norm_num)⟩

/-- Another one, seen from a given direction. -/
example (K : Consts) : ∃ h₂ h₃, StrainsAre K 1 1 1 0.5 ⟨some (0, 0), some 0, some 0⟩ [2, 3] [h₂, h₃] ∧ h₂ < h₃ := by
  obtain ⟨a, ha, -⟩ := C09_modulation_bounds 0 0 0 0
  have hs : StrainsAre K 1 1 1 0.5 ⟨some (0, 0), some 0, some 0⟩ [2, 3]
      ([2, 3].map fun k => a ^ (0.5 : ℝ) * h_0_val K none 1 1 1 0.5 k) := by
    unfold StrainsAre h_0_n
    rw [if_neg (by norm_num)]
    simp only [List.mapM_cons, List.mapM_nil, row_strain, modulation, ha]
    rfl
  exact ⟨_, _, hs, (C118_strain one_pos one_pos one_pos (by norm_num) (by norm_num) hs).2.1 (by norm_num) (by norm_num)⟩

example (K : Consts) := C118_strongest (K := K) (n := 7) one_pos one_pos one_pos (by norm_num) (by norm_num) (by norm_num)
  (strains_exist K 0.3 [2, 7] rfl)

example (K : Consts) := C118_second (K := K) one_pos one_pos one_pos (fun e => strains_exist K e [2] rfl)

example (K : Consts) : ∃ h₂ h₃, CharacteristicAre K 1 1 1 0.33 {} [2, 3] [h₂, h₃] ∧ h₃ < h₂ := by
  have hs : CharacteristicAre K 1 1 1 0.33 {} [2, 3] ([2, 3].map fun k => 1 * h_c_val K none 1 1 1 0.33 k) := by
    unfold CharacteristicAre h_c_n
    rw [if_neg (by norm_num)]
    rfl
  exact ⟨_, _, hs, (C118_characteristic one_pos one_pos one_pos (by norm_num) (by norm_num) hs).1 (by norm_num)⟩

end Legwork.Props
