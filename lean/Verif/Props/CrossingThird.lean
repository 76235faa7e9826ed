import Verif.Props.Crossing

/-!
# Where the third harmonic is the strongest: C118
-/

namespace Legwork.Props

open Real Legwork.utils Legwork.strain Legwork.Spec Legwork.PolyCheck
open scoped Nat

private lemma small_rest (k : ℕ) (hk : k ≤ 6) : ((k + 2 : ℕ) : ℚ) ^ 36 / (36 ! : ℕ) ≤ 1 / 10 := by
  have h1 : ((k + 2 : ℕ) : ℚ) ≤ 8 := by exact_mod_cast (by omega : k + 2 ≤ 8)
  have h2 : (8 : ℚ) ^ 36 / (36 ! : ℕ) ≤ 1 / 10 := by decide +kernel
  refine le_trans ?_ h2
  gcongr

/-- A polynomial above `1/√(1-e²)`. -/
private def rootPoly₃ : List ℚ := [1, 0, 1 / 2, 0, 3 / 8, 0, 5 / 16, 0, 35 / 128, 0, 63 / 256, 0, 7 / 20]

private def restPoly₃ : List ℚ :=
  add (add (add (add (smul (1 / 4) (gPoly 36 0)) (smul (2 / 9) (gPoly 36 1))) (add (smul (1 / 16) (gPoly 36 2)) (smul (1 / 25) (gPoly 36 3))))
      (add (add (smul (1 / 36) (gPoly 36 4)) (smul (1 / 49) (gPoly 36 5))) (smul (1 / 64) (gPoly 36 6))))
    (add (smul (-1 / 3) rootPoly₃) [1 / 12 - (gErr 36 0 / 4 + gErr 36 1 * (2 / 9) + gErr 36 2 / 16 + gErr 36 3 / 25 + gErr 36 4 / 36 +
      gErr 36 5 / 49 + gErr 36 6 / 64 + 1 / 10 ^ 9)])

private theorem root_le₃ {e : ℝ} (h0 : 0 ≤ e) (h1 : e ≤ 0.5718) : 1 / √(1 - e ^ 2) ≤ ev rootPoly₃ e := by
  have hpos : 0 < 1 - e ^ 2 := by
    norm_num at h1
    nlinarith
  have h := check_sound (p := add (mul (pow rootPoly₃ 2) [1, 0, -1]) [-1]) (a := 0) (b := 5719 / 10000) (by decide +kernel)
    (x := e) (by simpa using h0) (h1.trans_lt (by norm_num))
  rw [ev_add, ev_mul, ev_pow] at h
  have hu : 0 ≤ ev rootPoly₃ e := ev_nonneg (by decide +kernel) h0
  have hq : ev [1, 0, -1] e = 1 - e ^ 2 := by simp; ring
  have hm1 : ev [-1] e = -1 := by simp
  rw [hq, hm1] at h
  rw [div_le_iff₀ (sqrt_pos.2 hpos)]
  have : 1 ≤ (ev rootPoly₃ e * √(1 - e ^ 2)) ^ 2 := by
    rw [mul_pow, sq_sqrt hpos.le]
    linarith
  exact (one_le_sq_iff₀ (mul_nonneg hu (sqrt_nonneg _))).1 this

private theorem rest_lt₃ {e : ℝ} (h0 : 0.4246 ≤ e) (h1 : e ≤ 0.5718) :
    1 / (3 * √(1 - e ^ 2)) - 1 / 12 < peters_g 2 e / 4 + peters_g 3 e * (2 / 9) + peters_g 4 e / 16 + peters_g 5 e / 25 +
      peters_g 6 e / 36 + peters_g 7 e / 49 + peters_g 8 e / 64 := by
  have hle : e ≤ 1 := h1.trans (by norm_num)
  have h0' : 0 ≤ e := le_trans (by norm_num) h0
  have h := check_sound (p := restPoly₃) (a := 4246 / 10000) (b := 5719 / 10000) (by decide +kernel)
    (x := e) (le_trans (by norm_num) h0) (h1.trans_lt (by norm_num))
  have g2 := (abs_le.1 (gPoly_close 36 0 (small_rest _ (by norm_num)) h0' hle)).1
  have g3 := (abs_le.1 (gPoly_close 36 1 (small_rest _ (by norm_num)) h0' hle)).1
  have g4 := (abs_le.1 (gPoly_close 36 2 (small_rest _ (by norm_num)) h0' hle)).1
  have g5 := (abs_le.1 (gPoly_close 36 3 (small_rest _ (by norm_num)) h0' hle)).1
  have g6 := (abs_le.1 (gPoly_close 36 4 (small_rest _ (by norm_num)) h0' hle)).1
  have g7 := (abs_le.1 (gPoly_close 36 5 (small_rest _ (by norm_num)) h0' hle)).1
  have g8 := (abs_le.1 (gPoly_close 36 6 (small_rest _ (by norm_num)) h0' hle)).1
  have hr := root_le₃ h0' h1
  simp only [restPoly₃, ev_add, ev_smul, ev_cons ((1 : ℚ) / 12 - _) [], ev_nil] at h
  push_cast at h
  norm_num at g2 g3 g4 g5 g6 g7 g8
  have e1 : 1 / (3 * √(1 - e ^ 2)) = 1 / √(1 - e ^ 2) / 3 := by
    rw [mul_comm, div_mul_eq_div_div]
  rw [e1]
  linarith

private theorem gap_four {e : ℝ} (h0 : 0.4246 ≤ e) : (e ≤ 0.5718 → peters_g 4 e / 16 < peters_g 3 e / 9) ∧
    (0.5719 ≤ e → e ≤ 0.75 → peters_g 3 e / 9 < peters_g 4 e / 16) := by
  have h0' : 0 ≤ e := le_trans (by norm_num) h0
  refine ⟨fun h => ?_, fun h h' => ?_⟩
  · have := gap_sound (M := 36) (a := 16) (b := 9) (j := 1) (k := 2) (by norm_num) (by norm_num) (small_rest _ (by norm_num))
      (small_rest _ (by norm_num)) (x := 4246 / 10000) (y := 57181 / 100000) (by decide +kernel) h0' (h.trans (by norm_num))
      (le_trans (by norm_num) h0) (h.trans_lt (by norm_num))
    norm_num at this
    linarith
  · have := gap_sound (M := 36) (a := 9) (b := 16) (j := 2) (k := 1) (by norm_num) (by norm_num) (small_rest _ (by norm_num))
      (small_rest _ (by norm_num)) (x := 5719 / 10000) (y := 7501 / 10000) (by decide +kernel) h0' (h'.trans (by norm_num))
      (le_trans (by norm_num) h) (h'.trans_lt (by norm_num))
    norm_num at this
    linarith

set_option maxHeartbeats 2000000 in
private theorem gap_later {e : ℝ} (h0 : 0.4246 ≤ e) (h : e ≤ 0.5718) : peters_g 5 e / 25 < peters_g 3 e / 9 ∧
    peters_g 6 e / 36 < peters_g 3 e / 9 ∧ peters_g 7 e / 49 < peters_g 3 e / 9 ∧ peters_g 8 e / 64 < peters_g 3 e / 9 := by
  have h0' : 0 ≤ e := le_trans (by norm_num) h0
  have key : ∀ (k : ℕ) (a : ℚ), k ≤ 6 → 0 ≤ a → check (gapPoly 36 a 9 1 k) (4246 / 10000) (5719 / 10000) = true →
      9 * peters_g ((k : ℤ) + 2) e < a * peters_g 3 e := fun k a hk ha hc => by
    have := gap_sound (M := 36) (a := a) (b := 9) (j := 1) (k := k) ha (by norm_num) (small_rest _ (by norm_num))
      (small_rest _ hk) hc h0' (h.trans (by norm_num)) (le_trans (by norm_num) h0) (h.trans_lt (by norm_num))
    norm_num at this
    exact this
  have k5 := key 3 25 (by norm_num) (by norm_num) (by decide +kernel)
  have k6 := key 4 36 (by norm_num) (by norm_num) (by decide +kernel)
  have k7 := key 5 49 (by norm_num) (by norm_num) (by decide +kernel)
  have k8 := key 6 64 (by norm_num) (by norm_num) (by decide +kernel)
  norm_num at k5 k6 k7 k8
  refine ⟨?_, ?_, ?_, ?_⟩ <;> linarith

/-- **C118** (third). From eccentricity 0.4246 to 0.5718 the harmonic `n = 3` has a stronger strain than every other one. -/
theorem C118_third {K : Consts} {m_c d f e : ℝ} {o : Orientation} (hm : 0 < m_c) (hd : 0 < d) (hf : 0 < f) (h0 : 0.4246 ≤ e)
    (h1 : e ≤ 0.5718) {n : ℤ} (hn : n ≠ 3) {h₃ hn' : ℝ} (hs : StrainsAre K m_c d f e o [3, n] [h₃, hn']) : hn' < h₃ := by
  have hlt : e < 1 := h1.trans_lt (by norm_num)
  have h0' : 0 ≤ e := le_trans (by norm_num) h0
  unfold StrainsAre h_0_n at hs
  split_ifs at hs with hany
  have hn1 : 1 ≤ n := by
    simp only [List.any_cons, List.any_nil, Bool.or_false, Bool.or_eq_true, decide_eq_true_eq, not_or, not_lt] at hany
    exact hany.2
  obtain ⟨a, ha, hs⟩ := one_row_of hs
  obtain ⟨c, hc, hform⟩ := strain_form (K := K) (e := e) hm hd hf ha
  simp only [List.map_cons, List.map_nil, List.cons.injEq, and_true] at hs
  rw [hs.1, hs.2, hform e 3 h0' hlt (by norm_num), hform e n h0' hlt hn1]
  have pn : 0 ≤ peters_g n e / (n : ℝ) ^ 2 := div_nonneg (C05_nonneg n h0' hlt.le) (sq_nonneg _)
  refine mul_lt_mul_of_pos_left (sqrt_lt_sqrt pn ?_) hc
  have hr := rest_lt₃ h0 h1
  have hsum := Kepler.hasSum_strain h0' hlt
  have hnn : ∀ i : ℕ, 0 ≤ peters_g ((i : ℤ) + 1) e / ((i : ℝ) + 1) ^ 2 := fun i => div_nonneg (C05_nonneg _ h0' hlt.le) (sq_nonneg _)
  have c3 : ((3 : ℤ) : ℝ) ^ 2 = 9 := by norm_num
  obtain ⟨q5, q6, q7, q8⟩ := gap_later h0 h1
  rw [c3]
  rcases eq_or_ne n 2 with rfl | h2
  · have := (gap_strain h0' hlt).2.1 h0 (h1.trans (by norm_num))
    norm_num
    exact this
  rcases eq_or_ne n 4 with rfl | h4
  · have := (gap_four h0).1 h1
    norm_num
    exact this
  rcases eq_or_ne n 5 with rfl | h5
  · norm_num
    exact q5
  rcases eq_or_ne n 6 with rfl | h6
  · norm_num
    exact q6
  rcases eq_or_ne n 7 with rfl | h7
  · norm_num
    exact q7
  rcases eq_or_ne n 8 with rfl | h8
  · norm_num
    exact q8
  · obtain ⟨i, rfl⟩ : ∃ i : ℕ, n = (i : ℤ) + 1 := ⟨(n - 1).toNat, by omega⟩
    have hle := sum_le_hasSum {1, 2, 3, 4, 5, 6, 7, i} (fun i _ => hnn i) hsum
    rw [Finset.sum_insert (by simp; omega), Finset.sum_insert (by simp; omega), Finset.sum_insert (by simp; omega),
      Finset.sum_insert (by simp; omega), Finset.sum_insert (by simp; omega), Finset.sum_insert (by simp; omega),
      Finset.sum_insert (by simp; omega), Finset.sum_singleton] at hle
    have t1 : peters_g (((1 : ℕ) : ℤ) + 1) e / (((1 : ℕ) : ℝ) + 1) ^ 2 = peters_g 2 e / 4 := by norm_num
    have t2 : peters_g (((2 : ℕ) : ℤ) + 1) e / (((2 : ℕ) : ℝ) + 1) ^ 2 = peters_g 3 e / 9 := by norm_num
    have t3 : peters_g (((3 : ℕ) : ℤ) + 1) e / (((3 : ℕ) : ℝ) + 1) ^ 2 = peters_g 4 e / 16 := by norm_num
    have t4 : peters_g (((4 : ℕ) : ℤ) + 1) e / (((4 : ℕ) : ℝ) + 1) ^ 2 = peters_g 5 e / 25 := by norm_num
    have t5 : peters_g (((5 : ℕ) : ℤ) + 1) e / (((5 : ℕ) : ℝ) + 1) ^ 2 = peters_g 6 e / 36 := by norm_num
    have t6 : peters_g (((6 : ℕ) : ℤ) + 1) e / (((6 : ℕ) : ℝ) + 1) ^ 2 = peters_g 7 e / 49 := by norm_num
    have t7 : peters_g (((7 : ℕ) : ℤ) + 1) e / (((7 : ℕ) : ℝ) + 1) ^ 2 = peters_g 8 e / 64 := by norm_num
    have c1 : (((i : ℤ) + 1 : ℤ) : ℝ) = (i : ℝ) + 1 := by push_cast; rfl
    rw [t1, t2, t3, t4, t5, t6, t7] at hle
    rw [c1]
    linarith

/-- **C118** (fourth). From 0.5719 on, at least up to 0.75, the harmonic `n = 4` has a stronger strain than `n = 3`. -/
theorem C118_fourth {K : Consts} {m_c d f e : ℝ} {o : Orientation} (hm : 0 < m_c) (hd : 0 < d) (hf : 0 < f) (h0 : 0.5719 ≤ e)
    (h1 : e ≤ 0.75) {h₃ h₄ : ℝ} (hs : StrainsAre K m_c d f e o [3, 4] [h₃, h₄]) : h₃ < h₄ := by
  have hlt : e < 1 := h1.trans_lt (by norm_num)
  have h0' : 0 ≤ e := le_trans (by norm_num) h0
  unfold StrainsAre h_0_n at hs
  split_ifs at hs
  obtain ⟨a, ha, hs⟩ := one_row_of hs
  obtain ⟨c, hc, hform⟩ := strain_form (K := K) (e := e) hm hd hf ha
  simp only [List.map_cons, List.map_nil, List.cons.injEq, and_true] at hs
  rw [hs.1, hs.2, hform e 3 h0' hlt (by norm_num), hform e 4 h0' hlt (by norm_num)]
  have pn : 0 ≤ peters_g 3 e / ((3 : ℤ) : ℝ) ^ 2 := div_nonneg (C05_nonneg 3 h0' hlt.le) (sq_nonneg _)
  refine mul_lt_mul_of_pos_left (sqrt_lt_sqrt pn ?_) hc
  have := (gap_four (le_trans (by norm_num) h0)).2 h0 h1
  norm_num
  exact this

example (K : Consts) := C118_third (K := K) (n := 4) one_pos one_pos one_pos (by norm_num) (by norm_num) (by norm_num)
  (strains_exist K 0.57 [3, 4] rfl)

example (K : Consts) := C118_third (K := K) (n := 20) one_pos one_pos one_pos (by norm_num) (by norm_num) (by norm_num)
  (strains_exist K 0.5 [3, 20] rfl)

example (K : Consts) := C118_fourth (K := K) one_pos one_pos one_pos (by norm_num) (by norm_num) (strains_exist K 0.6 [3, 4] rfl)

end Legwork.Props
