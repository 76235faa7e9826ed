import Verif.Lemmas.KeplerSum
import Verif.Lemmas.BesselSmall

/-!
# The harmonics carry all the power: C06
-/

namespace Legwork.Props

open Real Legwork.source Legwork.Spec Legwork.utils

/-- **C06**. The relative powers of the harmonics `1, 2, 3, …` add up to the enhancement factor. -/
theorem C06_sum {e : ℝ} (h0 : 0 ≤ e) (h1 : e < 1) :
    HasSum (fun n : ℕ => peters_g ((n : ℤ) + 1) e) (peters_f e) := Kepler.hasSum_nat h0 h1

private lemma powerUpTo_eq (N : ℕ) (e : ℝ) :
    powerUpTo N e = ∑ n ∈ Finset.range N, peters_g ((n : ℤ) + 1) e := by
  unfold powerUpTo
  induction N with
  | zero => simp
  | succ N ih => rw [Finset.sum_Icc_succ_top (by omega), ih, Finset.sum_range_succ]; push_cast; rfl

/-- **C06** (finitely many harmonics). No number of harmonics carries more than the whole, more harmonics never carry
less, and the whole is the limit. -/
theorem C06_limit {e : ℝ} (h0 : 0 ≤ e) (h1 : e < 1) :
    (∀ N, powerUpTo N e ≤ peters_f e) ∧ Monotone (fun N => powerUpTo N e) ∧
    Filter.Tendsto (fun N => powerUpTo N e) Filter.atTop (nhds (peters_f e)) := by
  have hs := C06_sum h0 h1
  have hn : ∀ n : ℕ, 0 ≤ peters_g ((n : ℤ) + 1) e := fun n => C05_nonneg _ h0 h1.le
  simp only [powerUpTo_eq]
  refine ⟨fun N => sum_le_hasSum _ (fun n _ => hn n) hs, ?_, hs.tendsto_sum_nat⟩
  intro a b hab
  exact Finset.sum_le_sum_of_subset_of_nonneg (Finset.range_mono hab) fun n _ _ => hn n

/-- **C06** (tolerance). For every positive luminosity tolerance there is a number of harmonics from which on the
harmonics carry all but that fraction of the power. -/
theorem C06_reach {e tol : ℝ} (h0 : 0 ≤ e) (h1 : e < 1) (ht : 0 < tol) :
    ∃ N, ∀ M, N ≤ M → (1 - tol) * peters_f e ≤ powerUpTo M e := by
  obtain ⟨-, -, hl⟩ := C06_limit h0 h1
  have hF : 0 < peters_f e := by
    have : 0 < 1 - e ^ 2 := by nlinarith
    unfold peters_f
    positivity
  have := hl.eventually (lt_mem_nhds (show (1 - tol) * peters_f e < peters_f e by nlinarith))
  obtain ⟨N, hN⟩ := Filter.eventually_atTop.1 this
  exact ⟨N, fun M hM => (hN M hM).le⟩

private lemma lumUpTo_exact {T : LumTable} (hT : ValidTable T) (hx : ExactTable T) {i H : ℕ} {e : ℝ}
    {row : List ℝ} (he : T.e_range[i]? = some e) (hr : T.g_vals[i]? = some row) (hH : H ≤ T.n_max) :
    lumUpTo row H = powerUpTo H e := by
  have hrow : row = (List.range T.n_max).map fun j : ℕ => peters_g ((j : ℤ) + 1) e := by
    apply List.ext_getElem?
    intro j
    by_cases hj : j < T.n_max
    · rw [hx i j e row he hr hj, List.getElem?_map, List.getElem?_range hj]; rfl
    · rw [List.getElem?_eq_none (by rw [hT.columns row (List.mem_of_getElem? hr)]; omega),
        List.getElem?_eq_none (by simp; omega)]
  unfold lumUpTo
  rw [hrow, powerUpTo_eq, ← List.map_take, List.take_range, Nat.min_eq_left hH]
  clear hH
  induction H with
  | zero => simp
  | succ H ih => rw [List.range_succ, List.map_append, List.sum_append, ih, Finset.sum_range_succ]; simp

/-- **C06** (harmonics required). Take any increasing list of eccentricities below 1 and any positive tolerance. As soon
as the table of exact powers has enough columns, `harmonics_required` stays within the tolerance at every listed
eccentricity after the first: the harmonics it selects carry at least `1 - tol` of the power of all harmonics. -/
theorem C06_required {es : List ℝ} (hes : ∀ e ∈ es, 0 ≤ e ∧ e < 1) {tol : ℝ} (ht : 0 < tol) :
    ∃ N, ∀ T : LumTable, ValidTable T → ExactTable T → T.e_range = es → N ≤ T.n_max →
      ∀ e ∈ es.tail, ∃ H : ℕ, harmonics_required T tol e = H ∧
        (1 - tol) * (∑' n : ℕ, peters_g ((n : ℤ) + 1) e) ≤ powerUpTo H e := by
  have hN : ∃ N, ∀ e ∈ es, ∀ M, N ≤ M → (1 - tol) * peters_f e ≤ powerUpTo M e := by
    induction es with
    | nil => exact ⟨0, by simp⟩
    | cons x xs ih =>
      obtain ⟨N, hN⟩ := ih fun e he => hes e (List.mem_cons_of_mem _ he)
      obtain ⟨N', hN'⟩ := C06_reach (hes x List.mem_cons_self).1 (hes x List.mem_cons_self).2 ht
      refine ⟨max N N', fun e he M hM => ?_⟩
      rcases List.mem_cons.1 he with rfl | h
      · exact hN' M (le_trans (le_max_right _ _) hM)
      · exact hN e h M (le_trans (le_max_left _ _) hM)
  obtain ⟨N, hN⟩ := hN
  refine ⟨N, fun T hT hx hTe hTn e he => ?_⟩
  have hmem := List.mem_of_mem_tail he
  obtain ⟨j, hj, hje⟩ := List.mem_iff_getElem.1 he
  have hi : T.e_range[j + 1]? = some e := by
    rw [hTe, ← hje, List.getElem_tail, ← List.getElem?_eq_getElem]
  have hlen : j + 1 < T.g_vals.length := by
    rw [hT.rows]; exact (List.getElem?_eq_some_iff.1 hi).1
  have hr := List.getElem?_eq_getElem hlen
  obtain ⟨H, hH, hor⟩ := C32_tolerance hT tol (by omega) hi hr
  have hHn : H ≤ T.n_max := by
    have := (C32_range hT tol e).2
    rw [hH] at this
    exact_mod_cast this
  refine ⟨H, hH, ?_⟩
  rw [(C06_sum (hes e hmem).1 (hes e hmem).2).tsum_eq]
  rcases hor with h | h
  · rwa [lumUpTo_exact hT hx hi hr hHn] at h
  · exact hN e hmem H (by omega)

/-- **C33** (what is neglected). At every point of the grid below the transition, treating the binary as circular
neglects at most the fraction `tol` of its power: all harmonics other than `n = 2` together carry no more than that. -/
theorem C33_neglected {tol e e' : ℝ} (h : find_eccentric_transition tol = .ok e)
    (he' : e' ∈ np.linspace 0.2 10000) (hlt : e' < e) :
    (∑' n : ℕ, if n = 1 then 0 else peters_g ((n : ℤ) + 1) e') ≤ tol * peters_f e' := by
  obtain ⟨k, hk⟩ := List.mem_iff_getElem?.1 he'
  rw [_root_.Legwork.linspace_get?] at hk
  split_ifs at hk with hkn
  have hk0 : (0 : ℝ) ≤ k := Nat.cast_nonneg k
  have hk1 : (k : ℝ) < 10000 := by exact_mod_cast hkn
  have hval : e' = k * (0.2 / ((10000 : ℕ) - 1 : ℝ)) := (Option.some.inj hk).symm
  have h0 : 0 ≤ e' := by rw [hval]; norm_num
  have h1 : e' < 1 := by rw [hval]; norm_num; linarith
  have hs := C06_sum h0 h1
  have h2 := (C33_first h).2.2 e' he' hlt
  have := hs.update 1 0
  have e1 : Function.update (fun n : ℕ => peters_g ((n : ℤ) + 1) e') 1 0 =
      fun n : ℕ => if n = 1 then 0 else peters_g ((n : ℤ) + 1) e' := by
    funext n
    simp [Function.update_apply]
  rw [e1] at this
  rw [this.tsum_eq]
  norm_num
  linarith

/-- `C33_neglected` applies with the default tolerance, for instance to a circular binary. -/
example : ∃ e, find_eccentric_transition 0.05 = .ok e ∧ (0 : ℝ) ∈ np.linspace 0.2 10000 ∧ 0 < e := by
  obtain ⟨e, he⟩ := find_eccentric_transition_default
  refine ⟨e, he, ?_, C33_pos (by norm_num) he⟩
  unfold np.linspace
  exact List.mem_map.2 ⟨0, by simp, by simp⟩

/-- The hypotheses of `C06_required` are satisfiable for every list of eccentricities: the exact table exists. -/
theorem C06_exact_table {es : List ℝ} (h1 : es.Pairwise (· < ·)) (h2 : 2 ≤ es.length) {N : ℕ} (hN : 2 ≤ N) :
    ∃ T : LumTable, ValidTable T ∧ ExactTable T ∧ T.e_range = es ∧ T.n_max = N := by
  refine ⟨⟨es, N, es.map fun e => (List.range N).map fun j : ℕ => peters_g ((j : ℤ) + 1) e⟩,
    ⟨h1, h2, by simp, by simp, hN⟩, ?_, rfl, rfl⟩
  intro i j e row he hr hj
  simp only at he hr hj
  rw [List.getElem?_map, he] at hr
  simp only [Option.map_some, Option.some.injEq] at hr
  rw [← hr, List.getElem?_map, List.getElem?_range hj]
  rfl

/-- A circular binary: one harmonic carries everything. -/
example : HasSum (fun n : ℕ => peters_g ((n : ℤ) + 1) 0) 1 := by
  have := C06_sum (e := 0) le_rfl (by norm_num)
  simpa [peters_f] using this

/-- An eccentric binary: `F(0.6) = (1 + 73/24·0.36 + 37/96·0.1296)/0.8⁷`. -/
example : HasSum (fun n : ℕ => peters_g ((n : ℤ) + 1) 0.6) ((1 + 73 / 24 * 0.36 + 37 / 96 * 0.1296) / 0.8 ^ 7) := by
  have := C06_sum (e := 0.6) (by norm_num) (by norm_num)
  have h : ((1 : ℝ) - 0.6 ^ 2) ^ (7 / 2 : ℝ) = 0.8 ^ 7 := by
    rw [show (1 : ℝ) - 0.6 ^ 2 = 0.8 ^ (2 : ℝ) by norm_num, ← rpow_mul (by norm_num),
      show (2 : ℝ) * (7 / 2) = (7 : ℕ) by norm_num, rpow_natCast]
  unfold peters_f at this
  rw [h] at this
  convert this using 1
  norm_num

/-- `C06_required` at three eccentricities with a tolerance of one per cent. -/
example : ∃ N, ∀ T : LumTable, ValidTable T → ExactTable T → T.e_range = [0, 0.5, 0.9] → N ≤ T.n_max →
    ∀ e ∈ [(0.5 : ℝ), 0.9], ∃ H : ℕ, harmonics_required T 0.01 e = H ∧
      (1 - 0.01) * (∑' n : ℕ, peters_g ((n : ℤ) + 1) e) ≤ powerUpTo H e :=
  C06_required (es := [0, 0.5, 0.9]) (by intro e he; fin_cases he <;> norm_num) (by norm_num)

end Legwork.Props
