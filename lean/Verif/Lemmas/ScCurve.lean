import Verif.Spec.ScCurve
import Verif.Lemmas.Interp
import Verif.Lemmas.Basic
import Mathlib.Analysis.SpecialFunctions.Log.Base

/-!
# The interpolated curve computed by `set_sc`
-/

namespace Legwork.source

open Legwork.Spec

theorem logb_2_gt : (-7 : ℝ) < Real.logb 10 2 := by
  have : 0 < Real.logb 10 2 := Real.logb_pos (by norm_num) (by norm_num)
  linarith

theorem scGrid_lt {i j : ℕ} (h : i < j) : scGrid i < scGrid j := by
  unfold scGrid
  rw [Real.rpow_lt_rpow_left_iff (by norm_num)]
  have h1 : (0 : ℝ) < (Real.logb 10 2 - (-7)) / 9999 := div_pos (by linarith [logb_2_gt]) (by norm_num)
  have h2 : (i : ℝ) < j := by exact_mod_cast h
  nlinarith

theorem scGrid_le {i j : ℕ} (h : i ≤ j) : scGrid i ≤ scGrid j := by
  rcases h.eq_or_lt with rfl | h
  · exact le_rfl
  · exact (scGrid_lt h).le

theorem scGrid_zero : scGrid 0 = 1e-7 := by
  unfold scGrid
  rw [Nat.cast_zero, zero_mul, add_zero, Real.rpow_neg (by norm_num)]
  have : (10 : ℝ) ^ (7 : ℝ) = 10 ^ (7 : ℕ) := by exact_mod_cast Real.rpow_natCast 10 7
  rw [this]
  norm_num

theorem scGrid_last : scGrid 9999 = 2 := by
  unfold scGrid
  have : (-7 : ℝ) + ((9999 : ℕ) : ℝ) * ((Real.logb 10 2 - (-7)) / 9999) = Real.logb 10 2 := by
    push_cast
    ring
  rw [this]
  exact Real.rpow_logb (by norm_num) (by norm_num) (by norm_num)

theorem frequency_range_eq : frequency_range = (List.range 10000).map scGrid := by
  unfold frequency_range logspace scGrid
  refine List.map_congr_left fun i _ => ?_
  norm_num

theorem frequency_range_length : frequency_range.length = 10000 := by
  rw [frequency_range_eq, List.length_map, List.length_range]

theorem frequency_range_get? {i : ℕ} (hi : i < 10000) : frequency_range[i]? = some (scGrid i) := by
  rw [frequency_range_eq, List.getElem?_map, List.getElem?_range hi, Option.map_some]

/-- The points of the interpolation. -/
theorem points_get? {sc : List (WithTop ℝ)} (hl : sc.length = 10000) {i : ℕ} (hi : i < 10000) :
    (frequency_range.zip sc)[i]? = some (scGrid i, sc[i]) := by
  rw [List.getElem?_zip_eq_some]
  exact ⟨frequency_range_get? hi, List.getElem?_eq_getElem _⟩

theorem points_increasing {sc : List (WithTop ℝ)} : np.Increasing (frequency_range.zip sc) := by
  unfold np.Increasing
  have h : (frequency_range.zip sc).Pairwise fun p q => p.1 < q.1 := by
    rw [List.pairwise_iff_getElem]
    intro i j hi hj hij
    rw [List.getElem_zip, List.getElem_zip]
    rw [List.length_zip, frequency_range_length] at hi hj
    have hi' : i < 10000 := by omega
    have hj' : j < 10000 := by omega
    have e1 : frequency_range[i]'(by rw [frequency_range_length]; exact hi') = scGrid i := by
      have := frequency_range_get? hi'
      rw [List.getElem?_eq_some_iff] at this
      exact this.2
    have e2 : frequency_range[j]'(by rw [frequency_range_length]; exact hj') = scGrid j := by
      have := frequency_range_get? hj'
      rw [List.getElem?_eq_some_iff] at this
      exact this.2
    simp only [e1, e2]
    exact scGrid_lt hij
  exact h

theorem sc_cell_left (x₀ : ℝ) (y₀ : WithTop ℝ) (x₁ : ℝ) (y₁ : WithTop ℝ) : sc_cell x₀ y₀ x₁ y₁ x₀ = y₀ := by
  unfold sc_cell
  rw [if_pos rfl]

theorem sc_cell_right {x₀ : ℝ} (y₀ : WithTop ℝ) {x₁ : ℝ} (y₁ : WithTop ℝ) (h : x₀ < x₁) :
    sc_cell x₀ y₀ x₁ y₁ x₁ = y₁ := by
  unfold sc_cell
  rw [if_neg h.ne', if_pos rfl]

theorem points_head {sc : List (WithTop ℝ)} (hl : sc.length = 10000) :
    (frequency_range.zip sc).head? = some (scGrid 0, sc[0]) := by
  rw [List.head?_eq_getElem?]
  exact points_get? hl (by norm_num)

theorem points_last {sc : List (WithTop ℝ)} (hl : sc.length = 10000) :
    (frequency_range.zip sc).getLast? = some (scGrid 9999, sc[9999]) := by
  have : (frequency_range.zip sc).length - 1 = 9999 := by rw [List.length_zip, frequency_range_length, hl]; rfl
  rw [List.getLast?_eq_getElem?, this]
  exact points_get? hl (by norm_num)

theorem interp_sc_eq {sc : List (WithTop ℝ)} (hl : sc.length = 10000) (x : ℝ) :
    interp_sc (frequency_range.zip sc) x = if x < scGrid 0 then ((1e30 : ℝ) : WithTop ℝ) else
      if scGrid 9999 < x then ((1e30 : ℝ) : WithTop ℝ)
      else np.interpWith ((1e30 : ℝ) : WithTop ℝ) sc_cell (frequency_range.zip sc) x := by
  unfold interp_sc
  rw [points_head hl, points_last hl]

theorem interp_sc_grid {sc : List (WithTop ℝ)} (hl : sc.length = 10000) {i : ℕ} (hi : i < 10000) :
    interp_sc (frequency_range.zip sc) (scGrid i) = sc[i] := by
  rw [interp_sc_eq hl, if_neg (not_lt.2 (scGrid_le (Nat.zero_le i))), if_neg (not_lt.2 (scGrid_le (by omega)))]
  exact np.interpWith_point (fun _ _ _ _ _ => sc_cell_left _ _ _ _) (fun _ _ _ _ h => sc_cell_right _ _ h)
    points_increasing (scGrid i, sc[i]) (List.mem_of_getElem? (points_get? hl hi))

theorem interp_sc_between {sc : List (WithTop ℝ)} (hl : sc.length = 10000) {i : ℕ} (hi : i < 9999) {x : ℝ}
    (h1 : scGrid i < x) (h2 : x < scGrid (i + 1)) :
    interp_sc (frequency_range.zip sc) x = sc_cell (scGrid i) sc[i] (scGrid (i + 1)) sc[i + 1] x := by
  have h3 : scGrid 0 ≤ x := (scGrid_le (Nat.zero_le i)).trans h1.le
  have h4 : x ≤ scGrid 9999 := h2.le.trans (scGrid_le (by omega))
  rw [interp_sc_eq hl, if_neg (not_lt.2 h3), if_neg (not_lt.2 h4)]
  obtain ⟨j, p, q, hp, hq, hpx, hxq, he⟩ := np.interpWith_cell (d := ((1e30 : ℝ) : WithTop ℝ)) (cell := sc_cell)
    (x := x) (pts := frequency_range.zip sc) (by rw [List.length_zip, frequency_range_length, hl]; norm_num)
    (by rw [points_head hl]; rintro p ⟨⟩; exact h3) (by rw [points_last hl]; rintro p ⟨⟩; exact h4)
  rw [he]
  have hj : j + 1 < 10000 := by
    by_contra hc
    rw [List.getElem?_eq_none (by rw [List.length_zip, frequency_range_length, hl]; omega)] at hq
    cases hq
  rw [points_get? hl (by omega)] at hp
  rw [points_get? hl hj] at hq
  cases hp
  cases hq
  have hji : j = i := by
    rcases lt_trichotomy j i with h | h | h
    · have : scGrid (j + 1) ≤ scGrid i := scGrid_le h
      have := hxq
      linarith
    · exact h
    · have : scGrid (i + 1) ≤ scGrid j := scGrid_le h
      have := hpx
      linarith
  subst hji
  rfl

/-- Every frequency on the range is on the grid or between two neighbours. -/
theorem scGrid_locate {x : ℝ} (h1 : scGrid 0 ≤ x) (h2 : x ≤ scGrid 9999) :
    (∃ i < 10000, x = scGrid i) ∨ ∃ i < 9999, scGrid i < x ∧ x < scGrid (i + 1) := by
  have key : ∀ n : ℕ, x ≤ scGrid n → (∃ i ≤ n, x = scGrid i) ∨ ∃ i < n, scGrid i < x ∧ x < scGrid (i + 1) := by
    intro n
    induction n with
    | zero => intro h; exact Or.inl ⟨0, le_rfl, le_antisymm h h1⟩
    | succ n ih =>
      intro h
      by_cases hn : x ≤ scGrid n
      · rcases ih hn with ⟨i, hi, he⟩ | ⟨i, hi, he⟩
        · exact Or.inl ⟨i, by omega, he⟩
        · exact Or.inr ⟨i, by omega, he⟩
      · rw [not_le] at hn
        rcases h.eq_or_lt with h | h
        · exact Or.inl ⟨n + 1, le_rfl, h⟩
        · exact Or.inr ⟨n, Nat.lt_succ_self n, hn, h⟩
  rcases key 9999 h2 with ⟨i, hi, he⟩ | h
  · exact Or.inl ⟨i, by omega, he⟩
  · exact Or.inr h

theorem sc_cell_real {x₀ x₁ x : ℝ} (h1 : x₀ < x) (h2 : x < x₁) (a b : ℝ) :
    sc_cell x₀ a x₁ b x = (a + (b - a) * ((x - x₀) / (x₁ - x₀)) : ℝ) := by
  unfold sc_cell
  rw [if_neg h1.ne', if_neg h2.ne]
  simp only
  congr 1
  unfold np.line
  ring

theorem sc_cell_top {x₀ x₁ x : ℝ} (h1 : x₀ < x) (h2 : x < x₁) {a b : WithTop ℝ} (h : a = ⊤ ∨ b = ⊤) :
    sc_cell x₀ a x₁ b x = ⊤ := by
  unfold sc_cell
  rw [if_neg h1.ne', if_neg h2.ne]
  rcases h with rfl | rfl
  · rfl
  · cases a <;> rfl

theorem curve_ok {W : World} {d : Dict} {c : ℝ → WithTop ℝ} (h : curve W d = .ok c) : CurveOf W d c := by
  unfold curve at h
  rcases hm : (frequency_range.mapM fun f => psd_of_dict W d f) with e | sc
  · rw [hm] at h
    cases h
  rw [hm] at h
  simp only [bind, Except.bind, pure, Except.pure, Except.ok.injEq] at h
  rw [mapM_except_ok_iff] at hm
  have hl : sc.length = 10000 := by rw [← hm.length_eq, frequency_range_length]
  subst h
  have hgrid : ∀ i (hi : i < 10000), psd_of_dict W d (scGrid i) = .ok sc[i] := by
    intro i hi
    rw [List.forall₂_iff_get] at hm
    have := hm.2 i (by rw [frequency_range_length]; exact hi) (by rw [hl]; exact hi)
    have e : frequency_range.get ⟨i, by rw [frequency_range_length]; exact hi⟩ = scGrid i := by
      have := frequency_range_get? hi
      rw [List.getElem?_eq_some_iff] at this
      exact this.2
    rw [e] at this
    exact this
  refine ⟨?_, ?_, ?_, ?_⟩
  · intro i hi
    rw [interp_sc_grid hl hi]
    exact hgrid i hi
  · intro i hi f h1 h2 a b ha hb
    rw [interp_sc_grid hl (by omega)] at ha hb
    rw [interp_sc_between hl hi h1 h2, ha, hb]
    exact sc_cell_real h1 h2 a b
  · intro i hi f h1 h2 ht
    rw [interp_sc_grid hl (by omega), interp_sc_grid hl (by omega)] at ht
    rw [interp_sc_between hl hi h1 h2]
    exact sc_cell_top h1 h2 ht
  · intro f hf
    rw [interp_sc_eq hl, scGrid_zero, scGrid_last]
    rcases hf with hf | hf
    · rw [if_pos hf]
    · rw [if_neg (not_lt.2 (by norm_num; linarith)), if_pos hf]

/-- The interpolation is unique. -/
theorem curveOf_unique {W : World} {d : Dict} {c c' : ℝ → WithTop ℝ} (h : CurveOf W d c) (h' : CurveOf W d c') :
    c = c' := by
  have hg : ∀ i < 10000, c (scGrid i) = c' (scGrid i) := by
    intro i hi
    have := (h.on_grid i hi).symm.trans (h'.on_grid i hi)
    exact Except.ok.inj this
  funext f
  by_cases h1 : f < 1e-7
  · rw [h.outside f (Or.inl h1), h'.outside f (Or.inl h1)]
  by_cases h2 : 2 < f
  · rw [h.outside f (Or.inr h2), h'.outside f (Or.inr h2)]
  rw [not_lt] at h1 h2
  rcases scGrid_locate (x := f) (by rw [scGrid_zero]; exact h1) (by rw [scGrid_last]; exact h2) with ⟨i, hi, rfl⟩ | ⟨i, hi, ha, hb⟩
  · exact hg i hi
  · rcases hca : c (scGrid i) with _ | a
    · rw [h.infinite i hi f ha hb (Or.inl hca), h'.infinite i hi f ha hb (Or.inl ((hg i (by omega)).symm.trans hca))]
    · rcases hcb : c (scGrid (i + 1)) with _ | b
      · rw [h.infinite i hi f ha hb (Or.inr hcb),
          h'.infinite i hi f ha hb (Or.inr ((hg (i + 1) (by omega)).symm.trans hcb))]
      · rw [h.chord i hi f ha hb a b hca hcb, h'.chord i hi f ha hb a b ((hg i (by omega)).symm.trans hca)
          ((hg (i + 1) (by omega)).symm.trans hcb)]

theorem curve_ok_iff {W : World} {d : Dict} {c : ℝ → WithTop ℝ} : curve W d = .ok c ↔ CurveOf W d c := by
  refine ⟨curve_ok, fun h => ?_⟩
  rcases hc : curve W d with e | c'
  · exfalso
    unfold curve at hc
    have : ∃ sc, (frequency_range.mapM fun f => psd_of_dict W d f) = .ok sc := by
      refine ⟨frequency_range.map c, ?_⟩
      rw [mapM_except_ok_iff, List.forall₂_map_right_iff, List.forall₂_same]
      intro f hf
      rw [frequency_range_eq, List.mem_map] at hf
      obtain ⟨i, hi, rfl⟩ := hf
      exact h.on_grid i (List.mem_range.1 hi)
    obtain ⟨sc, hsc⟩ := this
    rw [hsc] at hc
    cases hc
  · rw [curveOf_unique h (curve_ok hc)]

/-- The curve exists exactly when the PSD can be evaluated on the grid. -/
theorem curve_exists_iff {W : World} {d : Dict} :
    (∃ c, curve W d = .ok c) ↔ ∀ i < 10000, ∃ y, psd_of_dict W d (scGrid i) = .ok y := by
  constructor
  · rintro ⟨c, hc⟩ i hi
    exact ⟨_, (curve_ok hc).on_grid i hi⟩
  · intro h
    choose! y hy using h
    unfold curve
    have : (frequency_range.mapM fun f => psd_of_dict W d f) = .ok ((List.range 10000).map y) := by
      rw [mapM_except_ok_iff, frequency_range_eq, List.forall₂_map_left_iff, List.forall₂_map_right_iff,
        List.forall₂_same]
      intro i hi
      exact hy i (List.mem_range.1 hi)
    rw [this]
    exact ⟨_, rfl⟩

end Legwork.source
