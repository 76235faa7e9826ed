import Mathlib.Tactic.IntervalCases
import Mathlib.Analysis.SpecialFunctions.Pow.Real
import Verif.Lemmas.Harmonics
import Verif.Lemmas.Grid
import Verif.Props.PetersG
import Verif.Props.Utils

/-!
# Harmonics required, eccentric transition and harmonic groups: C32, C33, C34, C66
-/

namespace Legwork.Props

open Real Legwork.source Legwork.Spec Legwork.utils Legwork.np

private lemma points_increasing {T : LumTable} (hT : ValidTable T) {β : Type} (ys : List β) :
    Increasing (T.e_range.zip ys) := by
  have := hT.increasing
  generalize T.e_range = xs at this
  unfold Increasing
  induction xs generalizing ys with
  | nil => simp
  | cons x xs ih =>
    cases ys with
    | nil => simp
    | cons y ys =>
      rw [List.zip_cons_cons, List.pairwise_cons]
      refine ⟨?_, ih _ (List.pairwise_cons.1 this).2⟩
      intro p hp
      exact (List.pairwise_cons.1 this).1 p.1 (List.of_mem_zip hp).1

private lemma points_sorted {xs : List ℝ} {ns : List ℕ} (h : ns.Pairwise (· ≤ ·)) :
    (xs.zip (ns.map fun h : ℕ => (h : ℝ))).Pairwise fun p q => p.2 ≤ q.2 := by
  induction xs generalizing ns with
  | nil => simp
  | cons x xs ih =>
    cases ns with
    | nil => simp
    | cons n ns =>
      rw [List.map_cons, List.zip_cons_cons, List.pairwise_cons]
      refine ⟨?_, ih (List.pairwise_cons.1 h).2⟩
      intro p hp
      obtain ⟨m, hm, e⟩ := List.mem_map.1 (List.of_mem_zip hp).2
      rw [← e]
      change (n : ℝ) ≤ m
      exact_mod_cast (List.pairwise_cons.1 h).1 m hm

/-- At a tabulated eccentricity the interpolation returns the tabulated number of harmonics. -/
private lemma required_at {T : LumTable} (hT : ValidTable T) (tol : ℝ) {i : ℕ} {e : ℝ} {h : ℕ}
    (he : T.e_range[i]? = some e) (hh : (harmonics_needed T tol)[i]? = some h) :
    harmonics_required T tol e = h := by
  unfold harmonics_required
  simp only
  have hp : (e, (h : ℝ)) ∈ T.e_range.zip ((harmonics_needed T tol).map fun h : ℕ => (h : ℝ)) := by
    apply List.mem_of_getElem? (i := i)
    rw [List.getElem?_zip_eq_some]
    exact ⟨he, by rw [List.getElem?_map, hh]; rfl⟩
  rw [interp1d_point (points_increasing hT _) hp]
  exact Int.ceil_natCast h

/-- **C32** (tolerance). At every tabulated eccentricity after the first, the harmonics `1..harmonics_required(e)`
carry at least `(1 - gw_lum_tol)` of the luminosity `F(e)`, or every tabulated harmonic is used. -/
theorem C32_tolerance {T : LumTable} (hT : ValidTable T) (tol : ℝ) {i : ℕ} (hi : 1 ≤ i) {e : ℝ} {row : List ℝ}
    (he : T.e_range[i]? = some e) (hr : T.g_vals[i]? = some row) :
    ∃ H : ℕ, harmonics_required T tol e = H ∧
      ((1 - tol) * peters_f e ≤ lumUpTo row H ∨ H = T.n_max) := by
  obtain ⟨h1, h2, h3, h4, h5⟩ := needed_spec hT tol
  obtain ⟨j, rfl⟩ := Nat.exists_eq_add_of_le' hi
  have hlen : j + 1 < T.e_range.length := (List.getElem?_eq_some_iff.1 he).1
  have hq := List.getElem?_eq_getElem (l := harmonics_needed T tol) (i := j) (by omega)
  have hh := List.getElem?_eq_getElem (l := harmonics_needed T tol) (i := j + 1) (by omega)
  obtain ⟨hqn, heq⟩ := h5 j e row _ _ he hr hq hh
  refine ⟨_, required_at hT tol he hh, ?_⟩
  rw [heq]
  exact (step_spec tol (hT.columns row (List.mem_of_getElem? hr)) hqn).2.2.1

/-- **C32** (no more than needed). At every tabulated eccentricity after the first, no number of harmonics below
`harmonics_required(e)`, and not below what the previous eccentricity needs, is within the tolerance. -/
theorem C32_minimal {T : LumTable} (hT : ValidTable T) (tol : ℝ) {i : ℕ} {e e' : ℝ} {row : List ℝ}
    (he : T.e_range[i]? = some e) (he' : T.e_range[i + 1]? = some e') (hr : T.g_vals[i + 1]? = some row) {k : ℕ}
    (h1 : harmonics_required T tol e ≤ k) (h2 : (k : ℤ) < harmonics_required T tol e') :
    lumUpTo row k < (1 - tol) * peters_f e' := by
  obtain ⟨g1, g2, g3, g4, g5⟩ := needed_spec hT tol
  have hlen : i + 1 < T.e_range.length := (List.getElem?_eq_some_iff.1 he').1
  have hq := List.getElem?_eq_getElem (l := harmonics_needed T tol) (i := i) (by omega)
  have hh := List.getElem?_eq_getElem (l := harmonics_needed T tol) (i := i + 1) (by omega)
  obtain ⟨hqn, heq⟩ := g5 i e' row _ _ he' hr hq hh
  rw [required_at hT tol he hq] at h1
  rw [required_at hT tol he' hh, heq] at h2
  exact (step_spec tol (hT.columns row (List.mem_of_getElem? hr)) hqn).2.2.2 k (by exact_mod_cast h1)
    (by exact_mod_cast h2)

/-- **C32** (circular). At the first tabulated eccentricity, and anywhere below it, two harmonics are used. -/
theorem C32_first {T : LumTable} (hT : ValidTable T) (tol : ℝ) {e₀ e : ℝ} (he : T.e_range[0]? = some e₀)
    (hle : e ≤ e₀) : harmonics_required T tol e = 2 := by
  obtain ⟨g1, g2, g3, g4, g5⟩ := needed_spec hT tol
  rcases hle.eq_or_lt with rfl | hlt
  · exact_mod_cast required_at hT tol he g4
  · unfold harmonics_required np.interp1d
    simp only
    rcases hz : T.e_range.zip ((harmonics_needed T tol).map fun h : ℕ => (h : ℝ)) with _ | ⟨p, ps⟩
    · simp
    · have hne : p :: ps ≠ [] := by simp
      have hp : p.1 = e₀ := by
        have h := (List.getElem?_zip_eq_some (l₁ := T.e_range)
          (l₂ := (harmonics_needed T tol).map fun h : ℕ => (h : ℝ)) (i := 0) (z := p)).1 (by rw [hz]; rfl)
        rw [he] at h
        exact (Option.some.inj h.1).symm
      rw [List.head?_cons, List.getLast?_eq_getLast_of_ne_nil hne]
      simp only
      rw [if_pos (by rw [hp]; exact hlt)]
      simp

/-- **C32** (monotone). `harmonics_required` never decreases with eccentricity, over all real arguments. -/
theorem C32_monotone {T : LumTable} (hT : ValidTable T) (tol : ℝ) : Monotone (harmonics_required T tol) := by
  obtain ⟨h1, h2, h3, h4, h5⟩ := needed_spec hT tol
  obtain ⟨m1, m2⟩ := maxNat_spec (harmonics_needed T tol)
  have hpt : ∀ p ∈ T.e_range.zip ((harmonics_needed T tol).map fun h : ℕ => (h : ℝ)),
      ∃ h ∈ harmonics_needed T tol, p.2 = (h : ℝ) := by
    intro p hp
    obtain ⟨h, hh, e⟩ := List.mem_map.1 (List.of_mem_zip hp).2
    exact ⟨h, hh, e.symm⟩
  intro x y hxy
  apply Int.ceil_mono
  refine interp1d_mono (points_increasing hT _) (points_sorted h2) ?_ ?_ ?_ hxy
  · intro p hp
    obtain ⟨h, hh, e⟩ := hpt p hp
    rw [e]
    exact_mod_cast (h3 h hh).1
  · intro p hp
    obtain ⟨h, hh, e⟩ := hpt p hp
    rw [e]
    exact_mod_cast m1 h hh
  · have := m1 2 (List.mem_of_getElem? h4)
    exact_mod_cast this

/-- **C32** (range). Between 2 and the number of tabulated harmonics, for every real eccentricity. -/
theorem C32_range {T : LumTable} (hT : ValidTable T) (tol e : ℝ) :
    2 ≤ harmonics_required T tol e ∧ harmonics_required T tol e ≤ T.n_max := by
  obtain ⟨h1, h2, h3, h4, h5⟩ := needed_spec hT tol
  obtain ⟨m1, m2⟩ := maxNat_spec (harmonics_needed T tol)
  have htwo := hT.two_rows
  have he0 := List.getElem?_eq_getElem (l := T.e_range) (i := 0) (by omega)
  have hmono := C32_monotone hT tol
  constructor
  · rcases le_total e (T.e_range[0]'(by omega)) with h | h
    · exact (C32_first hT tol he0 h).ge
    · exact (C32_first hT tol he0 le_rfl).ge.trans (hmono h)
  · have hmax : maxNat (harmonics_needed T tol) ≤ T.n_max := by
      rcases m2 with h | h
      · omega
      · exact (h3 _ h).2
    have hlast := List.getElem?_eq_getElem (l := T.e_range) (i := T.e_range.length - 1) (by omega)
    have hlast' := List.getElem?_eq_getElem (l := harmonics_needed T tol) (i := T.e_range.length - 1) (by omega)
    rcases le_or_gt e (T.e_range[T.e_range.length - 1]'(by omega)) with h | h
    · refine (hmono h).trans ?_
      rw [required_at hT tol hlast hlast']
      exact_mod_cast (h3 _ (List.getElem_mem _)).2
    · unfold harmonics_required np.interp1d
      simp only
      have hz : (T.e_range.zip ((harmonics_needed T tol).map fun h : ℕ => (h : ℝ))).length = T.e_range.length := by
        simp [h1]
      have hl : (T.e_range.zip ((harmonics_needed T tol).map fun h : ℕ => (h : ℝ))).getLast? =
          some (T.e_range[T.e_range.length - 1]'(by omega), (((harmonics_needed T tol)[T.e_range.length - 1]'(by omega) : ℕ) : ℝ)) := by
        rw [List.getLast?_eq_getElem?, hz, List.getElem?_zip_eq_some]
        exact ⟨hlast, by rw [List.getElem?_map, hlast']; rfl⟩
      have hhd : (T.e_range.zip ((harmonics_needed T tol).map fun h : ℕ => (h : ℝ))).head? =
          some (T.e_range[0]'(by omega), (2 : ℝ)) := by
        rw [List.head?_eq_getElem?, List.getElem?_zip_eq_some]
        exact ⟨he0, by rw [List.getElem?_map, h4]; norm_num⟩
      rw [hl, hhd]
      simp only
      have h0 : T.e_range[0]'(by omega) ≤ T.e_range[T.e_range.length - 1]'(by omega) := by
        apply le_of_lt
        exact List.pairwise_iff_getElem.1 hT.increasing 0 (T.e_range.length - 1) (by omega) (by omega) (by omega)
      rw [if_neg (by linarith), if_pos h, Int.ceil_natCast]
      exact_mod_cast hmax

/-- A valid table: three eccentricities and two harmonics. -/
example : ValidTable ⟨[0, 0.5, 0.9], 2, [[0, 1], [1, 2], [10, 20]]⟩ :=
  ⟨by norm_num, by norm_num, rfl, by simp, le_rfl⟩

/-- **C33.** If the transition is found, it is a point of the grid `linspace(0, 0.2, 10000)`, the `n = 2` harmonic is
outside the tolerance there, and inside it at every smaller grid point. -/
theorem C33_first {tol e : ℝ} (h : find_eccentric_transition tol = .ok e) :
    e ∈ np.linspace 0.2 10000 ∧ peters_g 2 e < (1 - tol) * peters_f e ∧
      ∀ e' ∈ np.linspace 0.2 10000, e' < e → (1 - tol) * peters_f e' ≤ peters_g 2 e' := by
  classical
  unfold find_eccentric_transition at h
  simp only at h
  have hsorted := (linspace_mono (by norm_num : (0 : ℝ) < 0.2) 10000)
  generalize hl : np.linspace 0.2 10000 = l at *
  split at h
  · cases h
  · rename_i x xs hf
    simp only [pure, Except.pure, Except.ok.injEq] at h
    subst h
    have hmem : x ∈ l.filter fun e => decide (peters_g 2 e < (1 - tol) * peters_f e) := by rw [hf]; simp
    rw [List.mem_filter] at hmem
    refine ⟨hmem.1, by simpa using hmem.2, ?_⟩
    intro e' he' hlt
    by_contra hc
    rw [not_le] at hc
    have : e' ∈ l.filter fun e => decide (peters_g 2 e < (1 - tol) * peters_f e) := by
      rw [List.mem_filter]; exact ⟨he', by simpa using hc⟩
    have hs : (l.filter fun e => decide (peters_g 2 e < (1 - tol) * peters_f e)).Pairwise (· < ·) := hsorted.filter _
    rw [hf] at this hs
    rcases List.mem_cons.1 this with rfl | h
    · exact lt_irrefl _ hlt
    · exact absurd ((List.pairwise_cons.1 hs).1 e' h) (not_lt.2 hlt.le)

/-- The transition is found exactly when some grid point is outside the tolerance; otherwise the result is an
`IndexError`. -/
theorem C33_found_iff (tol : ℝ) :
    ((∃ e, find_eccentric_transition tol = .ok e) ↔
      ∃ e ∈ np.linspace 0.2 10000, peters_g 2 e < (1 - tol) * peters_f e) ∧
    ((¬ ∃ e, find_eccentric_transition tol = .ok e) → find_eccentric_transition tol = .error .IndexError) := by
  classical
  unfold find_eccentric_transition
  simp only
  generalize np.linspace 0.2 10000 = l
  rcases hf : l.filter fun e => decide (peters_g 2 e < (1 - tol) * peters_f e) with _ | ⟨x, xs⟩
  · rw [List.filter_eq_nil_iff] at hf
    simp only [decide_eq_true_eq] at hf
    refine ⟨⟨?_, ?_⟩, fun _ => rfl⟩
    · rintro ⟨e, he⟩; cases he
    · rintro ⟨e, he, h⟩; exact absurd h (hf e he)
  · have hmem : x ∈ l.filter fun e => decide (peters_g 2 e < (1 - tol) * peters_f e) := by rw [hf]; simp
    rw [List.mem_filter] at hmem
    exact ⟨⟨fun _ => ⟨x, hmem.1, by simpa using hmem.2⟩, fun _ => ⟨x, rfl⟩⟩, fun h => absurd ⟨x, rfl⟩ h⟩

/-- **C33** (monotone). A tighter tolerance never raises the transition. -/
theorem C33_mono {tol tol' e e' : ℝ} (htol : tol ≤ tol') (h : find_eccentric_transition tol = .ok e)
    (h' : find_eccentric_transition tol' = .ok e') : e ≤ e' := by
  obtain ⟨-, -, h3⟩ := C33_first h
  obtain ⟨h1', h2', -⟩ := C33_first h'
  by_contra hc
  rw [not_le] at hc
  have h4 := h3 e' h1' hc
  have hpos : 0 ≤ peters_f e' := by
    have hm : (0 : ℝ) ≤ e' ∧ e' < 1 := by
      unfold np.linspace at h1'
      obtain ⟨k, hk, rfl⟩ := List.mem_map.1 h1'
      rw [List.mem_range] at hk
      have hk' : (k : ℝ) ≤ 9999 := by exact_mod_cast (by omega : k ≤ 9999)
      constructor
      · norm_num
      · norm_num
        linarith
    exact zero_le_one.trans (C04_one_le hm.1 hm.2)
  nlinarith

/-- **C33** (positive). For a non-negative tolerance the transition is positive, so exactly circular sources are
always circular. -/
theorem C33_pos {tol e : ℝ} (htol : 0 ≤ tol) (h : find_eccentric_transition tol = .ok e) : 0 < e := by
  obtain ⟨h1, h2, -⟩ := C33_first h
  have h0 : 0 ≤ e := by
    unfold np.linspace at h1
    obtain ⟨k, hk, rfl⟩ := List.mem_map.1 h1
    norm_num
  rcases h0.eq_or_lt with rfl | h0
  · exfalso
    rw [C05_circular (by norm_num), C04_zero] at h2
    simp at h2
    linarith
  · exact h0

/-- With a tolerance of 1 or more nothing is ever outside it, and constructing sources fails with `IndexError`. -/
theorem C33_large_tolerance {tol : ℝ} (htol : 1 ≤ tol) : find_eccentric_transition tol = .error .IndexError := by
  apply (C33_found_iff tol).2
  rw [(C33_found_iff tol).1]
  rintro ⟨e, he, h⟩
  have hm : (0 : ℝ) ≤ e ∧ e < 1 := by
    unfold np.linspace at he
    obtain ⟨k, hk, rfl⟩ := List.mem_map.1 he
    rw [List.mem_range] at hk
    have hk' : (k : ℝ) ≤ 9999 := by exact_mod_cast (by omega : k ≤ 9999)
    constructor
    · norm_num
    · norm_num
      linarith
  have h1 := C05_nonneg 2 hm.1 hm.2.le
  have h2 := C04_one_le hm.1 hm.2
  nlinarith

/-- The hypothesis of C33 is met: at zero tolerance some grid point is outside it. (With `tol = -1`, already the
circular one.) -/
example : find_eccentric_transition (-1) = .ok 0 := by
  obtain ⟨e, he⟩ := (C33_found_iff (-1)).1.2 ⟨0, by
    unfold np.linspace
    exact List.mem_map.2 ⟨0, by simp, by simp⟩, by
    rw [C05_circular (by norm_num), C04_zero]; norm_num⟩
  obtain ⟨h1, -, h3⟩ := C33_first he
  have h0 : 0 ≤ e := by
    unfold np.linspace at h1
    obtain ⟨k, hk, rfl⟩ := List.mem_map.1 h1
    norm_num
  rcases h0.eq_or_lt with rfl | h0
  · exact he
  · have := h3 0 (by unfold np.linspace; exact List.mem_map.2 ⟨0, by simp, by simp⟩) h0
    rw [C05_circular (by norm_num), C04_zero] at this
    norm_num at this

/-- **C34.** A requirement between 2 and 10000 harmonics falls in exactly one harmonic group, and that group computes
at least that many harmonics. -/
theorem C34_exactly_one {h : ℤ} (h1 : 2 ≤ h) (h2 : h ≤ 10000) :
    ∃ g ∈ harmonic_groups, in_group h g = true ∧ h ≤ g.2 ∧ ∀ g' ∈ harmonic_groups, in_group h g' = true → g' = g := by
  unfold harmonic_groups in_group
  simp only [List.mem_cons, List.not_mem_nil, or_false, Bool.and_eq_true, decide_eq_true_eq]
  rcases le_or_gt h 10 with ha | ha
  · refine ⟨(1, 10), by simp, ⟨by norm_num; omega, by norm_num; omega⟩, by norm_num; omega, ?_⟩
    rintro g' (rfl | rfl | rfl | rfl) ⟨h3, h4⟩ <;> norm_num at h3 h4 <;> first | rfl | omega
  rcases le_or_gt h 100 with hb | hb
  · refine ⟨(10, 100), by simp, ⟨by norm_num; omega, by norm_num; omega⟩, by norm_num; omega, ?_⟩
    rintro g' (rfl | rfl | rfl | rfl) ⟨h3, h4⟩ <;> norm_num at h3 h4 <;> first | rfl | omega
  rcases le_or_gt h 1000 with hc | hc
  · refine ⟨(100, 1000), by simp, ⟨by norm_num; omega, by norm_num; omega⟩, by norm_num; omega, ?_⟩
    rintro g' (rfl | rfl | rfl | rfl) ⟨h3, h4⟩ <;> norm_num at h3 h4 <;> first | rfl | omega
  · refine ⟨(1000, 10000), by simp, ⟨by norm_num; omega, by norm_num; omega⟩, by norm_num; omega, ?_⟩
    rintro g' (rfl | rfl | rfl | rfl) ⟨h3, h4⟩ <;> norm_num at h3 h4 <;> first | rfl | omega

/-- Outside 2..10000 no group is used (such a source would keep SNR 0). -/
theorem C34_outside {h : ℤ} (hh : h < 2 ∨ 10000 < h) : ∀ g ∈ harmonic_groups, in_group h g = false := by
  unfold harmonic_groups in_group
  simp only [List.mem_cons, List.not_mem_nil, or_false, Bool.and_eq_false_iff, decide_eq_false_iff_not]
  rintro g (rfl | rfl | rfl | rfl) <;> norm_num <;> omega

/-- With a table of at most 10000 harmonics every source, whatever its eccentricity, has its group. -/
theorem C34_every_source {T : LumTable} (hT : ValidTable T) (hn : T.n_max ≤ 10000) (tol e : ℝ) :
    ∃ g ∈ harmonic_groups, in_group (harmonics_required T tol e) g = true ∧ harmonics_required T tol e ≤ g.2 ∧
      ∀ g' ∈ harmonic_groups, in_group (harmonics_required T tol e) g' = true → g' = g := by
  obtain ⟨h1, h2⟩ := C32_range hT tol e
  exact C34_exactly_one h1 (h2.trans (by exact_mod_cast hn))

private lemma rowArgmax_spec : ∀ {row : List ℝ}, row ≠ [] → ∃ v, row[rowArgmax row]? = some v ∧ (∀ w ∈ row, w ≤ v) ∧
    ∀ j w, j < rowArgmax row → row[j]? = some w → w < v
  | [], h => absurd rfl h
  | x :: xs, _ => by
    rcases xs with _ | ⟨y, ys⟩
    · exact ⟨x, by simp [rowArgmax], by simp, by simp [rowArgmax]⟩
    · obtain ⟨v, h1, h2, h3⟩ := rowArgmax_spec (row := y :: ys) (by simp)
      have he : rowArgmax (x :: y :: ys) = if x < v then rowArgmax (y :: ys) + 1 else 0 := by
        rw [rowArgmax, h1]
      rw [he]
      split_ifs with hx
      · refine ⟨v, by simpa using h1, ?_, ?_⟩
        · intro w hw
          rcases List.mem_cons.1 hw with rfl | hw
          · exact hx.le
          · exact h2 w hw
        · intro j w hj hw
          rcases j with _ | j
          · simp at hw; rw [← hw]; exact hx
          · exact h3 j w (by omega) (by simpa using hw)
      · refine ⟨x, by simp, ?_, by intro j w hj; omega⟩
        intro w hw
        rcases List.mem_cons.1 hw with rfl | hw
        · exact le_rfl
        · exact (h2 w hw).trans (not_lt.1 hx)

private lemma npRound_natCast (n : ℕ) : npRound (n : ℝ) = n := by
  unfold npRound
  rw [if_pos (by rw [Int.floor_natCast]; norm_num), Int.floor_natCast]

/-- **C66.** At every tabulated eccentricity `max_strain_harmonic` is the first harmonic of largest tabulated
luminosity: no tabulated harmonic has a larger one, every lower harmonic has a smaller one. -/
theorem C66_on_table {T : LumTable} (hT : ValidTable T) (tol : ℝ) {i : ℕ} {e : ℝ} {row : List ℝ}
    (he : T.e_range[i]? = some e) (hr : T.g_vals[i]? = some row) :
    ∃ m : ℕ, 1 ≤ m ∧ m ≤ T.n_max ∧ max_strain_harmonic T tol e = m ∧
      ∃ v, row[m - 1]? = some v ∧ (∀ w ∈ row, w ≤ v) ∧ ∀ n w, n < m → 1 ≤ n → row[n - 1]? = some w → w < v := by
  have hlen := hT.columns row (List.mem_of_getElem? hr)
  have h2 := hT.two_columns
  obtain ⟨v, h1, h3, h4⟩ := rowArgmax_spec (row := row) (by rintro rfl; simp at hlen; omega)
  refine ⟨rowArgmax row + 1, by omega, ?_, ?_, v, by simpa using h1, h3, ?_⟩
  · have := (List.getElem?_eq_some_iff.1 h1).1
    omega
  · unfold max_strain_harmonic max_strain_interp
    have hp : (e, ((rowArgmax row + 1 : ℕ) : ℝ)) ∈
        T.e_range.zip (T.g_vals.map fun row => ((rowArgmax row + 1 : ℕ) : ℝ)) := by
      apply List.mem_of_getElem? (i := i)
      rw [List.getElem?_zip_eq_some]
      exact ⟨he, by rw [List.getElem?_map, hr]; rfl⟩
    rw [interp1d_point (points_increasing hT _) hp]
    exact npRound_natCast _
  · intro n w hn h1n hw
    exact h4 (n - 1) w (by omega) hw

/-- **C66** (negation above the table). Above the largest tabulated eccentricity the value returned is the largest
number of *required* harmonics, whatever the harmonic of largest luminosity is. -/
theorem C66_above_table {T : LumTable} (hT : ValidTable T) (tol : ℝ) {e₁ e : ℝ} (he₁ : T.e_range.getLast? = some e₁)
    (he : e₁ < e) : max_strain_harmonic T tol e = harmonics_required T tol e ∧
      ∀ e' ∈ T.e_range, harmonics_required T tol e' ≤ max_strain_harmonic T tol e := by
  have hrows := hT.rows
  have htwo := hT.two_rows
  obtain ⟨g1, g2, g3, g4, g5⟩ := needed_spec hT tol
  have key : ∀ ys : List ℝ, ys.length = T.e_range.length → ∀ b a, np.interp1d (T.e_range.zip ys) b a e = a := by
    intro ys hys b a
    have hz : (T.e_range.zip ys).length = T.e_range.length := by simp [hys]
    have hlast := List.getElem?_eq_getElem (l := T.e_range) (i := T.e_range.length - 1) (by omega)
    rw [List.getLast?_eq_getElem?, hlast] at he₁
    have h0 : T.e_range[0]'(by omega) ≤ T.e_range[T.e_range.length - 1]'(by omega) := by
      apply le_of_lt
      exact List.pairwise_iff_getElem.1 hT.increasing 0 (T.e_range.length - 1) (by omega) (by omega) (by omega)
    have hl : (T.e_range.zip ys).getLast? = some (e₁, ys[T.e_range.length - 1]'(by omega)) := by
      rw [List.getLast?_eq_getElem?, hz, List.getElem?_zip_eq_some]
      exact ⟨by rw [hlast]; exact he₁, List.getElem?_eq_getElem _⟩
    have hhd : (T.e_range.zip ys).head? = some (T.e_range[0]'(by omega), ys[0]'(by omega)) := by
      rw [List.head?_eq_getElem?, List.getElem?_zip_eq_some]
      exact ⟨List.getElem?_eq_getElem _, List.getElem?_eq_getElem _⟩
    unfold np.interp1d
    rw [hl, hhd]
    simp only
    rw [Option.some.inj he₁] at h0
    rw [if_neg (by linarith), if_pos he]
  have hm : max_strain_harmonic T tol e = maxNat (harmonics_needed T tol) := by
    unfold max_strain_harmonic max_strain_interp
    rw [key _ (by simp [hrows])]
    exact npRound_natCast _
  have hr : harmonics_required T tol e = maxNat (harmonics_needed T tol) := by
    unfold harmonics_required
    simp only
    rw [key _ (by simp [g1])]
    exact Int.ceil_natCast _
  refine ⟨by rw [hm, hr], ?_⟩
  intro e' he'
  rw [hm, ← hr]
  apply C32_monotone hT tol
  obtain ⟨j, hj, rfl⟩ := List.mem_iff_getElem.1 he'
  rw [List.getLast?_eq_getElem?] at he₁
  obtain ⟨hlt, rfl⟩ := List.getElem?_eq_some_iff.1 he₁
  refine le_trans ?_ he.le
  rcases (show j ≤ T.e_range.length - 1 by omega).eq_or_lt with rfl | hjl
  · exact le_rfl
  · exact (List.pairwise_iff_getElem.1 hT.increasing j (T.e_range.length - 1) hj hlt hjl).le

end Legwork.Props
