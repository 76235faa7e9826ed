import Verif.Spec.Rows
import Verif.Lemmas.SnrPointwise

/-!
# Columns and rows
-/

namespace Legwork.source

open Legwork.Spec Legwork.utils

variable {c : Cols}

theorem rows_length (c : Cols) : (rows c).length = c.n_sources := by simp [rows]

theorem rows_get? (c : Cols) (i : ℕ) : (rows c)[i]? = if i < c.n_sources then some (rowAt c i) else none := by
  unfold rows
  rw [List.getElem?_map]
  split_ifs with h <;> simp [h]

theorem rows_getElem (c : Cols) {i : ℕ} (h : i < (rows c).length) : (rows c)[i] = rowAt c i := by
  simp [rows]

/-- A column, from the rows. -/
theorem col_eq {α : Type} {xs : List α} {n : ℕ} (h : xs.length = n) (d : α) : xs = (List.range n).map fun i => xs.getD i d := by
  apply List.ext_getElem
  · simp [h]
  · intro i h1 h2
    simp [List.getD_eq_getElem?_getD, List.getElem?_eq_getElem h1]

theorem col_m_1 (c : Cols) : c.m_1 = (rows c).map One.m_1 := by
  unfold rows
  rw [List.map_map]
  exact col_eq rfl 0

theorem _root_.Legwork.Spec.Rect.col_m_2 (h : Rect c) : c.m_2 = (rows c).map One.m_2 := by
  unfold rows
  rw [List.map_map]
  exact col_eq h.m_2 0

theorem _root_.Legwork.Spec.Rect.col_dist (h : Rect c) : c.dist = (rows c).map One.dist := by
  unfold rows
  rw [List.map_map]
  exact col_eq h.dist 0

theorem _root_.Legwork.Spec.Rect.col_f_orb (h : Rect c) : c.f_orb = (rows c).map One.f_orb := by
  unfold rows
  rw [List.map_map]
  exact col_eq h.f_orb 0

theorem _root_.Legwork.Spec.Rect.col_ecc (h : Rect c) : c.ecc = (rows c).map One.ecc := by
  unfold rows
  rw [List.map_map]
  exact col_eq h.ecc 0

theorem _root_.Legwork.Spec.Rect.col_merged (h : Rect c) : c.merged = (rows c).map One.merged := by
  unfold rows
  rw [List.map_map]
  exact col_eq h.merged false

theorem _root_.Legwork.Spec.Rect.col_m_c (h : Rect c) : c.m_c = (rows c).map One.m_c := by
  unfold Cols.m_c
  conv_lhs => rw [col_m_1 c, h.col_m_2]
  induction rows c with
  | nil => rfl
  | cons r rs ih => simpa [One.m_c] using ih

theorem _root_.Legwork.Spec.Rect.col_t_merge (h : Rect c) {t : List ℝ} (ht : c.t_merge = some t) :
    t = (rows c).map fun r => r.t_merge.getD 0 := by
  unfold rows
  rw [List.map_map]
  have : ((fun r : One => r.t_merge.getD 0) ∘ rowAt c) = fun i => t.getD i 0 := by
    funext i
    simp [rowAt, ht]
  rw [this]
  exact col_eq (h.t_merge t ht) 0

theorem _root_.Legwork.Spec.Rect.col_position (h : Rect c) {t : List (ℝ × ℝ)} (ht : c.position = some t) :
    t = (rows c).map fun r => r.position.getD 0 := by
  unfold rows
  rw [List.map_map]
  have : ((fun r : One => r.position.getD 0) ∘ rowAt c) = fun i => t.getD i 0 := by
    funext i
    simp [rowAt, ht]
  rw [this]
  exact col_eq (h.position t ht) 0

theorem _root_.Legwork.Spec.Rect.col_polarisation (h : Rect c) {t : List ℝ} (ht : c.polarisation = some t) :
    t = (rows c).map fun r => r.polarisation.getD 0 := by
  unfold rows
  rw [List.map_map]
  have : ((fun r : One => r.polarisation.getD 0) ∘ rowAt c) = fun i => t.getD i 0 := by
    funext i
    simp [rowAt, ht]
  rw [this]
  exact col_eq (h.polarisation t ht) 0

theorem _root_.Legwork.Spec.Rect.col_inclination (h : Rect c) {t : List ℝ} (ht : c.inclination = some t) :
    t = (rows c).map fun r => r.inclination.getD 0 := by
  unfold rows
  rw [List.map_map]
  have : ((fun r : One => r.inclination.getD 0) ∘ rowAt c) = fun i => t.getD i 0 := by
    funext i
    simp [rowAt, ht]
  rw [this]
  exact col_eq (h.inclination t ht) 0

/-! ### Sources with a selection flag -/

/-- The sources, each with its entry of a mask. -/
def items (c : Cols) (w : List Bool) : List (One × Bool) := (rows c).zip w

section

variable {w : List Bool}

theorem items_length (hw : w.length = c.n_sources) : (items c w).length = c.n_sources := by
  unfold items
  rw [List.length_zip, rows_length, hw, min_self]

theorem items_fst (hw : w.length = c.n_sources) {α : Type} (f : One → α) :
    (items c w).map (fun x => f x.1) = (rows c).map f := by
  unfold items
  have : (fun x : One × Bool => f x.1) = f ∘ Prod.fst := rfl
  rw [this, ← List.map_map, List.map_fst_zip]
  rw [rows_length, hw]

theorem items_snd (hw : w.length = c.n_sources) : (items c w).map Prod.snd = w := by
  unfold items
  rw [List.map_snd_zip]
  rw [rows_length, hw]

/-- Whether a source is selected and not merged. -/
def live (x : One × Bool) : Bool := x.2 && !x.1.merged

theorem zipWith_and_map {α : Type} (l : List α) (f g : α → Bool) :
    (l.map f).zipWith and (l.map g) = l.map fun x => f x && g x := by
  induction l with
  | nil => rfl
  | cons x l ih => simp

theorem logical_and_map {α : Type} (l : List α) (f g : α → Bool) :
    logical_and (l.map f) (l.map g) = .ok (l.map fun x => f x && g x) := by
  unfold logical_and
  rw [if_pos (by simp), zipWith_and_map]
  rfl

theorem inspiralling_ok (h : Rect c) (hw : w.length = c.n_sources) : inspiralling c w = .ok ((items c w).map live) := by
  unfold inspiralling logical_not
  rw [h.col_merged, List.map_map, ← items_fst hw]
  have := logical_and_map (items c w) Prod.snd fun x => !x.1.merged
  rw [items_snd hw] at this
  exact this

theorem index_map {α β : Type} (l : List α) (p : α → Bool) (f : α → β) :
    index (l.map p) (l.map f) = .ok ((l.filter p).map f) := by
  unfold index
  rw [if_pos (by simp), np.select_map, np.select_filter]
  rfl

theorem ecc_below_eq (h : Rect c) (hw : w.length = c.n_sources) (tol : ℝ) :
    ecc_below c.ecc tol = (items c w).map fun x => @decide (x.1.ecc ≤ tol) (Classical.propDecidable _) := by
  unfold ecc_below
  rw [h.col_ecc, List.map_map, ← items_fst hw]
  rfl

theorem ecc_above_eq (h : Rect c) (hw : w.length = c.n_sources) (tol : ℝ) :
    ecc_above c.ecc tol = (items c w).map fun x => @decide (tol < x.1.ecc) (Classical.propDecidable _) := by
  unfold ecc_above
  rw [h.col_ecc, List.map_map, ← items_fst hw]
  rfl

theorem index_col {α : Type} (hw : w.length = c.n_sources) (p : One × Bool → Bool) (f : One → α) :
    index ((items c w).map p) ((rows c).map f) = .ok (((items c w).filter p).map fun x => f x.1) := by
  rw [← items_fst hw]
  exact index_map _ _ _

theorem replicate_filter {α β : Type} (l : List α) (x : β) : List.replicate l.length x = l.map fun _ => x := by
  rw [List.map_const']

theorem orientations_ok (h : Rect c) (hw : w.length = c.n_sources) (p : One × Bool → Bool) :
    orientations c ((items c w).map p) ((items c w).filter p).length =
      .ok (((items c w).filter p).map fun x => x.1.orient) := by
  have hmem : ∀ x ∈ (items c w).filter p, ∃ i, x.1 = rowAt c i := by
    intro x hx
    have := List.of_mem_zip (List.mem_of_mem_filter hx)
    obtain ⟨i, -, hi⟩ := List.mem_map.1 this.1
    exact ⟨i, hi.symm⟩
  unfold orientations
  rcases hpos : c.position with _ | pos
  · simp only
    rw [replicate_filter]
    refine congrArg Except.ok (List.map_congr_left fun x hx => ?_)
    obtain ⟨i, hi⟩ := hmem x hx
    rw [hi]
    simp [One.orient, rowAt, hpos]
  · obtain ⟨h1, h2⟩ := h.angles (by rw [hpos]; rfl)
    obtain ⟨inc, hinc⟩ := Option.isSome_iff_exists.1 h1
    obtain ⟨pol, hpol⟩ := Option.isSome_iff_exists.1 h2
    rw [hinc, hpol]
    simp only
    rw [h.col_position hpos, h.col_polarisation hpol, h.col_inclination hinc, index_col hw, ok_bind, index_col hw, ok_bind,
      index_col hw, ok_bind]
    refine congrArg Except.ok ?_
    rw [List.zip_map', List.zip_map', List.map_map]
    refine List.map_congr_left fun x hx => ?_
    obtain ⟨i, hi⟩ := hmem x hx
    simp only [Function.comp]
    rw [hi]
    simp [One.orient, rowAt, hpos, hpol, hinc]

theorem circ_srcs_ok (h : Rect c) (hw : w.length = c.n_sources) (p : One × Bool → Bool) :
    circ_srcs c ((items c w).map p) (((items c w).filter p).map fun x => x.1.orient) =
      .ok (((items c w).filter p).map fun x => x.1.circ) := by
  unfold circ_srcs
  rw [h.col_m_c, h.col_f_orb, h.col_dist, index_col hw, ok_bind, index_col hw, ok_bind, index_col hw, ok_bind]
  refine congrArg Except.ok ?_
  rw [List.zip_map', List.zip_map', List.zip_map', List.map_map]
  rfl

theorem ecc_srcs_ok (h : Rect c) (hw : w.length = c.n_sources) (p : One × Bool → Bool) :
    ecc_srcs c ((items c w).map p) = .ok (((items c w).filter p).map fun x => x.1.eccentric) := by
  unfold ecc_srcs
  rw [h.col_m_c, h.col_f_orb, h.col_ecc, h.col_dist, index_col hw, ok_bind, index_col hw, ok_bind, index_col hw, ok_bind,
    index_col hw, ok_bind]
  refine congrArg Except.ok ?_
  rw [List.zip_map', List.zip_map', List.zip_map', List.map_map]
  rfl

theorem evol_srcs_ok (h : Rect c) (hw : w.length = c.n_sources) (p : One × Bool → Bool) (circular : Bool) :
    evol_srcs c ((items c w).map p) circular =
      .ok (((items c w).filter p).map fun x => if circular then x.1.evolvingCirc else x.1.evolving) := by
  unfold evol_srcs
  rw [col_m_1 c, h.col_m_2, h.col_f_orb, h.col_ecc, h.col_dist, index_col hw, ok_bind, index_col hw, ok_bind,
    index_col hw, ok_bind, index_col hw, ok_bind, index_col hw, ok_bind]
  refine congrArg Except.ok ?_
  rw [List.zip_map', List.zip_map', List.zip_map', List.zip_map', List.map_map]
  cases circular <;> rfl

theorem merge_times_ok (h : Rect c) (hw : w.length = c.n_sources) (p : One × Bool → Bool) :
    merge_times c ((items c w).map p) =
      .ok (c.t_merge.map fun _ => ((items c w).filter p).map fun x => x.1.t_merge.getD 0) := by
  unfold merge_times
  rcases ht : c.t_merge with _ | t
  · rfl
  · simp only
    rw [h.col_t_merge ht, index_col hw, ok_bind]
    rfl

end

end Legwork.source
