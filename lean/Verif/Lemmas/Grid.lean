import Verif.Lemmas.EvolCirc
import Verif.Spec.Grid

/-!
# Helper lemmas on time grids and task pools
-/

namespace Legwork

open np evol Spec

theorem linspace_get? (t : ℝ) (n k : ℕ) :
    (linspace t n)[k]? = if k < n then some ((k : ℝ) * (t / ((n : ℝ) - 1))) else none := by
  unfold linspace
  rw [List.getElem?_map]
  split_ifs with h
  · rw [List.getElem?_range h]; rfl
  · rw [List.getElem?_eq_none (by simpa using h)]; rfl

theorem linspace_even (t : ℝ) (n : ℕ) : EvenGrid t n (linspace t n) := by
  refine ⟨by simp [linspace], ?_, ?_, ?_⟩
  · intro h
    rw [linspace_get?, if_pos (by omega)]; simp
  · intro h
    rw [linspace_get?, if_pos (by omega)]
    congr 1
    have h1 : ((n - 1 : ℕ) : ℝ) = (n : ℝ) - 1 := by push_cast [Nat.cast_sub (show 1 ≤ n by omega)]; ring
    have h2 : (n : ℝ) - 1 ≠ 0 := by
      have : (2 : ℝ) ≤ n := by exact_mod_cast h
      linarith
    rw [h1]; field_simp
  · intro k x y hx hy
    rw [linspace_get?] at hx hy
    split_ifs at hx hy with h1 h2
    simp only [Option.some.injEq] at hx hy
    have h2 : (n : ℝ) - 1 ≠ 0 := by
      have : (2 : ℝ) ≤ n := by exact_mod_cast (by omega : 2 ≤ n)
      linarith
    rw [← hx, ← hy]
    push_cast
    field_simp
    ring

theorem linspace_mono {t : ℝ} (ht : 0 < t) (n : ℕ) : (linspace t n).Pairwise (· < ·) := by
  unfold linspace
  rw [List.pairwise_map]
  rcases Nat.lt_or_ge n 2 with h | h
  · interval_cases n
    · simp
    · simp
  · have h2 : 0 < t / ((n : ℝ) - 1) := by
      have : (2 : ℝ) ≤ n := by exact_mod_cast h
      apply div_pos ht; linarith
    refine List.pairwise_lt_range.imp ?_
    intro a b hab
    have : (a : ℝ) < b := by exact_mod_cast hab
    exact mul_lt_mul_of_pos_right this h2

theorem rowMax_isGreatest (x : ℝ) (xs : List ℝ) : IsGreatest {z | z = x ∨ z ∈ xs} (rowMax x xs) := by
  unfold rowMax
  induction xs generalizing x with
  | nil => exact ⟨Or.inl rfl, by rintro z (rfl | h); exacts [le_rfl, by simp at h]⟩
  | cons y ys ih =>
    obtain ⟨h1, h2⟩ := ih (max x y)
    simp only [List.foldl_cons]
    constructor
    · rcases h1 with h | h
      · rw [Set.mem_ofPred, h]
        rcases le_total x y with hxy | hxy
        · right; rw [max_eq_right hxy]; simp
        · left; exact max_eq_left hxy
      · right; simp [h]
    · rintro z (rfl | hz)
      · exact le_trans (le_max_left _ _) (h2 (Or.inl rfl))
      · rcases List.mem_cons.1 hz with rfl | hz
        · exact le_trans (le_max_right _ _) (h2 (Or.inl rfl))
        · exact h2 (Or.inr hz)

theorem clamp_row_cons (gyr T tb t0 : ℝ) (ts : List ℝ) : clamp_row gyr T tb (t0 :: ts)
    = t0 :: ts.map fun t => if T - tb ≤ t then
        rowMax t0 (ts.map fun t => if T - tb ≤ t then -1 * gyr else t) else t := by
  simp only [clamp_row, ge_iff_le, decide_eq_true_eq]

theorem clamp_row_spec {gyr T tb : ℝ} {row : List ℝ} (hstart : ∀ z, row[0]? = some z → -1 * gyr ≤ z) :
    MergerClamp (T - tb) row (clamp_row gyr T tb row) := by
  rcases row with _ | ⟨t0, ts⟩
  · exact ⟨rfl, rfl, by simp, by simp⟩
  · have h0 : -1 * gyr ≤ t0 := hstart t0 rfl
    rw [clamp_row_cons]
    generalize T - tb = L
    obtain ⟨g1, g2⟩ := rowMax_isGreatest t0 (ts.map fun t => if L ≤ t then -1 * gyr else t)
    generalize rowMax t0 (ts.map fun t => if L ≤ t then -1 * gyr else t) = M at g1 g2
    refine ⟨by simp, by simp, ?_, ?_⟩
    · intro k x hx hlt
      simp only [List.getElem?_cons_succ] at hx
      simp [hx, not_le.2 hlt]
    · intro k x hx hge
      simp only [List.getElem?_cons_succ] at hx
      refine ⟨M, by simp [hx, hge], ?_, ?_⟩
      · rcases g1 with g | g
        · left; rw [g]; simp
        · rw [List.mem_map] at g
          obtain ⟨z, hz, hzv⟩ := g
          by_cases hzl : L ≤ z
          · rw [if_pos hzl] at hzv
            left
            simp only [List.getElem?_cons_zero, Option.some.injEq]
            apply le_antisymm
            · exact g2 (Or.inl rfl)
            · rw [← hzv]; exact h0
          · rw [if_neg hzl] at hzv
            subst hzv
            right
            obtain ⟨j, hj⟩ := List.mem_iff_getElem?.1 hz
            exact ⟨j, by simpa using hj, not_le.1 hzl⟩
      · rintro z (hz | ⟨j, hj, hzl⟩)
        · simp only [List.getElem?_cons_zero, Option.some.injEq] at hz
          exact g2 (Or.inl hz.symm)
        · simp only [List.getElem?_cons_succ] at hj
          apply g2
          right
          rw [List.mem_map]
          exact ⟨z, List.mem_of_getElem? hj, by simp [not_le.2 hzl]⟩

/-- A clamped non-decreasing grid is non-decreasing. -/
theorem MergerClamp.sorted {limit : ℝ} {row res : List ℝ} (h : MergerClamp limit row res)
    (hrow : row.Pairwise (· ≤ ·)) : res.Pairwise (· ≤ ·) := by
  have hrow' : ∀ (i j : ℕ) (x y : ℝ), i < j → row[i]? = some x → row[j]? = some y → x ≤ y := by
    intro i j x y hij hx hy
    obtain ⟨hi, rfl⟩ := List.getElem?_eq_some_iff.1 hx
    obtain ⟨hj, rfl⟩ := List.getElem?_eq_some_iff.1 hy
    exact List.pairwise_iff_getElem.1 hrow i j hi hj hij
  rw [List.pairwise_iff_getElem]
  intro i j hi hj hij
  have hi' : i < row.length := h.length ▸ hi
  have hj' : j < row.length := h.length ▸ hj
  obtain ⟨j, rfl⟩ : ∃ k, j = k + 1 := ⟨j - 1, by omega⟩
  have rj : row[j + 1]? = some row[j + 1] := List.getElem?_eq_getElem hj'
  -- value at i
  have key : ∀ z, (res[i]? = some z) → (row[0]? = some z ∨ ∃ k : ℕ, row[k + 1]? = some z ∧ z < limit) ∧
      ∀ x, row[i]? = some x → z ≤ x := by
    intro z hz
    rcases Nat.eq_zero_or_pos i with rfl | hip
    · rw [h.first] at hz
      exact ⟨Or.inl hz, fun x hx => by rw [hz] at hx; simp at hx; exact hx.le⟩
    · obtain ⟨i, rfl⟩ : ∃ k, i = k + 1 := ⟨i - 1, by omega⟩
      have ri : row[i + 1]? = some row[i + 1] := List.getElem?_eq_getElem hi'
      by_cases hl : row[i + 1] < limit
      · have := h.safe i _ ri hl
        rw [hz] at this
        simp only [Option.some.injEq] at this
        exact ⟨Or.inr ⟨i, by rw [ri, this], this ▸ hl⟩, fun x hx => by
          rw [ri] at hx; simp at hx; linarith⟩
      · obtain ⟨y, hy, hg⟩ := h.replaced i _ ri (not_lt.1 hl)
        rw [hz] at hy
        simp only [Option.some.injEq] at hy
        subst hy
        refine ⟨hg.1, fun x hx => ?_⟩
        rw [ri] at hx
        simp only [Option.some.injEq] at hx
        subst hx
        rcases hg.1 with h0 | ⟨k, hk, hkl⟩
        · exact hrow' 0 (i + 1) _ _ (by omega) h0 ri
        · linarith [not_lt.1 hl]
  obtain ⟨hmem, hle⟩ := key res[i] (List.getElem?_eq_getElem hi)
  by_cases hl : row[j + 1] < limit
  · have := h.safe j _ rj hl
    have e : res[j + 1] = row[j + 1] := by
      rw [List.getElem?_eq_getElem hj] at this; simpa using this
    rw [e]
    exact (hle _ (List.getElem?_eq_getElem hi')).trans
      (hrow' i (j + 1) _ _ hij (List.getElem?_eq_getElem hi') rj)
  · obtain ⟨y, hy, hg⟩ := h.replaced j _ rj (not_lt.1 hl)
    have e : res[j + 1] = y := by
      rw [List.getElem?_eq_getElem hj] at hy; simpa using hy
    rw [e]
    exact hg.2 hmem

/-- Whatever the completion order, a pool call returns the results in task order. -/
theorem pool_map_eq {α β : Type*} (f : α → β) (tasks : List α) (order : List ℕ)
    (hall : ∀ i < tasks.length, i ∈ order) : pool_map f tasks order = tasks.map fun t => some (f t) := by
  have key : ∀ (order : List ℕ) (res : List (Option β)), res.length = tasks.length →
      ((order.foldl (pool_step f tasks) res).length = tasks.length) ∧
      ∀ i t, tasks[i]? = some t → (order.foldl (pool_step f tasks) res)[i]? = if i ∈ order then some (some (f t)) else res[i]? := by
    intro order
    induction order with
    | nil => intro res hres; exact ⟨hres, by simp⟩
    | cons k ks ih =>
      intro res hres
      simp only [List.foldl_cons]
      rcases hk : tasks[k]? with _ | tk
      · rw [show pool_step f tasks res k = res by simp [pool_step, hk]]
        obtain ⟨h1, h2⟩ := ih res hres
        refine ⟨h1, fun i t hi => ?_⟩
        rw [h2 i t hi]
        have : i ≠ k := by rintro rfl; rw [hk] at hi; simp at hi
        simp [this]
      · rw [show pool_step f tasks res k = res.set k (some (f tk)) by simp [pool_step, hk]]
        obtain ⟨h1, h2⟩ := ih (res.set k (some (f tk))) (by simpa using hres)
        refine ⟨h1, fun i t hi => ?_⟩
        rw [h2 i t hi]
        by_cases hik : i = k
        · subst hik
          have : i < res.length := by
            rw [hres]; exact (List.getElem?_eq_some_iff.1 hi).1
          rw [hk] at hi
          simp only [Option.some.injEq] at hi
          subst hi
          simp [this]
        · simp [hik, Ne.symm hik]
  obtain ⟨h1, h2⟩ := key order (List.replicate tasks.length none) (by simp)
  apply List.ext_getElem?
  intro i
  unfold pool_map
  by_cases hi : i < tasks.length
  · have ht : tasks[i]? = some tasks[i] := List.getElem?_eq_getElem hi
    rw [h2 i _ ht, if_pos (hall i hi), List.getElem?_map, ht]; rfl
  · rw [List.getElem?_eq_none (by rw [h1]; omega), List.getElem?_eq_none (by simpa using hi)]

end Legwork
