import Verif.Lemmas.Interp
import Verif.Spec.Harmonics
import Mathlib.Algebra.Order.BigOperators.Group.List
import Mathlib.Algebra.Order.Floor.Ring
import Mathlib.Data.Int.Cast.Lemmas

/-!
# The harmonics loop
-/

namespace Legwork.source

open Legwork.Spec Legwork.utils

theorem extend_spec (target : ℝ) : ∀ (rest : List ℝ) (total : ℝ) (h : ℕ),
    h ≤ extend_harmonics target rest total h ∧ extend_harmonics target rest total h ≤ h + rest.length ∧
    (target ≤ total + (rest.take (extend_harmonics target rest total h - h)).sum ∨
      extend_harmonics target rest total h = h + rest.length) ∧
    ∀ k, h ≤ k → k < extend_harmonics target rest total h → total + (rest.take (k - h)).sum < target
  | [], total, h => by
    refine ⟨le_rfl, le_rfl, Or.inr rfl, ?_⟩
    intro k h1 h2
    exact absurd h2 (not_lt.2 h1)
  | g :: rest, total, h => by
    unfold extend_harmonics
    split_ifs with hlt
    · obtain ⟨h1, h2, h3, h4⟩ := extend_spec target rest (total + g) (h + 1)
      generalize extend_harmonics target rest (total + g) (h + 1) = r at *
      refine ⟨by omega, by simp; omega, ?_, ?_⟩
      · rcases h3 with h3 | h3
        · left
          rw [show r - h = (r - (h + 1)) + 1 by omega, List.take_succ_cons, List.sum_cons, ← add_assoc]
          exact h3
        · right; simp; omega
      · intro k hk hkr
        rcases hk.eq_or_lt with rfl | hk
        · simpa using hlt
        · rw [show k - h = (k - (h + 1)) + 1 by omega, List.take_succ_cons, List.sum_cons, ← add_assoc]
          exact h4 k hk hkr
    · refine ⟨le_rfl, by simp, Or.inl (by simpa using hlt), ?_⟩
      intro k h1 h2
      exact absurd h2 (not_lt.2 h1)

theorem take_split (row : List ℝ) (p j : ℕ) : (row.take p).sum + ((row.drop p).take j).sum = lumUpTo row (p + j) := by
  rw [lumUpTo, List.take_add, List.sum_append]

theorem step_spec (tol : ℝ) {n p : ℕ} {e : ℝ} {row : List ℝ} (hr : row.length = n) (hp : p ≤ n) :
    p ≤ harmonics_step tol n p e row ∧ harmonics_step tol n p e row ≤ n ∧
    ((1 - tol) * peters_f e ≤ lumUpTo row (harmonics_step tol n p e row) ∨ harmonics_step tol n p e row = n) ∧
    ∀ k, p ≤ k → k < harmonics_step tol n p e row → lumUpTo row k < (1 - tol) * peters_f e := by
  unfold harmonics_step
  simp only
  rw [List.take_of_length_le hr.le]
  obtain ⟨h1, h2, h3, h4⟩ := extend_spec ((1 - tol) * peters_f e) (row.drop p) (row.take p).sum p
  generalize extend_harmonics ((1 - tol) * peters_f e) (row.drop p) (row.take p).sum p = r at *
  simp only [take_split, List.length_drop, hr] at h2 h3 h4
  rw [show p + (r - p) = r by omega] at h3
  refine ⟨h1, by omega, by rcases h3 with h | h; exact Or.inl h; right; omega, ?_⟩
  intro k hk hkr
  have := h4 k hk hkr
  rwa [show p + (k - p) = k by omega] at this

/-- Consecutive entries of the loop. -/
theorem loop_spec (tol : ℝ) {n : ℕ} : ∀ {p : ℕ} {l : List (ℝ × List ℝ)}, (∀ x ∈ l, x.2.length = n) → p ≤ n →
    (harmonics_loop tol n p l).length = l.length ∧
    (p :: harmonics_loop tol n p l).Pairwise (· ≤ ·) ∧
    (∀ h ∈ harmonics_loop tol n p l, h ≤ n) ∧
    ∀ (i : ℕ) (x : ℝ × List ℝ) (q h : ℕ), l[i]? = some x → (p :: harmonics_loop tol n p l)[i]? = some q →
      (harmonics_loop tol n p l)[i]? = some h →
      q ≤ n ∧ h = harmonics_step tol n q x.1 x.2
  | p, [], _, _ => by simp [harmonics_loop]
  | p, (e, row) :: l, hl, hp => by
    obtain ⟨h1, h2, -, -⟩ := step_spec tol (e := e) (hl (e, row) (by simp)) hp
    obtain ⟨i1, i2, i3, i4⟩ := loop_spec tol (p := harmonics_step tol n p e row) (l := l)
      (fun x hx => hl x (by simp [hx])) h2
    unfold harmonics_loop
    simp only
    refine ⟨by simp [i1], ?_, ?_, ?_⟩
    · rw [List.pairwise_cons]
      refine ⟨?_, i2⟩
      intro h hh
      rcases List.mem_cons.1 hh with rfl | hh
      · exact h1
      · exact h1.trans ((List.pairwise_cons.1 i2).1 h hh)
    · intro h hh
      rcases List.mem_cons.1 hh with rfl | hh
      · exact h2
      · exact i3 h hh
    · intro i x q h hx hq hh
      cases i with
      | zero =>
        simp at hx hq hh
        subst hx hq hh
        exact ⟨hp, rfl⟩
      | succ i =>
        simp only [List.getElem?_cons_succ] at hx hq hh
        exact i4 i x q h hx hq hh

theorem maxNat_spec (xs : List ℕ) : (∀ x ∈ xs, x ≤ maxNat xs) ∧ (maxNat xs = 0 ∨ maxNat xs ∈ xs) := by
  have key : ∀ (xs : List ℕ) (m : ℕ), (m ≤ xs.foldl max m ∧ ∀ x ∈ xs, x ≤ xs.foldl max m) ∧
      (xs.foldl max m = m ∨ xs.foldl max m ∈ xs) := by
    intro xs
    induction xs with
    | nil => intro m; simp
    | cons y ys ih =>
      intro m
      obtain ⟨⟨h1, h2⟩, h3⟩ := ih (max m y)
      simp only [List.foldl_cons, List.mem_cons]
      refine ⟨⟨(le_max_left _ _).trans h1, ?_⟩, ?_⟩
      · rintro x (rfl | hx)
        · exact (le_max_right _ _).trans h1
        · exact h2 x hx
      · rcases h3 with h3 | h3
        · rw [h3]
          rcases max_cases m y with ⟨h, -⟩ | ⟨h, -⟩
          · exact Or.inl h
          · exact Or.inr (Or.inl h)
        · exact Or.inr (Or.inr h3)
  obtain ⟨⟨-, h⟩, h'⟩ := key xs 0
  exact ⟨h, h'⟩

variable {T : LumTable} (hT : ValidTable T) (tol : ℝ)

include hT

theorem needed_spec : (harmonics_needed T tol).length = T.e_range.length ∧
    (harmonics_needed T tol).Pairwise (· ≤ ·) ∧ (∀ h ∈ harmonics_needed T tol, 2 ≤ h ∧ h ≤ T.n_max) ∧
    (harmonics_needed T tol)[0]? = some 2 ∧
    ∀ (i : ℕ) e row q h, T.e_range[i + 1]? = some e → T.g_vals[i + 1]? = some row →
      (harmonics_needed T tol)[i]? = some q → (harmonics_needed T tol)[i + 1]? = some h →
      q ≤ T.n_max ∧ h = harmonics_step tol T.n_max q e row := by
  obtain ⟨inc, two, rows, cols, two'⟩ := hT
  have hz : (T.e_range.zip T.g_vals).length = T.e_range.length := by simp [rows]
  have hget : ∀ (i : ℕ) e row, T.e_range[i]? = some e → T.g_vals[i]? = some row →
      (T.e_range.zip T.g_vals)[i]? = some (e, row) := by
    intro i e row h1 h2
    simp [List.getElem?_zip_eq_some, h1, h2]
  unfold harmonics_needed
  rcases hzip : T.e_range.zip T.g_vals with _ | ⟨x, l⟩
  · rw [hzip] at hz; simp at hz; omega
  · simp only
    have hl : ∀ y ∈ l, y.2.length = T.n_max := by
      intro y hy
      apply cols
      have : y ∈ T.e_range.zip T.g_vals := by rw [hzip]; simp [hy]
      exact (List.of_mem_zip this).2
    obtain ⟨h1, h2, h3, h4⟩ := loop_spec tol hl two'
    rw [hzip] at hz
    refine ⟨by simp [h1, ← hz], h2, ?_, rfl, ?_⟩
    · intro h hh
      rcases List.mem_cons.1 hh with rfl | hh
      · exact ⟨le_rfl, two'⟩
      · exact ⟨(List.pairwise_cons.1 h2).1 h hh, h3 h hh⟩
    · intro i e row q h he hrow hq hh
      have := hget _ _ _ he hrow
      rw [hzip] at this
      exact h4 i (e, row) q h (by simpa using this) hq (by simpa using hh)


end Legwork.source
