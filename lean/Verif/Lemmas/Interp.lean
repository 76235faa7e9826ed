import Mathlib.Tactic.Linarith
import Mathlib.Tactic.FieldSimp
import Mathlib.Tactic.Ring
import Verif.Py.Numpy

/-!
# Linear interpolation
-/

namespace Legwork.np

/-- Points with strictly increasing abscissae. -/
def Increasing {β : Type*} (pts : List (ℝ × β)) : Prop := pts.Pairwise fun p q => p.1 < q.1

section

variable {β : Type*} {d : β} {cell : ℝ → β → ℝ → β → ℝ → β}

/-- Interpolation is exact at the points. -/
theorem interpWith_point (h0 : ∀ x₀ y₀ x₁ y₁, x₀ < x₁ → cell x₀ y₀ x₁ y₁ x₀ = y₀)
    (h1 : ∀ x₀ y₀ x₁ y₁, x₀ < x₁ → cell x₀ y₀ x₁ y₁ x₁ = y₁) :
    ∀ {pts : List (ℝ × β)}, Increasing pts → ∀ p ∈ pts, interpWith d cell pts p.1 = p.2
  | [], _, p, hp => by simp at hp
  | [q], _, p, hp => by simp at hp; subst hp; simp [interpWith]
  | q :: r :: rest, hinc, p, hp => by
    have hqr : q.1 < r.1 := (List.pairwise_cons.1 hinc).1 r (by simp)
    have htail : Increasing (r :: rest) := (List.pairwise_cons.1 hinc).2
    unfold interpWith
    rcases List.mem_cons.1 hp with rfl | hp
    · rw [if_pos (Or.inl hqr)]
      exact h0 _ _ _ _ hqr
    · rcases List.mem_cons.1 hp with rfl | hp'
      · split_ifs with h
        · exact h1 _ _ _ _ hqr
        · exact interpWith_point h0 h1 htail _ hp
      · have hrp : r.1 < p.1 := (List.pairwise_cons.1 htail).1 p hp'
        rw [if_neg]
        · exact interpWith_point h0 h1 htail p hp
        · rintro (h | h)
          · exact absurd h (not_lt.2 hrp.le)
          · rw [h] at hp'; simp at hp'

/-- Within the range of the points the value comes from the cell between two neighbouring points. -/
theorem interpWith_cell {x : ℝ} : ∀ {pts : List (ℝ × β)}, 2 ≤ pts.length → (∀ p, pts.head? = some p → p.1 ≤ x) →
    (∀ p, pts.getLast? = some p → x ≤ p.1) →
    ∃ (i : ℕ) (p q : ℝ × β), pts[i]? = some p ∧ pts[i + 1]? = some q ∧ p.1 ≤ x ∧ x ≤ q.1 ∧
      interpWith d cell pts x = cell p.1 p.2 q.1 q.2 x
  | [], h, _, _ => by simp at h
  | [q], h, _, _ => by simp at h
  | q :: r :: rest, _, hh, hl => by
    unfold interpWith
    by_cases h : x < r.1 ∨ rest = []
    · rw [if_pos h]
      refine ⟨0, q, r, rfl, rfl, hh q rfl, ?_, rfl⟩
      rcases h with h | rfl
      · exact h.le
      · exact hl r rfl
    · rw [if_neg h]
      rw [not_or] at h
      obtain ⟨s, rest', rfl⟩ := List.exists_cons_of_ne_nil h.2
      obtain ⟨i, p, p', h1, h2, h3, h4, h5⟩ := interpWith_cell (x := x) (pts := r :: s :: rest') (by simp)
        (by intro p hp; simp at hp; subst hp; exact not_lt.1 h.1)
        (by intro p hp; exact hl p (by simpa using hp))
      exact ⟨i + 1, p, p', h1, h2, h3, h4, h5⟩

end

theorem line_left {x₀ y₀ x₁ y₁ : ℝ} : line x₀ y₀ x₁ y₁ x₀ = y₀ := by simp [line]

theorem line_right {x₀ y₀ x₁ y₁ : ℝ} (h : x₀ < x₁) : line x₀ y₀ x₁ y₁ x₁ = y₁ := by
  unfold line
  have : x₁ - x₀ ≠ 0 := (sub_pos.2 h).ne'
  field_simp
  ring

theorem line_mono {x₀ y₀ x₁ y₁ : ℝ} (h : x₀ < x₁) (hy : y₀ ≤ y₁) : Monotone (line x₀ y₀ x₁ y₁) := by
  intro a b hab
  unfold line
  have : 0 ≤ (y₁ - y₀) / (x₁ - x₀) := div_nonneg (sub_nonneg.2 hy) (sub_nonneg.2 h.le)
  nlinarith

theorem interp_point {pts : List (ℝ × ℝ)} (h : Increasing pts) {p : ℝ × ℝ} (hp : p ∈ pts) :
    interpWith 0 line pts p.1 = p.2 :=
  interpWith_point (fun _ _ _ _ _ => line_left) (fun _ _ _ _ h => line_right h) h p hp

/-- Interpolating non-decreasing data gives a non-decreasing function. -/
theorem interp_mono : ∀ {pts : List (ℝ × ℝ)}, Increasing pts → pts.Pairwise (fun p q => p.2 ≤ q.2) →
    Monotone (interpWith 0 line pts)
  | [], _, _ => fun a b _ => by simp [interpWith]
  | [q], _, _ => fun a b _ => by simp [interpWith]
  | q :: r :: rest, hinc, hy => by
    have hqr : q.1 < r.1 := (List.pairwise_cons.1 hinc).1 r (by simp)
    have hyqr : q.2 ≤ r.2 := (List.pairwise_cons.1 hy).1 r (by simp)
    have ih := interp_mono (List.pairwise_cons.1 hinc).2 (List.pairwise_cons.1 hy).2
    have hr : interpWith 0 line (r :: rest) r.1 = r.2 := interp_point (List.pairwise_cons.1 hinc).2 (by simp)
    have hl := line_mono hqr hyqr
    intro a b hab
    unfold interpWith
    by_cases hrest : rest = []
    · rw [if_pos (Or.inr hrest), if_pos (Or.inr hrest)]
      exact hl hab
    · by_cases hb : b < r.1
      · rw [if_pos (Or.inl (lt_of_le_of_lt hab hb)), if_pos (Or.inl hb)]
        exact hl hab
      · rw [if_neg (by tauto : ¬ (b < r.1 ∨ rest = []))]
        by_cases ha : a < r.1
        · rw [if_pos (Or.inl ha)]
          calc line q.1 q.2 r.1 r.2 a ≤ line q.1 q.2 r.1 r.2 r.1 := hl ha.le
            _ = r.2 := line_right hqr
            _ = interpWith 0 line (r :: rest) r.1 := hr.symm
            _ ≤ _ := ih (not_lt.1 hb)
        · rw [if_neg (by tauto : ¬ (a < r.1 ∨ rest = []))]
          exact ih hab

/-- `interp1d` at a point of the data. -/
theorem interp1d_point {pts : List (ℝ × ℝ)} (h : Increasing pts) {p : ℝ × ℝ} (hp : p ∈ pts) (b a : ℝ) :
    interp1d pts b a p.1 = p.2 := by
  unfold interp1d
  have hne : pts ≠ [] := List.ne_nil_of_mem hp
  obtain ⟨q, rest, rfl⟩ := List.exists_cons_of_ne_nil hne
  rw [List.head?_cons, List.getLast?_eq_getLast_of_ne_nil hne]
  simp only
  have h1 : q.1 ≤ p.1 := by
    rcases List.mem_cons.1 hp with rfl | hp
    · exact le_rfl
    · exact ((List.pairwise_cons.1 h).1 p hp).le
  have h2 : p.1 ≤ ((q :: rest).getLast hne).1 := by
    obtain ⟨l, hl⟩ : ∃ l, q :: rest = l ++ [(q :: rest).getLast hne] := ⟨_, (List.dropLast_append_getLast hne).symm⟩
    generalize (q :: rest).getLast hne = z at *
    rw [hl] at hp h
    rcases List.mem_append.1 hp with hp | hp
    · exact ((List.pairwise_append.1 h).2.2 p hp z (by simp)).le
    · simp at hp; rw [hp]
  rw [if_neg (not_lt.2 h1), if_neg (not_lt.2 h2)]
  exact interp_point h hp

/-- `interp1d` of non-decreasing data with fitting fill values is non-decreasing on the whole line. -/
theorem interp1d_mono {pts : List (ℝ × ℝ)} (h : Increasing pts) (hy : pts.Pairwise (fun p q => p.2 ≤ q.2))
    {b a : ℝ} (hb : ∀ p ∈ pts, b ≤ p.2) (ha : ∀ p ∈ pts, p.2 ≤ a) (hba : b ≤ a) : Monotone (interp1d pts b a) := by
  intro x y hxy
  unfold interp1d
  rcases hne : pts with _ | ⟨q, rest⟩
  · simp
  rw [← hne]
  have hne' : pts ≠ [] := by rw [hne]; simp
  have hh : pts.head? = some q := by rw [hne]; rfl
  rw [hh, List.getLast?_eq_getLast_of_ne_nil hne']
  simp only
  have hm := interp_mono h hy
  have hq : q ∈ pts := by rw [hne]; simp
  have hz : pts.getLast hne' ∈ pts := List.getLast_mem hne'
  have e1 := interp_point h hq
  have e2 := interp_point h hz
  generalize pts.getLast hne' = z at *
  split_ifs with h1 h2 h3 h4 h5 h6
  · exact le_rfl
  · exact hba
  · calc b ≤ q.2 := hb q hq
      _ = _ := e1.symm
      _ ≤ _ := hm (not_lt.1 h2)
  all_goals first
    | exact le_rfl
    | exact hm hxy
    | (exfalso; linarith)
    | skip
  all_goals
    calc interpWith 0 line pts x ≤ interpWith 0 line pts z.1 := hm (by linarith)
      _ = z.2 := e2
      _ ≤ a := ha z hz

end Legwork.np
