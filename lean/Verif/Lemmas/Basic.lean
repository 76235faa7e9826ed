import Mathlib.Analysis.SpecialFunctions.Pow.Real
import Mathlib.Data.List.Forall2

/-!
# Helper lemmas: exceptions, lists, real powers
-/

namespace Legwork

/-- `mapM` in `Except`: it succeeds exactly when every element does, in order. -/
theorem mapM_except_ok_iff {ε α β : Type*} (f : α → Except ε β) (l : List α) (r : List β) :
    l.mapM f = .ok r ↔ List.Forall₂ (fun a b => f a = .ok b) l r := by
  induction l generalizing r with
  | nil => cases r <;> simp [pure, Except.pure]
  | cons a l ih =>
    rw [List.mapM_cons]
    rcases hfa : f a with e | b
    · constructor
      · intro h; simp [bind, Except.bind] at h
      · intro h; cases h with | cons h1 _ => rw [hfa] at h1; cases h1
    · rcases hl : l.mapM f with e | bs
      · constructor
        · intro h; simp [bind, Except.bind] at h
        · intro h
          cases h with
          | cons h1 h2 => rw [← ih] at h2; rw [hl] at h2; cases h2
      · constructor
        · intro h
          simp only [bind, Except.bind, pure, Except.pure, Except.ok.injEq] at h
          subst h
          exact List.Forall₂.cons hfa ((ih bs).1 hl)
        · intro h
          cases h with
          | cons h1 h2 =>
            rw [← ih, hl] at h2
            rw [hfa] at h1
            cases h1; cases h2
            simp [bind, Except.bind, pure, Except.pure]

theorem mapM_except_map {ε α β : Type*} (f : α → β) (l : List α) :
    l.mapM (fun a => (Except.ok (f a) : Except ε β)) = .ok (l.map f) := by
  rw [mapM_except_ok_iff]
  induction l with
  | nil => simp
  | cons a l ih => simp

/-- If `f (u a)` is `v` applied to the result of `f a`, then `mapM` over the transformed list is the
transformed result. -/
theorem mapM_except_map_map {ε α β : Type*} (f : α → Except ε β) (u : α → α) (v : β → β)
    (l : List α) (h : ∀ a ∈ l, f (u a) = (f a).map v) :
    (l.map u).mapM f = (l.mapM f).map (List.map v) := by
  induction l with
  | nil => simp [pure, Except.pure, Except.map]
  | cons a l ih =>
    have h1 := h a (by simp)
    have h2 := ih (fun b hb => h b (by simp [hb]))
    rw [List.map_cons, List.mapM_cons, List.mapM_cons, h1, h2]
    rcases f a with e | b
    · rfl
    · rcases l.mapM f with e | bs <;> rfl

theorem forall2_get? {α β : Type*} {R : α → β → Prop} {l : List α} {r : List β}
    (h : List.Forall₂ R l r) {i : ℕ} {a : α} {b : β} (ha : l[i]? = some a) (hb : r[i]? = some b) :
    R a b := by
  induction h generalizing i with
  | nil => simp at ha
  | cons h1 _ ih =>
    cases i with
    | zero => simp at ha hb; subst ha; subst hb; exact h1
    | succ i => simp at ha hb; exact ih ha hb

open Real

/-- `(xⁿ)^p = x^k` when `n p = k`, used to turn fractional powers into natural ones. -/
theorem pow_rpow_eq {x : ℝ} (hx : 0 ≤ x) (n k : ℕ) {p : ℝ} (h : (n : ℝ) * p = k) :
    (x ^ n) ^ p = x ^ k := by
  rw [← rpow_natCast, ← rpow_mul hx, h, rpow_natCast]

theorem rpow_pow_eq {x : ℝ} (hx : 0 ≤ x) (n k : ℕ) {p : ℝ} (h : p * (n : ℝ) = k) :
    (x ^ p) ^ n = x ^ k := by
  rw [← rpow_natCast, ← rpow_mul hx, h, rpow_natCast]

theorem half_sq {x : ℝ} (hx : 0 ≤ x) : (x ^ (1 / 2 : ℝ)) ^ 2 = x := by
  rw [rpow_pow_eq hx 2 1 (by norm_num), pow_one]

theorem half_sq' {x : ℝ} (hx : 0 ≤ x) : (x ^ (0.5 : ℝ)) ^ 2 = x := by
  rw [rpow_pow_eq hx 2 1 (by norm_num), pow_one]

/-- Every positive real is an `n`-th power of a positive real. -/
theorem exists_pow_eq {x : ℝ} (hx : 0 < x) (n : ℕ) (hn : n ≠ 0) : ∃ y : ℝ, 0 < y ∧ y ^ n = x :=
  ⟨x ^ (n : ℝ)⁻¹, by positivity, rpow_inv_natCast_pow hx.le hn⟩

end Legwork
