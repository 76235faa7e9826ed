import Mathlib.Data.List.Basic
import Verif.Spec.EnsureArray

/-!
# `ensure_array` normalises any mix of arguments: C56
-/

namespace Legwork.Props

open Legwork.utils Legwork.Spec

variable {α U : Type}

private lemma ensure_loop_fst (b : Bool) (args : List (Arg α U)) :
    (ensure_loop b args).1 = args.map fun x => (ensure_one false x).1 := by
  induction args generalizing b with
  | nil => rfl
  | cons x xs ih =>
    simp only [ensure_loop, List.map_cons, ih]
    cases x <;> rfl

private lemma ensure_loop_snd (b : Bool) (args : List (Arg α U)) :
    (ensure_loop b args).2 = true ↔ b = true ∨ ∃ x ∈ args, IsScalar x := by
  induction args generalizing b with
  | nil => simp [ensure_loop]
  | cons x xs ih =>
    simp only [ensure_loop, ih, List.mem_cons, exists_eq_or_imp]
    cases x <;> simp [ensure_one, IsScalar]

/-- As many arguments come back as were given. -/
theorem C56_length (args : List (Arg α U)) : (ensure_array args).1.length = args.length := by
  simp [ensure_array, ensure_loop_fst]

/-- **C56.** Position by position: `None` comes back as `None`, arrays come back unchanged, and anything else comes
back as a one-dimensional array with the same values and units, of length 1 for scalars. -/
theorem C56_argument (args : List (Arg α U)) (i : Nat) (x y : Arg α U) (hx : args[i]? = some x)
    (hy : (ensure_array args).1[i]? = some y) :
    (IsNone y ↔ IsNone x) ∧ (∀ a, x = .array a → y = x) ∧ (∀ a u, x = .arrayQuantity a u → y = x) ∧
      values y = values x ∧ unitOf y = unitOf x ∧ (IsScalar x → HasShape [1] y) ∧
      (∀ xs, x = .list xs → HasShape [xs.length] y) ∧ ¬ IsScalar y := by
  rw [ensure_array, ensure_loop_fst, List.getElem?_map, hx] at hy
  simp only [Option.map_some, Option.some.injEq] at hy
  subst hy
  cases x <;> simp [ensure_one, IsNone, IsScalar, values, unitOf, HasShape, asarray]

/-- The flag is raised exactly when some argument was a scalar (lists do not raise it). -/
theorem C56_flag (args : List (Arg α U)) : (ensure_array args).2 = true ↔ ∃ x ∈ args, IsScalar x := by
  simp [ensure_array, ensure_loop_snd]

/-- Applying it again changes nothing and raises no flag. -/
theorem C56_idempotent (args : List (Arg α U)) :
    ensure_array (ensure_array args).1 = ((ensure_array args).1, false) := by
  have h1 : (ensure_array (ensure_array args).1).1 = (ensure_array args).1 := by
    simp only [ensure_array, ensure_loop_fst, List.map_map]
    apply List.map_congr_left
    intro x _
    cases x <;> rfl
  have h2 : (ensure_array (ensure_array args).1).2 ≠ true := by
    rw [Ne, C56_flag]
    rintro ⟨y, hy, hs⟩
    rw [ensure_array, ensure_loop_fst] at hy
    obtain ⟨x, -, rfl⟩ := List.mem_map.1 hy
    cases x <;> exact hs
  rw [Ne, Bool.not_eq_true] at h2
  exact Prod.ext h1 h2

/-- A mixed call: a quantity scalar, a list, `None` and an array. -/
example : ensure_array [.scalarQuantity 3 "Msun", .list [1, 2], .none, .array ⟨[2], [5, 6]⟩] =
    (([.arrayQuantity ⟨[1], [3]⟩ "Msun", .array ⟨[2], [1, 2]⟩, .none, .array ⟨[2], [5, 6]⟩], true)
      : List (Arg Nat String) × Bool) := rfl

end Legwork.Props
