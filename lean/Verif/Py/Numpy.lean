import Mathlib.Data.Real.Basic
import Mathlib.Data.List.Basic

/-!
# numpy primitives used by the modelled code

Same-shape arrays are functions `ι → α` on an arbitrary index type: elementwise operations are pointwise and
`x[mask] = f(y[mask])` with elementwise `f` is `maskAssign`. Rows of varying length are lists.
-/

namespace Legwork.np

/-- `x[mask] = v[mask]` for arrays of the same shape. -/
def maskAssign {ι α : Type*} (mask : ι → Prop) [DecidablePred mask] (v x : ι → α) : ι → α :=
  fun i => if mask i then v i else x i

/-- `np.linspace(0, t, n)` for `n ≥ 0`. -/
noncomputable def linspace (t : ℝ) (n : ℕ) : List ℝ :=
  (List.range n).map fun i : ℕ => (i : ℝ) * (t / ((n : ℝ) - 1))

/-- `x.max()` of a non-empty row. -/
noncomputable def rowMax (x : ℝ) (xs : List ℝ) : ℝ := xs.foldl max x

/-- `np.arange`-style boolean indexing `xs[mask]` for arrays of the same length. -/
def select {α : Type*} (mask : List Bool) (xs : List α) : List α :=
  (mask.zip xs).filterMap fun (b, x) => if b then some x else none

/-- Masked assignment `xs[mask] = vs` for arrays of the same length: the selected positions receive `vs` in order. -/
def assign {α : Type*} : List Bool → List α → List α → List α
  | true :: m, _ :: xs, v :: vs => v :: assign m xs vs
  | _ :: m, x :: xs, vs => x :: assign m xs vs
  | _, xs, _ => xs

/-- Piecewise evaluation used by `np.interp` for increasing abscissae: `cell x₀ y₀ x₁ y₁ x` is evaluated on the cell
containing `x` (the last cell is used beyond the last point). -/
noncomputable def interpWith {β : Type*} (dflt : β) (cell : ℝ → β → ℝ → β → ℝ → β) : List (ℝ × β) → ℝ → β
  | (x₀, y₀) :: (x₁, y₁) :: rest, x =>
    if x < x₁ ∨ rest = [] then cell x₀ y₀ x₁ y₁ x else interpWith dflt cell ((x₁, y₁) :: rest) x
  | [(_, y₀)], _ => y₀
  | [], _ => dflt

/-- The straight line through two points. -/
noncomputable def line (x₀ y₀ x₁ y₁ x : ℝ) : ℝ := (y₁ - y₀) / (x₁ - x₀) * (x - x₀) + y₀

/-- `scipy.interpolate.interp1d(x, y, bounds_error=False, fill_value=(below, above))` for increasing `x` (delegated
by scipy to `np.interp`): linear between neighbouring points, the fill values outside. -/
noncomputable def interp1d (points : List (ℝ × ℝ)) (below above x : ℝ) : ℝ :=
  match points.head?, points.getLast? with
  | some (x₀, _), some (x₁, _) =>
    if x < x₀ then below else if x₁ < x then above else interpWith 0 line points x
  | _, _ => below

end Legwork.np
