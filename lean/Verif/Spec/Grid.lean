import Mathlib.Order.Bounds.Basic
import Mathlib.Data.Real.Basic

/-!
# Specifications for time grids
-/

namespace Legwork.Spec

/-- `ts` are `n` equally spaced times from 0 to `t` (for `n = 1` only the time 0). -/
structure EvenGrid (t : ℝ) (n : ℕ) (ts : List ℝ) : Prop where
  length : ts.length = n
  first : 1 ≤ n → ts[0]? = some 0
  last : 2 ≤ n → ts[n - 1]? = some t
  spacing : ∀ (k : ℕ) (x y : ℝ), ts[k]? = some x → ts[k + 1]? = some y → (y - x) * (n - 1) = t

/-- `res` is `row` with every later time at or beyond `limit` replaced by the last allowed one: the first time and
all times before `limit` are kept, any other becomes the largest of the times kept. -/
structure MergerClamp (limit : ℝ) (row res : List ℝ) : Prop where
  length : res.length = row.length
  first : res[0]? = row[0]?
  safe : ∀ (k : ℕ) (x : ℝ), row[k + 1]? = some x → x < limit → res[k + 1]? = some x
  replaced : ∀ (k : ℕ) (x : ℝ), row[k + 1]? = some x → limit ≤ x → ∃ y, res[k + 1]? = some y ∧
    IsGreatest {z | row[0]? = some z ∨ ∃ (j : ℕ), row[j + 1]? = some z ∧ z < limit} y

end Legwork.Spec
