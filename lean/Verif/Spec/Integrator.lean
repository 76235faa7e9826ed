import Verif.Model.Evol

/-!
# Vocabulary for what is asked of the numerical integrator

The theorems never ask anything of it beyond the calls that the code makes: equations of Peters' form, and times in
order.
-/

namespace Legwork.Spec

/-- The right-hand side of Peters' equation for the eccentricity, with some positive constants. -/
def PetersRate (rhs : ℝ → ℝ) : Prop := ∃ β c : ℝ, 0 < β ∧ 0 < c ∧ rhs = fun e => evol.de_dt e β c

/-- Times in order, the first of them 0. -/
def FromZero (ts : List ℝ) : Prop := ts.Pairwise (· ≤ ·) ∧ ∀ t ∈ ts.head?, t = 0

end Legwork.Spec
