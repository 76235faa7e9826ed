import Verif.Spec.Snr
import Mathlib.Topology.MetricSpace.Pseudo.Defs
import Mathlib.Topology.Order.Basic
import Mathlib.Analysis.Calculus.Deriv.Basic
import Mathlib.Data.Set.Countable
import Mathlib.Topology.Algebra.Order.LiminfLimsup

/-!
# Vocabulary for convergence of the evolving signal-to-noise ratios
-/

namespace Legwork.Spec

/-- `1 / noise`, zero where the noise is infinite. -/
noncomputable def sensitivity : WithTop ℝ → ℝ
  | ⊤ => 0
  | (y : ℝ) => 1 / y

/-- A noise curve that is bounded away from zero on every band `[lo, hi]` of positive frequencies, and whose inverse has
at most countably many jumps (such as the edges of the instrument's band). -/
structure Tame (N : ℝ → WithTop ℝ) : Prop where
  floor : ∀ lo hi : ℝ, 0 < lo → ∃ δ : ℝ, 0 < δ ∧ ∀ f ∈ Set.Icc lo hi, (δ : WithTop ℝ) ≤ N f
  jumps : {f : ℝ | 0 < f ∧ ¬ ContinuousAt (fun f => sensitivity (N f)) f}.Countable

/-- Interpolated values of `g` depend continuously on the eccentricity of a bound orbit; nothing is asked of exact ones. -/
def ContinuousG (ig : Option (ℤ → ℝ → ℝ)) : Prop := ∀ g, ig = some g → ∀ k, ContinuousOn (g k) (Set.Ico 0 1)

/-- The integrator returns the values of the eccentricity history `e` on `[0, τ]`, whenever `e` solves the equation that
the integrator is given. Nothing is assumed about equations other than Peters', or times that do not start at 0. -/
def Reproduces (odeint : evol.Odeint) (τ : ℝ) (e : ℝ → ℝ) : Prop :=
  ∀ (rhs : ℝ → ℝ) (ts : List ℝ), PetersRate rhs → (∀ t ∈ Set.Icc 0 τ, HasDerivAt e (rhs (e t)) t) → FromZero ts →
    (∀ t ∈ ts, t ∈ Set.Icc 0 τ) → odeint rhs (e 0) ts = ts.map fun t => some (e t)

end Legwork.Spec
