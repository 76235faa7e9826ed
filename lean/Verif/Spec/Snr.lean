import Verif.Model.Snr
import Verif.Spec.Integrator

/-!
# Vocabulary for the signal-to-noise ratio properties
-/

namespace Legwork.Spec

open Legwork.snr

/-- The noise of context `C` is the curve `N`: available at every frequency and positive (possibly infinite) at
positive ones. -/
structure Curve (C : Ctx) (N : ℝ → WithTop ℝ) : Prop where
  ok : ∀ f, noise C f = .ok (N f)
  pos : ∀ f, 0 < f → 0 < N f

/-- A circular source seen as an eccentric one with zero eccentricity. -/
def asEcc (s : CircSrc) : EccSrc := ⟨s.m_c, s.f_orb, 0, s.dist⟩

/-- `g(n, 0)` as used for the strain is 1 for the second harmonic only, up to the clipping of negative values;
holds for exact `g`. -/
def CircularG (ig : Option (ℤ → ℝ → ℝ)) : Prop := ∀ g, ig = some g → ∀ n, n ≠ 2 → g n 0 ≤ 0

/-- Positive chirp mass, frequency and distance. -/
def CircPhys (s : CircSrc) : Prop := 0 < s.m_c ∧ 0 < s.f_orb ∧ 0 < s.dist

/-- Positive chirp mass, frequency and distance, bound orbit. -/
def EccPhys (s : EccSrc) : Prop := 0 < s.m_c ∧ 0 < s.f_orb ∧ 0 < s.dist ∧ 0 ≤ s.ecc ∧ s.ecc < 1

/-- Two lists of equal length whose entries are related position by position. -/
def Pointwise {α β : Type*} (R : α → β → Prop) (xs : List α) (ys : List β) : Prop := List.Forall₂ R xs ys

/-- What is assumed of the numerical integrator, for Peters' equation with any positive constants and every non-decreasing
list of times: one value per time; while integration succeeds eccentricities do not grow and stay in `(0, 1)`; once it
fails (NaN) it stays failed; and it does not move at times equal to the first. Nothing is assumed about other equations. -/
structure DecreasingIntegrator (odeint : evol.Odeint) : Prop where
  length : ∀ rhs e₀ ts, PetersRate rhs → (odeint rhs e₀ ts).length = ts.length
  range : ∀ rhs e₀ ts, PetersRate rhs → 0 < e₀ → e₀ < 1 → ts.Pairwise (· ≤ ·) → ∀ x, some x ∈ odeint rhs e₀ ts →
    0 < x ∧ x < 1
  decreasing : ∀ rhs e₀ ts, PetersRate rhs → 0 < e₀ → e₀ < 1 → ts.Pairwise (· ≤ ·) → ∀ (i j : ℕ) x y, i ≤ j →
    (odeint rhs e₀ ts)[i]? = some (some x) → (odeint rhs e₀ ts)[j]? = some (some y) → y ≤ x
  failed : ∀ rhs e₀ ts, PetersRate rhs → 0 < e₀ → e₀ < 1 → ts.Pairwise (· ≤ ·) → ∀ (i j : ℕ) x, i ≤ j →
    (odeint rhs e₀ ts)[i]? = some none → (odeint rhs e₀ ts)[j]? = some x → x = none
  start : ∀ rhs e₀ ts, PetersRate rhs → 0 < e₀ → e₀ < 1 → ts.Pairwise (· ≤ ·) → ∀ (i : ℕ) t, ts[0]? = some t → ts[i]? = some t →
    (odeint rhs e₀ ts)[i]? = some (some e₀)

end Legwork.Spec
