import Verif.Spec.Rows
import Verif.Spec.SnrOf

/-!
# Vocabulary: stored merger times
-/

namespace Legwork.Spec

open Legwork.source

/-- The same source with another stored merger time, or with none. -/
def TimesOnly (x y : One) : Prop := y = { x with t_merge := y.t_merge }

/-- In the calls made with the parameters of `s` the source is stationary. -/
def StationaryIn (W : World) (h : Heap) (s : ℕ) (x : One) : Prop :=
  ∀ C, CallCtx W h s C → x.StationaryOver W.K C.t_obs (h.src s).stat_tol

/-- The source is observed for at least one second less than its merger time `T`. -/
def OutlivesIn (W : World) (h : Heap) (s : ℕ) (T : ℝ) : Prop := ∀ C, CallCtx W h s C → C.t_obs + 1 ≤ T

/-- A physical binary. -/
def PhysicalOne (x : One) : Prop := 0 < x.m_1 ∧ 0 < x.m_2 ∧ 0 < x.f_orb ∧ 0 ≤ x.ecc ∧ x.ecc < 1

end Legwork.Spec
