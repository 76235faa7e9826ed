import Verif.Py.Units

/-!
# What a quantity means

A value with units denotes a number of SI units of some dimension. `5 * u.km` and `5000 * u.m` denote the same length.
-/

namespace Legwork.Spec

open Legwork.units

/-- The dimension of a mass. -/
def massDim : Dim := (1, 0, 0)
/-- The dimension of a length. -/
def lengthDim : Dim := (0, 1, 0)
/-- The dimension of a time. -/
def timeDim : Dim := (0, 0, 1)
/-- The dimension of a frequency. -/
def freqDim : Dim := (0, 0, -1)
/-- The dimension of a rate of change of a frequency. -/
def freqRateDim : Dim := (0, 0, -2)
/-- The dimension of Peters' constant β, a length to the fourth power over a time. -/
def betaDim : Dim := (0, 4, -1)

/-- `v` is the physical value of dimension `d` which is `x` in SI units. -/
def Denotes (v : Val) (d : Dim) (x : ℝ) : Prop :=
  match v with
  | .num y => d = 0 ∧ y = x
  | .qty q => q.unit.dim = d ∧ q.value * q.unit.scale = x

/-- `v` is a quantity of dimension `d`. -/
def HasDim (v : Val) (d : Dim) : Prop :=
  match v with
  | .num _ => False
  | .qty q => q.unit.dim = d

/-- `v` and `w` are quantities denoting the same positive physical value of dimension `d`, perhaps in different units. -/
def SamePositive (d : Dim) (v w : Val) : Prop := ∃ x > 0, Denotes v d x ∧ Denotes w d x

/-- The result of a call: the physical value which is `x` in SI units, expressed in unit `u`. -/
def Returns (r : Except PyErr Val) (x : ℝ) (u : PyUnit) : Prop :=
  ∃ q : Quantity, r = .ok (.qty q) ∧ q.unit = u ∧ q.value * u.scale = x

end Legwork.Spec
