import Mathlib.Analysis.SpecialFunctions.Pow.Real
import Mathlib.Algebra.Module.Prod
import Verif.Py.Basic

/-!
# Quantities with units

What `astropy.units` does with the operations LEGWORK uses. A unit is a positive scale (its size in SI units) and a
dimension: the exponents of mass, length and time. Astropy turns the floating point exponents in LEGWORK that act on
quantities with units (`3/5`, `1/5`, `1/3`, `0.5`, `5/3`, `11/3`, `-8/3`, `-3/8`, ...) into exact fractions, so
exponents are rational numbers here.
-/

namespace Legwork.units

/-- Exponents of mass, length and time. -/
abbrev Dim := ℚ × ℚ × ℚ

/-- A unit. -/
@[ext] structure PyUnit where
  scale : ℝ
  pos : 0 < scale
  dim : Dim

/-- A quantity: a number and its unit. -/
structure Quantity where
  value : ℝ
  unit : PyUnit

/-- A python value: a plain number or a quantity. -/
inductive Val
  | num (x : ℝ)
  | qty (q : Quantity)

noncomputable instance : Mul PyUnit := ⟨fun u v => ⟨u.scale * v.scale, mul_pos u.pos v.pos, u.dim + v.dim⟩⟩
noncomputable instance : Div PyUnit := ⟨fun u v => ⟨u.scale / v.scale, div_pos u.pos v.pos, u.dim - v.dim⟩⟩
noncomputable instance : HPow PyUnit ℚ PyUnit :=
  ⟨fun u p => ⟨u.scale ^ (p : ℝ), Real.rpow_pos_of_pos u.pos _, p • u.dim⟩⟩

/-- The unit of a quantity without dimension and scale. -/
noncomputable def one : PyUnit := ⟨1, one_pos, 0⟩

/-- The unit of a value. -/
noncomputable def Val.unit : Val → PyUnit
  | .num _ => one
  | .qty q => q.unit

/-- Multiplication. -/
noncomputable instance : Mul Val where
  mul
    | .num x, .num y => .num (x * y)
    | .num x, .qty q => .qty ⟨x * q.value, q.unit⟩
    | .qty p, .num y => .qty ⟨p.value * y, p.unit⟩
    | .qty p, .qty q => .qty ⟨p.value * q.value, p.unit * q.unit⟩

/-- Division (by something other than 0: the result for 0 is not modelled). -/
noncomputable instance : Div Val where
  div
    | .num x, .num y => .num (x / y)
    | .num x, .qty q => .qty ⟨x / q.value, one / q.unit⟩
    | .qty p, .num y => .qty ⟨p.value / y, p.unit⟩
    | .qty p, .qty q => .qty ⟨p.value / q.value, p.unit / q.unit⟩

/-- `v ** p`. -/
noncomputable instance : HPow Val ℚ Val where
  hPow
    | .num x, p => .num (x ^ (p : ℝ))
    | .qty q, p => .qty ⟨q.value ^ (p : ℝ), q.unit ^ p⟩

/-- `q.to(unit)`: an error unless the dimensions agree. -/
noncomputable def Quantity.to (q : Quantity) (u : PyUnit) : Except PyErr Quantity :=
  if q.unit.dim = u.dim then .ok ⟨q.value * q.unit.scale / u.scale, u⟩ else .error .UnitConversionError

open Classical in
/-- `v + w`. Quantities are added in the unit of the first one. A plain number can be added to a quantity without
dimension; a plain 0 can be added to anything. -/
noncomputable def Val.add : Val → Val → Except PyErr Val
  | .num x, .num y => .ok (.num (x + y))
  | .qty p, .qty q => (q.to p.unit).map fun q => .qty ⟨p.value + q.value, p.unit⟩
  | .num x, .qty q =>
    if q.unit.dim = 0 then .ok (.qty ⟨x + q.value * q.unit.scale, one⟩)
    else if x = 0 then .ok (.qty q) else .error .UnitConversionError
  | .qty p, .num y =>
    if p.unit.dim = 0 then .ok (.qty ⟨p.value * p.unit.scale + y, one⟩)
    else if y = 0 then .ok (.qty p) else .error .UnitConversionError

/-- `-v`. -/
def Val.neg : Val → Val
  | .num x => .num (-x)
  | .qty q => .qty ⟨-q.value, q.unit⟩

/-- `v - w`. -/
noncomputable def Val.sub (v w : Val) : Except PyErr Val := v.add w.neg

/-- `v.to(unit)`: plain numbers have no such method. -/
noncomputable def Val.to (v : Val) (u : PyUnit) : Except PyErr Val :=
  match v with
  | .num _ => .error .AttributeError
  | .qty q => (q.to u).map .qty

/-- `if isinstance(v, Quantity): v = v.to(unit)`. -/
noncomputable def Val.simplify (v : Val) (u : PyUnit) : Except PyErr Val :=
  match v with
  | .num x => .ok (.num x)
  | .qty q => (q.to u).map .qty

/-- `v.value`: plain numbers have no such attribute. -/
def Val.value (v : Val) : Except PyErr ℝ :=
  match v with
  | .num _ => .error .AttributeError
  | .qty q => .ok q.value

/-- `v.decompose().value`: the number in SI units, whatever the dimension. -/
noncomputable def Val.decompose_value (v : Val) : Except PyErr ℝ :=
  match v with
  | .num _ => .error .AttributeError
  | .qty q => .ok (q.value * q.unit.scale)

/-! ## The units LEGWORK uses (astropy's values) -/

noncomputable def kg : PyUnit := ⟨1, one_pos, (1, 0, 0)⟩
noncomputable def m : PyUnit := ⟨1, one_pos, (0, 1, 0)⟩
noncomputable def s : PyUnit := ⟨1, one_pos, (0, 0, 1)⟩
noncomputable def Hz : PyUnit := ⟨1, one_pos, (0, 0, -1)⟩
noncomputable def Msun : PyUnit := ⟨1.988409870698051e30, by norm_num, (1, 0, 0)⟩
noncomputable def AU : PyUnit := ⟨149597870700, by norm_num, (0, 1, 0)⟩
noncomputable def km : PyUnit := ⟨1000, by norm_num, (0, 1, 0)⟩
noncomputable def kpc : PyUnit := ⟨3.0856775814913674e19, by norm_num, (0, 1, 0)⟩
noncomputable def yr : PyUnit := ⟨31557600, by norm_num, (0, 0, 1)⟩
noncomputable def Gyr : PyUnit := ⟨31557600e9, by norm_num, (0, 0, 1)⟩

end Legwork.units
