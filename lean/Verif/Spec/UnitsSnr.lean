import Verif.Model.UnitsSnr
import Verif.Spec.Units

/-!
# Rows and noise curves with units
-/

namespace Legwork.units

/-- The numbers of a row in SI units. -/
noncomputable def Row.si (r : Row) : List ℝ := r.values.map (· * r.unit.scale)

end Legwork.units

namespace Legwork.Spec

open Legwork.units

/-- The unit in which a variable is documented to be returned (`ecc` only by the eccentric evolution); other names are
skipped. -/
noncomputable def outputUnit (withEcc : Bool) (var : String) : Option PyUnit :=
  if var = "timesteps" then some yr
  else if withEcc = true ∧ var = "ecc" then some one
  else if var = "a" then some AU
  else if var = "f_orb" then some Hz
  else if var = "f_GW" then some Hz
  else none

/-- The rows of source `i` in the result. -/
def rowsAt {ι : Type*} (i : ι) : evol.EvolOut ι → List (List ℝ)
  | .one x => [x i]
  | .many xs => xs.map fun x => x i

/-- The same argument of dimension `d`, perhaps in different units, or left out in both calls. -/
def SameGiven (d : Dim) : Option Val → Option Val → Prop := Option.Rel fun v w => ∃ x, Denotes v d x ∧ Denotes w d x

/-- The same times, perhaps in different units, or left out in both calls. -/
def SameTimes : Option Row → Option Row → Prop :=
  Option.Rel fun r r' => r.unit.dim = timeDim ∧ r'.unit.dim = timeDim ∧ r.si = r'.si

/-- The density `d` is a spectral density (in 1/Hz or any other unit of time) which is `n` in SI units. -/
def DenotesDensity (d : Density) (n : WithTop ℝ) : Prop :=
  d.unit.dim = timeDim ∧ d.number.map (fun x => x * d.unit.scale) = n

/-- The settings `U` with units and `C` in SI units describe the same observation: the same time and, at every
frequency, the same noise or the same error. -/
structure SameObservation (U : units.Ctx) (C : snr.Ctx) : Prop where
  consts : U.K = C.K
  g : U.interpolated_g = C.interpolated_g
  time : Denotes U.t_obs timeDim C.t_obs
  noise : ∀ f x, Denotes f freqDim x → ∀ n, snr.noise C x = .ok n → ∃ d, units.noise U f = .ok d ∧ DenotesDensity d n
  error : ∀ f x, Denotes f freqDim x → ∀ e, snr.noise C x = .error e → units.noise U f = .error e

end Legwork.Spec
