import Verif.Model.Source

/-!
# Log messages

The messages a user sees, word for word, and which of them belong to a call.
-/

namespace Legwork.Spec

open Legwork.source

/-- Level and text. -/
def pastMerger : String × String := ("warning", "Some timesteps are past the merger of the source and this may produce erroneous results in combination with `avoid_merger=True`. Only evolve sources until their merger or set `avoid_merger=False`.")

def tooClose : String × String := ("warning", "All timesteps are too close to merger so evolution is not possible. Either set `t_before` to a smaller time or turn off `avoid_merger`")

def randomInclinations : String × String := ("info", "Generating random values for source inclinations")

def randomPolarisations : String × String := ("info", "Generating random values for source polarisations")

def fewSources : String × String := ("warning", "Setting `interpolate_g=True` for a small number of sources may be slower than computing directly. The exact runtime depends on the eccentricity of your sources so we recommend trying your sample with `interpolate_g=False` to check which is faster.")

open Classical in
/-- The message, if there is reason for it. -/
noncomputable def because (reason : Prop) (message : String × String) : List (String × String) :=
  if reason then [message] else []

/-- The merger times that belong to the arguments of `evol_ecc`: those supplied, or those `get_t_merge_ecc` computes
from the same description of the binaries. -/
def MergersOf {n : ℕ} (K : Consts) (ecc : Fin n → ℝ) (beta m_1 m_2 a_i f_orb_i : Option (Fin n → ℝ)) (exact : Bool)
    (supplied : Option (Fin n → ℝ)) (T : Fin n → ℝ) : Prop :=
  supplied = some T ∨ supplied = none ∧
    evol.get_t_merge_ecc K ecc a_i f_orb_i beta m_1 m_2 0.15 (1 - 1e-4) exact = .ok T

/-- The number of sources described by the masses. -/
def described : Raw → ℕ
  | .scalar _ _ => 1
  | .array xs _ => xs.length

end Legwork.Spec
