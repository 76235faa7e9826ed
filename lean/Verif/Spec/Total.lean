import Verif.Model.Snr

/-!
# Vocabulary for strains of all harmonics together
-/

namespace Legwork.Spec

/-- The square of the strain of several harmonics together (harmonics at different frequencies do not interfere, so
squares add up). -/
noncomputable def together (strains : List ℝ) : ℝ := (strains.map fun x => x ^ 2).sum

/-- `strain.h_0_n` for one source at one time, with the exact `peters_g`: the strains of the listed harmonics. -/
def StrainsAre (K : Consts) (m_c dist f_orb ecc : ℝ) (o : strain.Orientation) (n : List ℤ) (s : List ℝ) : Prop :=
  strain.h_0_n K none n [⟨m_c, dist, [(f_orb, ecc)], o⟩] = .ok [[s]]

/-- `strain.h_c_n` for one source at one time, with the exact `peters_g`: the characteristic strains of the listed
harmonics. -/
def CharacteristicAre (K : Consts) (m_c dist f_orb ecc : ℝ) (o : strain.Orientation) (n : List ℤ) (s : List ℝ) :
    Prop :=
  strain.h_c_n K none n [⟨m_c, dist, [(f_orb, ecc)], o⟩] = .ok [[s]]

/-- The harmonics `1, 2, …, N`. -/
def firstHarmonics (N : ℕ) : List ℤ := (List.range N).map fun k : ℕ => (k : ℤ) + 1

end Legwork.Spec
