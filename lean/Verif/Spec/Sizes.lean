import Verif.Spec.Index
import Verif.Spec.Source

/-!
# Vocabulary for the consistency of collections
-/

namespace Legwork.Spec

open Legwork.source

/-- The number of entries of a dataset. -/
def Entries : Data → ℕ
  | .reals xs => xs.length
  | .nans xs => xs.length
  | .nats xs => xs.length
  | .bools xs => xs.length

/-- The datasets of a file fit together: as many entries as masses (columns that may be missing and are not checked by the
constructor), and sources marked as merged have no time left. -/
def FileFits (f : H5) : Prop := ∀ m, f.data.lookup "m_1" = some m →
  (∀ name ∈ ["weights", "inclination", "polarisation", "position_lon", "t_merge", "snr", "max_snr_harmonic", "merged"],
    ∀ d, f.data.lookup name = some d → Entries d.data = Entries m.data) ∧
  ∀ ms ts u v, f.data.lookup "merged" = some ⟨.bools ms, u⟩ → f.data.lookup "t_merge" = some ⟨.reals ts, v⟩ →
    ∀ i : ℕ, ms[i]? = some true → ∀ t, ts[i]? = some t → t = 0

/-- Sources marked as merged have no time left, sources with positions are circular, and without positions there are no
other angles. -/
structure Coherent (c : Cols) : Prop where
  merged : ∀ i, (rowAt c i).merged = true → ∀ t, (rowAt c i).t_merge = some t → t = 0
  circular : c.position.isSome → ∀ i, (rowAt c i).ecc = 0
  angles : c.position = none → c.inclination = none ∧ c.polarisation = none

/-- Lengths that the code does not check: constructor arguments other than masses, distances, orbits and eccentricities
have one entry per source (a position may also be the same for all), separations assigned to `sources.a` are one or
one per source, values assigned to other columns are consistent, and the columns of the table of verification binaries and the datasets of a file that is loaded fit
together. -/
def SizeOk (h : Heap) : Op → Prop
  | .init _ a => (∀ x, a.weights = some x → x.toList.length = a.m_1.toList.length) ∧
      (∀ x, a.inclination = some x → x.toList.length = a.m_1.toList.length) ∧
      (∀ x, a.polarisation = some x → x.toList.length = a.m_1.toList.length) ∧
      ∀ x, a.position = some x → x.toList.length = a.m_1.toList.length ∨ x.toList.length = 1
  | .setA s a => a.length = (h.src s).cols.n_sources ∨ a.length = 1
  | .setCols s c => Rect c ∧ Coherent c ∧ c.n_sources = (h.src s).cols.n_sources
  | .verification vbs _ => vbs.i.length = vbs.m_1.length ∧ vbs.position.length = vbs.m_1.length
  | .load Φ st _ name _ _ _ => ∀ f, st (Φ.locate (normalise name)) = some (.h5 f) → FileFits f
  | _ => True

/-- A source object is consistent. -/
structure Tidy (h : Heap) (s : ℕ) : Prop where
  sized : Sized h s
  settled : Coherent (h.src s).cols

/-- No source is evolved into the past, and none marked as merged is given another mark. -/
def Forwards (h : Heap) : Op → Prop
  | .setCols s c => ∀ i : ℕ, (h.src s).cols.merged[i]? = some true → c.merged[i]? = some true
  | .evolve _ (.scalar t) => 0 ≤ t
  | .evolve _ (.array ts) => ∀ t ∈ ts, 0 ≤ t
  | _ => True

/-- Nothing is assigned to the attributes with one entry per source (other than `a`). -/
def NoAssignment : Op → Prop
  | .setCols _ _ => False
  | _ => True

end Legwork.Spec
