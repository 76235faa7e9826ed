import Verif.Spec.Source
import Verif.Spec.ScCurve
import Verif.Model.SourceFile

/-!
# Vocabulary for saving and loading
-/

namespace Legwork.Spec

open Legwork.source

/-- A user supplied function. -/
def IsFunction : PVal → Bool
  | .psdFn _ => true
  | .noiseFn _ => true
  | _ => false

/-- A value that is no function, after it has been written to a file and read again: the string that stands for `None` in
files becomes `None`. -/
def asRead : PVal → PVal
  | .str s => if s = "__none__" then .none else .str s
  | v => v

/-- The parameters that come back from a file: those saved, with functions replaced by the documented defaults. -/
def comesBack (d : Dict) : Dict :=
  scKeys.map fun key => (key, if IsFunction (d.get key) then DEFAULT_SC_PARAMS.get key else asRead (d.get key))

/-- No parameter is the string that stands for `None` in files. -/
def Plain (d : Dict) : Prop := ∀ key, d.get? key ≠ some (.str "__none__")

/-- The two objects, on possibly different heaps, agree in all their attributes; the arrays of results have the same
contents and the parameters are equal dictionaries. -/
structure SameSources (h : Heap) (s : ℕ) (k : Heap) (s' : ℕ) : Prop where
  cls : (k.src s').cls = (h.src s).cls
  cols : (k.src s').cols = (h.src s).cols
  stat_tol : (k.src s').stat_tol = (h.src s).stat_tol
  n_proc : (k.src s').n_proc = (h.src s).n_proc
  gw_lum_tol : (k.src s').gw_lum_tol = (h.src s).gw_lum_tol
  harmonics_required : (k.src s').harmonics_required = (h.src s).harmonics_required
  max_strain_harmonic : (k.src s').max_strain_harmonic = (h.src s).max_strain_harmonic
  ecc_tol : (k.src s').ecc_tol = (h.src s).ecc_tol
  interpolate_sc : (k.src s').interpolate_sc = (h.src s).interpolate_sc
  sc : (k.src s').sc = (h.src s).sc
  g : (k.src s').g = (h.src s).g
  snr : (k.src s').snr.map k.snrs = (h.src s).snr.map h.snrs
  max_snr_harmonic : (k.src s').max_snr_harmonic.map k.harms = (h.src s).max_snr_harmonic.map h.harms
  sc_params : ∃ p p', (h.src s).sc_params = some p ∧ (k.src s').sc_params = some p' ∧
    (k.par p').dict.eq (h.par p).dict

/-- The object `s'` made by loading: what was saved from `s`, with the given class, settings and parameters, and what
follows from these. -/
structure LoadedAs (W : World) (h : Heap) (s : ℕ) (c : Cls) (ig isc : Bool) (np : ℕ)
    (tol : ℝ) (d : Dict) (k : Heap) (s' : ℕ) : Prop where
  cls : (k.src s').cls = c
  cols : (k.src s').cols = (h.src s).cols
  stat_tol : (k.src s').stat_tol = (h.src s).stat_tol
  n_proc : (k.src s').n_proc = np
  gw_lum_tol : (k.src s').gw_lum_tol = some tol
  harmonics_required : (k.src s').harmonics_required = some (source.harmonics_required W.table tol)
  max_strain_harmonic : (k.src s').max_strain_harmonic = some (source.max_strain_harmonic W.table tol)
  ecc_tol : ∃ e, source.find_eccentric_transition tol = .ok e ∧ (k.src s').ecc_tol = some e
  interpolate_sc : (k.src s').interpolate_sc = isc
  sc_on : isc = true → ∃ c, CurveOf W d c ∧ (k.src s').sc = some c
  sc_off : isc = false → (k.src s').sc = none
  g : (k.src s').g = if ig then some W.gSpline else none
  snr : (k.src s').snr.map k.snrs = (h.src s).snr.map h.snrs
  max_snr_harmonic : (k.src s').max_snr_harmonic.map k.harms = (h.src s).max_snr_harmonic.map h.harms
  sc_params : ∃ p', (k.src s').sc_params = some p' ∧ (k.par p').dict.eq d ∧ (k.par p').source = some s'

/-- Objects and arrays that existed before are as they were. -/
structure Undisturbed (k k' : Heap) : Prop where
  src : ∀ x < k.next, k'.src x = k.src x
  par : ∀ x < k.next, k'.par x = k.par x
  snrs : ∀ x < k.next, k'.snrs x = k.snrs x
  harms : ∀ x < k.next, k'.harms x = k.harms x

/-- The class an object gets: the one `from_file` is called on, or for `Source` the one saved, unless that is
`VerificationBinaries`. -/
def classFor (called saved : Cls) : Cls :=
  match called, saved with
  | .Source, .VerificationBinaries => .Source
  | .Source, c => c
  | c, _ => c

/-- The store after all the steps. -/
def storeAfter (st : Store) (sts : List Store) : Store := sts.getLastD st

/-- There is a file, of whatever kind. -/
def IsFile (e : Option Entry) : Prop := e = some .other ∨ ∃ f, e = some (.h5 f)

end Legwork.Spec
