import Verif.Spec.Index
import Verif.Spec.Source

/-!
# Vocabulary for the independence of source objects
-/

namespace Legwork.Spec

open Legwork.source

/-- No attribute of `s` differs, nor the contents of its parameters and arrays of results. -/
structure Untouched (h h' : Heap) (s : ℕ) : Prop where
  src : h'.src s = h.src s
  params : ∀ p, (h.src s).sc_params = some p → h'.par p = h.par p
  snr : ∀ r, (h.src s).snr = some r → h'.snrs r = h.snrs r
  harm : ∀ r, (h.src s).max_snr_harmonic = some r → h'.harms r = h.harms r

/-- The source a call is made on; a call on a parameter object counts for the source it belongs to, constructors
and `from_file` are not called on a source. -/
def Op.on (h : Heap) : Op → Option ℕ
  | .setitem p _ _ => (h.par p).source
  | .update p _ => (h.par p).source
  | .remove p => (h.par p).source
  | .copyParams p => (h.par p).source
  | .assign s _ => some s
  | .setSc s => some s
  | .setTol s _ => some s
  | .setG s _ => some s
  | .setA s _ => some s
  | .setCols s _ => some s
  | .setPlain s _ _ _ => some s
  | .getSnr s _ _ _ => some s
  | .getSnrStationary s _ _ => some s
  | .getSnrEvolving s _ _ _ => some s
  | .getMask s _ _ _ => some s
  | .mergerTime s _ _ _ => some s
  | .evolve s _ => some s
  | .evolveNew s _ => some s
  | .getitem s _ => some s
  | .copy s => some s
  | .init _ _ => none
  | .verification _ _ => none
  | .load _ _ _ _ _ _ _ => none

/-- A program makes calls satisfying `ok`, one after the other, and may carry on after exceptions. -/
inductive Calls (W : World) (ok : Heap → Op → Prop) (h : Heap) : Heap → Prop
  | none : Calls W ok h h
  | call {h' : Heap} (op : Op) (hc : Calls W ok h h') (hok : ok h' op) : Calls W ok h (op.run W h').2

/-- Calls that are not made on `s`. -/
def NotOn (s : ℕ) : Heap → Op → Prop := fun h op => op.on h ≠ some s

end Legwork.Spec
