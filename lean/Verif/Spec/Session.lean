import Verif.Spec.SourceFile
import Verif.Spec.Sizes

/-!
# Vocabulary for programs that keep sources in files
-/

namespace Legwork.Spec

open Legwork.source

/-- Not a call that reads a file. -/
def NoLoad : Op → Prop
  | .load .. => False
  | _ => True

/-- Files are removed, moved, copied or replaced by something that is no HDF5 file. -/
def Rearranged (st st' : Store) : Prop := ∀ l f, st' l = some (.h5 f) → ∃ l', st l' = some (.h5 f)

/-- The objects and the files there can be when only LEGWORK writes files: a program starts without objects and without
HDF5 files; it makes calls satisfying `ok`, loads files, and saves objects, where a `save` may be cut short after any
of its writes (also before the first: then nothing has happened); a new process starts without objects but with the
files left by the others; and files can be rearranged in between. Paths, folders that can be written, and the
version of LEGWORK may be different each time. -/
inductive Session (W : World) (ok : Heap → Op → Prop) : Heap → Store → Prop
  | start {h : Heap} {st : Store} (he : ∀ s, h.src s = blank) (hst : ∀ l f, st l ≠ some (.h5 f)) : Session W ok h st
  | call {h : Heap} {st : Store} (op : Op) (hs : Session W ok h st) (hn : NoLoad op) (hok : ok h op) :
      Session W ok (op.run W h).2 st
  | load {h : Heap} {st : Store} (Φ : Files) (cls : Cls) (name : String) (interpolate_g interpolate_sc : Option Bool)
      (n_proc : Option ℕ) (hs : Session W ok h st) :
      Session W ok (from_file W Φ st cls name interpolate_g interpolate_sc n_proc h).2 st
  | save {h : Heap} {st st' : Store} (Φ : Files) (s : ℕ) (name : String) (overwrite : Bool) (hs : Session W ok h st)
      (hm : st' ∈ (save Φ h s name overwrite st).2) : Session W ok h st'
  | process {h h' : Heap} {st : Store} (hs : Session W ok h st) (he : ∀ s, h'.src s = blank) : Session W ok h' st
  | rearrange {h : Heap} {st st' : Store} (hs : Session W ok h st) (hr : Rearranged st st') : Session W ok h st'

/-- `r` on the heap `k` is what has become of `s` on the heap `h` after being saved and loaded any number of times, each
time with the settings in the file. -/
inductive HandedOn (W : World) (ok : Heap → Op → Prop) (h : Heap) (s : ℕ) : Heap → ℕ → Prop
  | here : HandedOn W ok h s h s
  | on {k m m' : Heap} {r : ℕ} {Φ Φ' : Files} {st st' : Store} {sts : List Store} {ws : List String} {name name' : String}
      {overwrite : Bool} {x : Loaded} (hb : HandedOn W ok h s k r) (hs : source.save Φ k r name overwrite st = (.ok ws, sts))
      (hkept : st' (Φ'.locate (normalise name')) = storeAfter st sts (Φ.locate (normalise name)))
      (hm : Reachable W ok m) (hl : from_file W Φ' st' .Source name' none none none m = (.ok x, m')) :
      HandedOn W ok h s m' x.source

end Legwork.Spec
