import Verif.Model.Source
import Verif.Py.Iterate

/-!
# `len(sources)`, `repr(sources)` and loops over sources

`Source` defines `__len__` and `__getitem__` but not `__iter__` (source.py lines 232-296), so python iterates it by index.
-/

namespace Legwork.source

/-- `len(sources)`, source.py lines 235-236. -/
def len (s : ℕ) : M ℕ := do
  let src ← getSrc s
  pure src.cols.n_sources

/-- `repr(sources)`, source.py lines 232-233, 1603-1604, 1616-1617 and 1645-1646. -/
def repr (s : ℕ) : M String := do
  let src ← getSrc s
  pure (match src.cls with
    | .Source => "<Source: " ++ toString src.cols.n_sources ++ " sources>"
    | .Stationary => "<Stationary: " ++ toString src.cols.n_sources ++ " stationary sources>"
    | .Evolving => "<Evolving: " ++ toString src.cols.n_sources ++ " evolving sources>"
    | .VerificationBinaries => "<VerificationBinaries | Kupfer+2018>")

/-- `[body(x) for x in sources]` in the heap `h` (source.py lines 238-296 by the sequence protocol). -/
def Loop {α : Type} (s : ℕ) (body : ℕ → M α) (h : Heap) (items : List ℕ) (r : Except PyErr (List α)) (h' : Heap) : Prop :=
  ForEach forward (fun j => getitem s (.int j)) body 0 h items r h'

/-- `[body(x) for x in reversed(sources)]` in the heap `h`: python asks for `len(sources)` once and counts down. -/
def LoopReversed {α : Type} (s : ℕ) (body : ℕ → M α) (h : Heap) (items : List ℕ) (r : Except PyErr (List α)) (h' : Heap) : Prop :=
  ∃ n, len s h = (.ok n, h) ∧ ForEach (backward n) (fun j => getitem s (.int j)) body 0 h items r h'

end Legwork.source
