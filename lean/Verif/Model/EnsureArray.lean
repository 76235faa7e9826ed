import Verif.Py.Basic

/-!
# Model of `utils.ensure_array`, `src/legwork/utils.py` lines 268-312
-/

namespace Legwork.utils

/-- A numpy array: shape and entries (an array of shape `[]` is still an `np.ndarray`). -/
structure NdArray (α : Type) where
  shape : List Nat
  data : List α
  deriving DecidableEq

/-- `np.asarray([x])` / `np.asarray(xs)` of a flat list. -/
def asarray {α : Type} (xs : List α) : NdArray α := ⟨[xs.length], xs⟩

/-- An argument of `ensure_array`. `obj` is anything that is not `None`, a list, an array or a quantity; the value
of a quantity is an array or a scalar. -/
inductive Arg (α U : Type)
  | none
  | obj (x : α)
  | list (xs : List α)
  | array (a : NdArray α)
  | scalarQuantity (x : α) (unit : U)
  | arrayQuantity (a : NdArray α) (unit : U)
  deriving DecidableEq

variable {α U : Type}

/-- One round of the loop, utils.py lines 293-311: the converted argument and the updated flag. -/
def ensure_one (any_not_arrays : Bool) : Arg α U → Arg α U × Bool
  | .scalarQuantity x u => (.arrayQuantity (asarray [x]) u, true)
  | .arrayQuantity a u => (.arrayQuantity a u, any_not_arrays)
  | .obj x => (.array (asarray [x]), true)
  | .list xs => (.array (asarray xs), any_not_arrays)
  | .array a => (.array a, any_not_arrays)
  | .none => (.none, any_not_arrays)

/-- The loop over the arguments. -/
def ensure_loop (any_not_arrays : Bool) : List (Arg α U) → List (Arg α U) × Bool
  | [] => ([], any_not_arrays)
  | x :: xs =>
    let (y, flag) := ensure_one any_not_arrays x
    let (ys, flag) := ensure_loop flag xs
    (y :: ys, flag)

/-- `utils.ensure_array`, utils.py lines 268-312. -/
def ensure_array (args : List (Arg α U)) : List (Arg α U) × Bool := ensure_loop false args

end Legwork.utils
