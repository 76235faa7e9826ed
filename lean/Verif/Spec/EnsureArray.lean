import Verif.Model.EnsureArray

/-!
# What `ensure_array` should do to one argument
-/

namespace Legwork.Spec

open Legwork.utils

variable {α U : Type}

/-- The argument is a scalar, with or without units. -/
def IsScalar : Arg α U → Prop
  | .obj _ => True
  | .scalarQuantity _ _ => True
  | _ => False

/-- The argument is `None`. -/
def IsNone (x : Arg α U) : Prop := x = .none

/-- The unit of an argument, if it has one. -/
def unitOf : Arg α U → Option U
  | .scalarQuantity _ u => some u
  | .arrayQuantity _ u => some u
  | _ => none

/-- The values held by an argument, in order. -/
def values : Arg α U → List α
  | .none => []
  | .obj x => [x]
  | .list xs => xs
  | .array a => a.data
  | .scalarQuantity x _ => [x]
  | .arrayQuantity a _ => a.data

/-- The argument is a numpy array (possibly with units) of a given shape. -/
def HasShape (s : List Nat) : Arg α U → Prop
  | .array a => a.shape = s
  | .arrayQuantity a _ => a.shape = s
  | _ => False

end Legwork.Spec
