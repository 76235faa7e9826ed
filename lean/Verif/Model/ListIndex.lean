import Verif.Model.Source

/-!
# Python lists as indices
-/

namespace Legwork.source

/-- An entry of a python list; `other` is a float, a string or anything else that is not an integer. -/
inductive Item
  | int (i : ℤ)
  | bool (b : Bool)
  | other

/-- The integer that `np.asarray` makes of an entry in an array of integers. -/
def Item.toInt? : Item → Option ℤ
  | .int i => some i
  | .bool b => some (if b then 1 else 0)
  | .other => none

/-- An entry of an array of booleans. -/
def Item.toBool? : Item → Option Bool
  | .bool b => some b
  | _ => none

/-- `np.asarray(ind)` for a python list, source.py line 269: no entries make an array of floats, booleans alone an array of
booleans, booleans and integers an array of integers. Lists of lists are not modelled. -/
def asarray (items : List Item) : Index :=
  if items = [] then .other
  else
    match items.mapM Item.toBool? with
    | some bs => .bools bs
    | none =>
      match items.mapM Item.toInt? with
      | some is => .ints is
      | none => .other

/-- `sources[[...]]`, source.py lines 238-296. -/
def getitem_list (s : ℕ) (items : List Item) : M ℕ := getitem s (asarray items)

end Legwork.source
