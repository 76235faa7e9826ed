import Verif.Spec.Source

/-!
# Arrays as python objects

The attributes of `Source` with one entry per source are references to numpy arrays, which a program can write into and
which several attributes can share. The model of `Source` (Model/Source) has the values of these arrays in its columns.
Here the arrays have identities: an array is bound to attributes and its values are in a memory. The calls of the library
are those of Model/Source, run on the values that are in the arrays; after a call attributes are bound to new arrays
where the code assigns to them, to the arrays handed over where the code passes arrays on, and to the arrays from before
otherwise. Not modelled: `merged` (no code shares its array) and `position` (`SkyCoord` makes copies, source.py line 173,
and cannot be written into without more), and arrays that are views of parts of other arrays.
-/

namespace Legwork.source

open Legwork.Spec

/-- The attributes of a `Source` that are arrays of numbers (source.py lines 198-206 and 213). -/
inductive Attr
  | m_1
  | m_2
  | dist
  | f_orb
  | ecc
  | weights
  | inclination
  | polarisation
  | t_merge
  deriving DecidableEq

/-- The value of an attribute; `none` is python's `None`. -/
def Cols.get (c : Cols) : Attr → Option (List ℝ)
  | .m_1 => some c.m_1
  | .m_2 => some c.m_2
  | .dist => some c.dist
  | .f_orb => some c.f_orb
  | .ecc => some c.ecc
  | .weights => c.weights
  | .inclination => c.inclination
  | .polarisation => c.polarisation
  | .t_merge => c.t_merge

/-- Assignment to an attribute. -/
def Cols.put (c : Cols) (a : Attr) (xs : List ℝ) : Cols :=
  match a with
  | .m_1 => { c with m_1 := xs }
  | .m_2 => { c with m_2 := xs }
  | .dist => { c with dist := xs }
  | .f_orb => { c with f_orb := xs }
  | .ecc => { c with ecc := xs }
  | .weights => { c with weights := some xs }
  | .inclination => { c with inclination := some xs }
  | .polarisation => { c with polarisation := some xs }
  | .t_merge => { c with t_merge := some xs }

/-- Columns with the values found in arrays. An attribute that is `None` stays so. -/
def Cols.read (c : Cols) (v : Attr → List ℝ) : Cols :=
  { c with
    m_1 := v .m_1, m_2 := v .m_2, dist := v .dist, f_orb := v .f_orb, ecc := v .ecc,
    weights := c.weights.map fun _ => v .weights,
    inclination := c.inclination.map fun _ => v .inclination,
    polarisation := c.polarisation.map fun _ => v .polarisation,
    t_merge := c.t_merge.map fun _ => v .t_merge }

/-- The identity of an array: made by the library at some step of the program for an attribute of an object, or made by
the program itself. -/
inductive Arr
  | made (step obj : ℕ) (attr : Attr)
  | own (step : ℕ)
  deriving DecidableEq

/-- The step at which an array was made. -/
def Arr.born : Arr → ℕ
  | .made t _ _ => t
  | .own t => t

/-- The objects of a program (the columns in `heap` only say which attributes are `None`), the arrays their attributes
are bound to, the values in the arrays, and the number of the step. -/
structure Shared where
  heap : Heap
  addr : ℕ → Attr → Arr
  mem : Arr → List ℝ
  step : ℕ

/-- What the program sees: the objects with the values in their arrays. -/
def Shared.view (σ : Shared) : Heap :=
  { σ.heap with src := fun s =>
      { σ.heap.src s with cols := (σ.heap.src s).cols.read fun a => σ.mem (σ.addr s a) } }

open Classical in
/-- The attributes of existing objects that a call assigns to, given whether it returned: the setter of `a` (source.py
line 511), assignments of new arrays by the program, `get_merger_time` (lines 1220-1221), and `evolve_sources`, which computes
merger times if there are none (lines 1247-1248) and assigns to the others at the end (lines 1313-1318). -/
def Rebinds (W : World) (h : Heap) (ok : Prop) : Op → ℕ → Attr → Prop
  | .setA s _, x, .f_orb => x = s ∧ ok
  | .setCols s _, x, _ => x = s
  | .mergerTime s save _ exact, x, .t_merge => x = s ∧ save = true ∧
      ∃ t, calc_merger_time W (h.src s).cols (which (h.src s).cols.n_sources none) exact = .ok t
  | .evolve s _, x, .t_merge => x = s ∧ (ok ∨ (h.src s).cols.t_merge = none)
  | .evolve s _, x, .f_orb => x = s ∧ ok
  | .evolve s _, x, .ecc => x = s ∧ ok
  | .evolveNew s _, x, .t_merge => x = s ∧ (h.src s).cols.t_merge = none
  | _, _, _ => False

/-- The arrays that a call passes on to the object it makes: `evolve_sources(create_new_class=True)` calls the constructor
with `self.m_1`, `self.m_2`, `self.dist`, `self.polarisation` and `self.inclination` (source.py lines 1291-1295), and the
constructor keeps the arrays it is given (`np.atleast_1d` in lines 171-172 and `ensure_array` in utils.py lines 268-309 return
arrays as they are; lines 198-206). Indexing (lines 278-292) selects with arrays of integers or booleans, for which numpy makes
copies, and everything read from files is new. -/
def passed (h : Heap) (addr : ℕ → Attr → Arr) : Op → Attr → Option Arr
  | .evolveNew s _, .m_1 => some (addr s .m_1)
  | .evolveNew s _, .m_2 => some (addr s .m_2)
  | .evolveNew s _, .dist => some (addr s .dist)
  | .evolveNew s _, .polarisation => (h.src s).cols.polarisation.map fun _ => addr s .polarisation
  | .evolveNew s _, .inclination => (h.src s).cols.inclination.map fun _ => addr s .inclination
  | _, _ => none

open Classical in
/-- A call. The object it makes, if any, is the one at the next address, and it keeps the arrays in `given`. -/
noncomputable def Shared.call (W : World) (σ : Shared) (op : Op) (given : Attr → Option Arr) : Shared :=
  let h := σ.view
  let r := op.run W h
  { heap := r.2
    addr := fun s a =>
      if s < h.next then
        if Rebinds W h (r.1 = .ok ()) op s a then .made σ.step s a else σ.addr s a
      else if s = h.next ∧ r.1 = .ok () then (given a).getD (.made σ.step s a)
      else .made σ.step s a
    mem := fun x => match x with
      | .made t s a => if t = σ.step then ((r.2.src s).cols.get a).getD [] else σ.mem (.made t s a)
      | .own t => σ.mem (.own t)
    step := σ.step + 1 }

/-- Constructor arguments of which some are arrays that exist already, with the right units. -/
def InitArgs.fill (args : InitArgs) (mem : Arr → List ℝ) (given : Attr → Option Arr) : InitArgs :=
  { args with
    m_1 := (given .m_1).elim args.m_1 fun r => .array (mem r) true
    m_2 := (given .m_2).elim args.m_2 fun r => .array (mem r) true
    dist := (given .dist).elim args.dist fun r => .array (mem r) true
    ecc := (given .ecc).elim args.ecc fun r => .array (mem r) false
    f_orb := (given .f_orb).elim args.f_orb fun r => some (.array (mem r) true)
    weights := (given .weights).elim args.weights fun r => some (.array (mem r) false)
    inclination := (given .inclination).elim args.inclination fun r => some (.array (mem r) true)
    polarisation := (given .polarisation).elim args.polarisation fun r => some (.array (mem r) true) }

/-- `t_merge` is no argument of the constructor. -/
def ctorArrays (given : Attr → Option Arr) : Attr → Option Arr
  | .t_merge => none
  | a => given a

/-- A step of a program. -/
inductive Step
  /-- A call with new arrays. -/
  | call (op : Op)
  /-- `Source(m_1=x, ...)` where `x` and perhaps other arguments are existing arrays. -/
  | init (cls : Cls) (args : InitArgs) (given : Attr → Option Arr)
  /-- The program makes an array. -/
  | array (xs : List ℝ)
  /-- `sources.m_1 = x` for an existing array `x`. -/
  | give (s : ℕ) (a : Attr) (x : Arr)
  /-- `x[...] = xs`: writing into an array. Its length stays what it is. -/
  | write (x : Arr) (xs : List ℝ)

/-- Writing into an array; values of another length are an error. -/
def Shared.write (σ : Shared) (x : Arr) (xs : List ℝ) : Shared :=
  if xs.length = (σ.mem x).length then { σ with mem := Function.update σ.mem x xs, step := σ.step + 1 } else σ

/-- Binding an attribute to an existing array. -/
def Shared.give (σ : Shared) (s : ℕ) (a : Attr) (x : Arr) : Shared :=
  { σ with
    heap := σ.heap.setSrc s { σ.heap.src s with cols := (σ.heap.src s).cols.put a (σ.mem x) }
    addr := fun s' a' => if s' = s ∧ a' = a then x else σ.addr s' a'
    step := σ.step + 1 }

/-- The effect of a step. -/
noncomputable def Step.run (W : World) (σ : Shared) : Step → Shared
  | .call op => σ.call W op (passed σ.view σ.addr op)
  | .init cls args given => σ.call W (.init cls (args.fill σ.mem (ctorArrays given))) (ctorArrays given)
  | .array xs => { σ with mem := Function.update σ.mem (.own σ.step) xs, step := σ.step + 1 }
  | .give s a x => σ.give s a x
  | .write x xs => σ.write x xs

end Legwork.source
