import Verif.Model.Shared
import Verif.Spec.Sizes

/-!
# Vocabulary for programs that share arrays and write into them
-/

namespace Legwork.Spec

open Legwork.source

/-- The program uses only arrays that exist. -/
def Step.Valid (σ : Shared) : Step → Prop
  | .init _ _ given => ∀ a x, given a = some x → x.born < σ.step
  | .give _ _ x => x.born < σ.step
  | .write x _ => x.born < σ.step
  | _ => True

/-- The states of programs that may write into arrays: no objects and no arrays at first, then steps satisfying `ok`. -/
inductive Made (W : World) (ok : Shared → Step → Prop) : Shared → Prop
  | start {h : Heap} (he : ∀ s, h.src s = blank) : Made W ok ⟨h, fun s a => .made 0 s a, fun _ => [], 1⟩
  | step {σ : Shared} (st : Step) (hm : Made W ok σ) (hv : Step.Valid σ st) (hok : ok σ st) : Made W ok (st.run W σ)

/-- Any step. -/
def AnyStep : Shared → Step → Prop := fun _ _ => True

/-- A condition on calls as a condition on steps: passing an array is a call with the values in it, and a write leaves an
object whose array it is with values that could have been assigned. -/
def Allowed (ok : Heap → Op → Prop) (σ : Shared) : Step → Prop
  | .call op => ok σ.view op
  | .init cls args given => ok σ.view (.init cls (args.fill σ.mem (ctorArrays given)))
  | .array _ => True
  | .give s a x => ok σ.view (.setCols s ((σ.view.src s).cols.put a (σ.mem x)))
  | .write x xs => ∀ s, (∃ a, σ.addr s a = x) → ok σ.view (.setCols s ((σ.write x xs).view.src s).cols)

/-- Whether an assignment is allowed depends on nothing but the object assigned to. -/
def PerObject (ok : Heap → Op → Prop) : Prop :=
  ∀ (h h' : Heap) (s : ℕ) (c : Cols), h.src s = h'.src s → ok h (.setCols s c) → ok h' (.setCols s c)

/-- The attributes whose arrays an evolved new object is given. -/
def PassedOn : Attr → Prop
  | .m_1 | .m_2 | .dist | .inclination | .polarisation => True
  | _ => False

/-- The program binds no array to a second attribute. -/
def OnceEach (σ : Shared) : Step → Prop
  | .init _ _ given => (∀ a x, given a = some x → ∀ s b, σ.addr s b ≠ x) ∧
      ∀ a b x, given a = some x → given b = some x → a = b
  | .give s a x => ∀ s' a', σ.addr s' a' = x → s' = s ∧ a' = a
  | _ => True

/-- Nor does it call `evolve_sources(create_new_class=True)`. -/
def NoneShared (σ : Shared) (st : Step) : Prop :=
  OnceEach σ st ∧ ∀ s t, st ≠ .call (.evolveNew s t)

/-- Attributes bound to the same array are the same, or those of objects evolved from one another. -/
def Kin (σ : Shared) : Prop :=
  ∀ s a s' a', σ.addr s a = σ.addr s' a' → a = a' ∧ (s = s' ∨ PassedOn a)

end Legwork.Spec
