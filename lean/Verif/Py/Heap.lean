import Verif.Py.Basic

/-!
# Stateful python code

Code that changes objects is a function from heaps to a result or an exception together with the heap it leaves.
Changes made before an exception is raised are kept.
-/

namespace Legwork

/-- Stateful code over heaps `H`. -/
def PyM (H α : Type) : Type := H → Except PyErr α × H

namespace PyM

variable {H α β : Type}

/-- Sequencing: stop at the first exception. -/
def bind (m : PyM H α) (f : α → PyM H β) : PyM H β := fun h =>
  match m h with
  | (.ok a, h') => f a h'
  | (.error e, h') => (.error e, h')

instance : Monad (PyM H) where
  pure a := fun h => (.ok a, h)
  bind := bind

/-- Code that only computes. -/
def lift (e : Except PyErr α) : PyM H α := fun h => (e, h)

/-- The current heap. -/
def get : PyM H H := fun h => (.ok h, h)

/-- Change the heap. -/
def modify (f : H → H) : PyM H Unit := fun h => (.ok (), f h)

@[simp] theorem pure_run (a : α) (h : H) : (pure a : PyM H α) h = (.ok a, h) := rfl

theorem bind_run (m : PyM H α) (f : α → PyM H β) (h : H) :
    (m >>= f) h = match m h with
      | (.ok a, h') => f a h'
      | (.error e, h') => (.error e, h') := rfl

@[simp] theorem lift_run (e : Except PyErr α) (h : H) : (lift e : PyM H α) h = (e, h) := rfl

@[simp] theorem get_run (h : H) : (get : PyM H H) h = (.ok h, h) := rfl

@[simp] theorem modify_run (f : H → H) (h : H) : modify f h = (.ok (), f h) := rfl

theorem bind_ok {m : PyM H α} {f : α → PyM H β} {h h' : H} {a : α} (hm : m h = (.ok a, h')) :
    (m >>= f) h = f a h' := by
  rw [bind_run, hm]

theorem bind_error {m : PyM H α} {f : α → PyM H β} {h h' : H} {e : PyErr} (hm : m h = (.error e, h')) :
    (m >>= f) h = (.error e, h') := by
  rw [bind_run, hm]

/-- A successful sequence succeeds in both parts. -/
theorem bind_eq_ok {m : PyM H α} {f : α → PyM H β} {h h'' : H} {b : β} (hb : (m >>= f) h = (.ok b, h'')) :
    ∃ a h', m h = (.ok a, h') ∧ f a h' = (.ok b, h'') := by
  rw [bind_run] at hb
  rcases hm : m h with ⟨_ | a, h'⟩
  · rw [hm] at hb
    simp at hb
  · rw [hm] at hb
    exact ⟨a, h', rfl, hb⟩

/-- `m` keeps the property `I` of heaps, whether or not it raises an exception. -/
def Preserves (I : H → Prop) (m : PyM H α) : Prop := ∀ h, I h → I (m h).2

theorem Preserves.pure (I : H → Prop) (a : α) : Preserves I (Pure.pure a : PyM H α) := fun _ h => h

theorem Preserves.lift (I : H → Prop) (e : Except PyErr α) : Preserves I (lift e : PyM H α) := fun _ h => h

theorem Preserves.get (I : H → Prop) : Preserves I (PyM.get : PyM H H) := fun _ h => h

theorem Preserves.bind {I : H → Prop} {m : PyM H α} {f : α → PyM H β} (hm : Preserves I m)
    (hf : ∀ a, Preserves I (f a)) : Preserves I (m >>= f) := by
  intro h hh
  rw [bind_run]
  have := hm h hh
  rcases hm' : m h with ⟨_ | a, h'⟩
  · rw [hm'] at this
    exact this
  · rw [hm'] at this
    exact hf a h' this

/-- As `bind`, with the value read by `m` related to the heap by `Q`. -/
theorem Preserves.bind_of {I : H → Prop} {m : PyM H α} {f : α → PyM H β} (Q : α → H → Prop) (hm : Preserves I m)
    (hq : ∀ h a h', I h → m h = (.ok a, h') → Q a h') (hf : ∀ a h, I h → Q a h → I (f a h).2) :
    Preserves I (m >>= f) := by
  intro h hh
  rw [bind_run]
  have := hm h hh
  rcases hm' : m h with ⟨_ | a, h'⟩
  · rw [hm'] at this
    exact this
  · rw [hm'] at this
    exact hf a h' this (hq h a h' hh hm')

end PyM

end Legwork
