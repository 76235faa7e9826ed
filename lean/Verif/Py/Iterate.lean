import Mathlib.Data.Nat.Notation
import Mathlib.Data.Int.Notation
import Verif.Py.Heap

/-!
# Loops over objects with `__getitem__`

A class with `__getitem__` but without `__iter__` is iterated by the sequence protocol: the indices are tried one after the
other until one raises `IndexError`.
-/

namespace Legwork

/-- `[body(x) for x in object]` from round `i` on, where round number `i` asks for the item `idx i` (no item left: `none`). In
the heap `h` the loop gets the items `xs`, one for each round that is begun, and ends with the results of all rounds or the
exception `r`, leaving the last heap. -/
inductive ForEach {H α β : Type} (idx : ℕ → Option ℤ) (item : ℤ → PyM H α) (body : α → PyM H β) :
    ℕ → H → List α → Except PyErr (List β) → H → Prop
  | over {i : ℕ} {h : H} (hi : idx i = none) : ForEach idx item body i h [] (.ok []) h
  | stop {i : ℕ} {j : ℤ} {h h' : H} (hi : idx i = some j) (hx : item j h = (.error .IndexError, h')) :
      ForEach idx item body i h [] (.ok []) h'
  | refused {i : ℕ} {j : ℤ} {h h' : H} {e : PyErr} (hi : idx i = some j) (he : e ≠ .IndexError)
      (hx : item j h = (.error e, h')) : ForEach idx item body i h [] (.error e) h'
  | raised {i : ℕ} {j : ℤ} {h h₁ h₂ : H} {x : α} {e : PyErr} (hi : idx i = some j) (hx : item j h = (.ok x, h₁))
      (hb : body x h₁ = (.error e, h₂)) : ForEach idx item body i h [x] (.error e) h₂
  | round {i : ℕ} {j : ℤ} {h h₁ h₂ h₃ : H} {x : α} {y : β} {xs : List α} {r : Except PyErr (List β)} (hi : idx i = some j)
      (hx : item j h = (.ok x, h₁)) (hb : body x h₁ = (.ok y, h₂)) (hr : ForEach idx item body (i + 1) h₂ xs r h₃) :
      ForEach idx item body i h (x :: xs) (r.map (y :: ·)) h₃

/-- The indices tried by `for x in object`: 0, 1, 2, … -/
def forward : ℕ → Option ℤ := fun i => some i

/-- The indices tried by `for x in reversed(object)` for an object of length `n` (taken when the loop begins). -/
def backward (n : ℕ) : ℕ → Option ℤ := fun i => if i < n then some ((n : ℤ) - 1 - i) else none

/-- A loop has only one course. -/
theorem ForEach.det {H α β : Type} {idx : ℕ → Option ℤ} {item : ℤ → PyM H α} {body : α → PyM H β} {i : ℕ} {h h₁ h₂ : H}
    {xs ys : List α} {r q : Except PyErr (List β)} (a : ForEach idx item body i h xs r h₁)
    (b : ForEach idx item body i h ys q h₂) : xs = ys ∧ r = q ∧ h₁ = h₂ := by
  induction a generalizing ys q h₂ with
  | over hi =>
    cases b with
    | over => exact ⟨rfl, rfl, rfl⟩
    | stop hi' => rw [hi] at hi'; cases hi'
    | refused hi' => rw [hi] at hi'; cases hi'
    | raised hi' => rw [hi] at hi'; cases hi'
    | round hi' => rw [hi] at hi'; cases hi'
  | stop hi hx =>
    cases b with
    | over hi' => rw [hi] at hi'; cases hi'
    | stop hi' hx' =>
      rw [hi] at hi'
      cases hi'
      rw [hx] at hx'
      exact ⟨rfl, rfl, (Prod.mk.inj hx').2⟩
    | refused hi' he hx' =>
      rw [hi] at hi'
      cases hi'
      rw [hx] at hx'
      exact absurd (Except.error.inj (Prod.mk.inj hx').1).symm he
    | raised hi' hx' =>
      rw [hi] at hi'
      cases hi'
      rw [hx] at hx'
      cases (Prod.mk.inj hx').1
    | round hi' hx' =>
      rw [hi] at hi'
      cases hi'
      rw [hx] at hx'
      cases (Prod.mk.inj hx').1
  | refused hi he hx =>
    cases b with
    | over hi' => rw [hi] at hi'; cases hi'
    | stop hi' hx' =>
      rw [hi] at hi'
      cases hi'
      rw [hx] at hx'
      exact absurd (Except.error.inj (Prod.mk.inj hx').1) he
    | refused hi' he' hx' =>
      rw [hi] at hi'
      cases hi'
      rw [hx] at hx'
      obtain ⟨e1, e2⟩ := Prod.mk.inj hx'
      exact ⟨rfl, by rw [Except.error.inj e1], e2⟩
    | raised hi' hx' =>
      rw [hi] at hi'
      cases hi'
      rw [hx] at hx'
      cases (Prod.mk.inj hx').1
    | round hi' hx' =>
      rw [hi] at hi'
      cases hi'
      rw [hx] at hx'
      cases (Prod.mk.inj hx').1
  | raised hi hx hb =>
    cases b with
    | over hi' => rw [hi] at hi'; cases hi'
    | stop hi' hx' =>
      rw [hi] at hi'
      cases hi'
      rw [hx] at hx'
      cases (Prod.mk.inj hx').1
    | refused hi' he' hx' =>
      rw [hi] at hi'
      cases hi'
      rw [hx] at hx'
      cases (Prod.mk.inj hx').1
    | raised hi' hx' hb' =>
      rw [hi] at hi'
      cases hi'
      rw [hx] at hx'
      obtain ⟨e1, e2⟩ := Prod.mk.inj hx'
      cases e1
      cases e2
      rw [hb] at hb'
      obtain ⟨e1, e2⟩ := Prod.mk.inj hb'
      exact ⟨rfl, by rw [Except.error.inj e1], e2⟩
    | round hi' hx' hb' =>
      rw [hi] at hi'
      cases hi'
      rw [hx] at hx'
      obtain ⟨e1, e2⟩ := Prod.mk.inj hx'
      cases e1
      cases e2
      rw [hb] at hb'
      cases (Prod.mk.inj hb').1
  | round hi hx hb _ ih =>
    cases b with
    | over hi' => rw [hi] at hi'; cases hi'
    | stop hi' hx' =>
      rw [hi] at hi'
      cases hi'
      rw [hx] at hx'
      cases (Prod.mk.inj hx').1
    | refused hi' he' hx' =>
      rw [hi] at hi'
      cases hi'
      rw [hx] at hx'
      cases (Prod.mk.inj hx').1
    | raised hi' hx' hb' =>
      rw [hi] at hi'
      cases hi'
      rw [hx] at hx'
      obtain ⟨e1, e2⟩ := Prod.mk.inj hx'
      cases e1
      cases e2
      rw [hb] at hb'
      cases (Prod.mk.inj hb').1
    | round hi' hx' hb' hr' =>
      rw [hi] at hi'
      cases hi'
      rw [hx] at hx'
      obtain ⟨e1, e2⟩ := Prod.mk.inj hx'
      cases e1
      cases e2
      rw [hb] at hb'
      obtain ⟨e1, e2⟩ := Prod.mk.inj hb'
      cases e1
      cases e2
      obtain ⟨rfl, rfl, rfl⟩ := ih hr'
      exact ⟨rfl, rfl, rfl⟩

end Legwork
