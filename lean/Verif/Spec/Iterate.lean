import Verif.Spec.Independent
import Verif.Model.Iterate

/-!
# Vocabulary for loops over sources
-/

namespace Legwork.Spec

open Legwork.source

/-- What a loop over `s` does that begins in the heap `h`, with the source number `order i` in round `i` of `n`: each round gets
a new object with exactly this source, whatever happened in the rounds before. If no round raises, there are `n` rounds, one
result each; otherwise the loop ends with the exception of the last round begun. The object `s` is as before. -/
structure VisitsEach {α : Type} (n : ℕ) (order : ℕ → ℕ) (s : ℕ) (body : ℕ → M α) (h : Heap) (items : List ℕ)
    (r : Except PyErr (List α)) (h' : Heap) : Prop where
  same : Untouched h h' s
  rounds : ∀ i t, items[i]? = some t → i < n ∧ ∃ k k', Untouched h k s ∧ getitem s (.int (order i)) k = (.ok t, k') ∧
    ItemOf k s [order i] k' t ∧ (k'.src t).cols = colsAt [order i] (h.src s).cols ∧
    (∀ outs, r = .ok outs → ∃ y, outs[i]? = some y ∧ (body t k').1 = .ok y) ∧
    ∀ e, r = .error e → i + 1 = items.length → (body t k').1 = .error e
  all : ∀ outs, r = .ok outs → items.length = n ∧ outs.length = n
  some : ∀ e, r = .error e → items ≠ []

end Legwork.Spec
