import Verif.Model.ListIndex
import Verif.Props.SourceIndex

/-!
# Python lists as indices (C38)
-/

namespace Legwork.Props

open Legwork.source Legwork.Spec
open PyM hiding bind

variable {W : World} {h : Heap} {s : ℕ}

private lemma mapM_none {α β : Type} {f : α → Option β} {x : α} (hx : f x = none) : ∀ {xs : List α}, x ∈ xs → xs.mapM f = none
  | y :: ys, hm => by
    rw [List.mapM_cons]
    rcases List.mem_cons.1 hm with rfl | hm
    · rw [hx]; rfl
    · rw [mapM_none hx hm]
      cases f y <;> rfl

private lemma mapM_map {α β γ : Type} {f : α → Option β} (g : γ → α) (k : γ → β) (hg : ∀ y, f (g y) = some (k y)) :
    ∀ ys : List γ, (ys.map g).mapM f = some (ys.map k)
  | [] => rfl
  | y :: ys => by
    rw [List.map_cons, List.mapM_cons, hg, mapM_map g k hg ys]
    rfl

/-- **C38** (lists). `sources[[...]]` with a python list: a list of integers means these sources; a list of booleans of the
right length the sources marked; in a list of both, with at least one integer, `True` means the source number 1 and `False`
the source number 0, not a mark. -/
theorem C38_lists {ok : Heap → Op → Prop} (hr : Reachable W ok h) (hb : (h.src s).sc_params.isSome)
    (hv : (h.src s).cls ≠ .VerificationBinaries) (hz : Sized h s) :
    (∀ is js, is ≠ [] → List.Forall₂ (PosOf (h.src s).cols.n_sources) is js →
      ∃ s' h', getitem_list s (is.map .int) h = (.ok s', h') ∧ ItemOf h s js h' s') ∧
    (∀ bs : List Bool, bs ≠ [] → bs.length = (h.src s).cols.n_sources → ∃ s' h', getitem_list s (bs.map .bool) h = (.ok s', h') ∧
      ItemOf h s ((List.range bs.length).filter fun j => bs.getD j false) h' s') ∧
    ∀ (is : List (ℤ ⊕ Bool)) js, (∃ i, Sum.inl i ∈ is) →
      List.Forall₂ (fun x j => PosOf (h.src s).cols.n_sources (x.elim id fun b => if b then 1 else 0) j) is js →
      ∃ s' h', getitem_list s (is.map fun x => x.elim .int .bool) h = (.ok s', h') ∧ ItemOf h s js h' s' := by
  have hmix : ∀ (is : List (ℤ ⊕ Bool)) js, (∃ i, Sum.inl i ∈ is) →
      List.Forall₂ (fun x j => PosOf (h.src s).cols.n_sources (x.elim id fun b => if b then 1 else 0) j) is js →
      ∃ s' h', getitem_list s (is.map fun x => x.elim .int .bool) h = (.ok s', h') ∧ ItemOf h s js h' s' := by
    intro is js hi hs
    obtain ⟨i, hi⟩ := hi
    have e : asarray (is.map fun x => x.elim Item.int Item.bool) = .ints (is.map fun x => x.elim id fun b => if b then 1 else 0) := by
      unfold asarray
      rw [if_neg (by simpa using List.ne_nil_of_mem hi),
        mapM_none (x := .int i) rfl (List.mem_map.2 ⟨Sum.inl i, hi, rfl⟩)]
      simp only
      rw [mapM_map _ (fun x : ℤ ⊕ Bool => x.elim id fun b => if b then (1 : ℤ) else 0) (fun y => by cases y <;> rfl)]
    unfold getitem_list
    rw [e]
    exact C38_getitem hr hb hv hz (by
      show List.Forall₂ _ _ _
      rwa [List.forall₂_map_left_iff])
  refine ⟨fun is js hne hs => ?_, fun bs hne hl => ?_, hmix⟩
  · obtain ⟨i, hi⟩ := List.exists_mem_of_ne_nil is hne
    have := hmix (is.map Sum.inl) js ⟨i, List.mem_map.2 ⟨i, hi, rfl⟩⟩ (by rw [List.forall₂_map_left_iff]; exact hs)
    rw [List.map_map] at this
    exact this
  · have e : asarray (bs.map Item.bool) = .bools bs := by
      unfold asarray
      rw [if_neg (by simpa using hne), mapM_map (f := Item.toBool?) Item.bool id (fun y => rfl)]
      simp
    unfold getitem_list
    rw [e]
    exact C38_getitem hr hb hv hz ⟨hl, by rw [hl]⟩

/-- **C38** (lists that are refused). The empty list is a `ValueError`, although `sources[:0]` and a mask that marks nothing
give a collection without sources, and so is every list with an entry that is neither integer nor boolean. -/
theorem C38_empty_list {ok : Heap → Op → Prop} (hr : Reachable W ok h) (hb : (h.src s).sc_params.isSome)
    (hv : (h.src s).cls ≠ .VerificationBinaries) (hz : Sized h s) :
    getitem_list s [] h = (.error .ValueError, h) ∧
    (∀ items, Item.other ∈ items → getitem_list s items h = (.error .ValueError, h)) ∧
    (∃ s' h', getitem s (.slice none (some 0) none) h = (.ok s', h') ∧ ItemOf h s [] h' s') ∧
    ∃ s' h', getitem s (.bools (List.replicate (h.src s).cols.n_sources false)) h = (.ok s', h') ∧ ItemOf h s [] h' s' := by
  obtain ⟨-, -, -, -, r, -⟩ := C38_rejected (h := h) (s := s) hv
  refine ⟨r, fun items hm => ?_, C38_getitem hr hb hv hz (Or.inl ⟨by simp, List.Pairwise.nil, fun j => ?_⟩),
    C38_getitem hr hb hv hz ⟨by simp, ?_⟩⟩
  · unfold getitem_list asarray
    rw [if_neg (List.ne_nil_of_mem hm), mapM_none (x := .other) rfl hm]
    simp only
    rw [mapM_none (x := .other) rfl hm]
    exact r
  · simp [fromEnd]
  · symm
    rw [List.filter_eq_nil_iff]
    intro j hj
    simp at hj
    simp [hj]

/-- Non-vacuity of `C38_lists`: `sources[[True, -1, 0]]` for the two sources of the example. -/
example : ∃ s' h', getitem_list 0 [.bool true, .int (-1), .int 0] Example.heap = (.ok s', h') ∧
    ItemOf Example.heap 0 [1, 1, 0] h' s' := by
  have hc : (Example.heap.src 0).cols = Example.cols := by rw [Example.heap_src]; rfl
  have hn : (Example.heap.src 0).cols.n_sources = 2 := by rw [hc]; rfl
  exact (C38_lists (Example.reachable (ok := AnyCall) trivial) (by rw [Example.heap_src]; rfl)
    (by rw [Example.heap_src]; simp [newObject, Example.args]) example_sized).2.2 [.inr true, .inl (-1), .inl 0] [1, 1, 0]
    ⟨-1, by simp⟩ (by
      rw [hn]
      exact .cons (by simp [PosOf]) (.cons (by simp [PosOf]) (.cons (by simp [PosOf]) .nil)))

end Legwork.Props
