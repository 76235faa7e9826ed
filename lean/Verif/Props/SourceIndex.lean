import Verif.Lemmas.Index
import Verif.Lemmas.Example
import Verif.Props.SourceMasks

/-!
# Indexing source collections (C38)
-/

namespace Legwork.Props

open Legwork.source Legwork.Spec
open PyM hiding bind

variable {W : World} {s : ℕ} {h h' : Heap} {ind : Index} {js : List ℕ}

/-- **C38.** `sources[ind]` succeeds for every index that means something and is a new object. Each of its attributes
with one entry per source has exactly the entries number `js` of the original, in this order. Class, tolerances,
interpolated functions and parameters are the same, the parameter object is its own, and no existing object has
changed. -/
theorem C38_getitem {ok : Heap → Op → Prop} (hr : Reachable W ok h) (hb : (h.src s).sc_params.isSome)
    (hv : (h.src s).cls ≠ .VerificationBinaries) (hz : Sized h s) (hsel : Selects (h.src s).cols.n_sources ind js) :
    ∃ s' h', getitem s ind h = (.ok s', h') ∧ ItemOf h s js h' s' :=
  getitem_ok (Reachable.inv hr) hv hb hz hsel

/-- The new object has as many sources as were selected, one for each, and is as well-formed as the original. -/
theorem C38_sized {s' : ℕ} (hz : Sized h s) (hi : ItemOf h s js h' s') :
    (h'.src s').cols.n_sources = js.length ∧ Sized h' s' := by
  have hn : (h'.src s').cols.n_sources = js.length := by
    rw [hi.cols]
    simp [Cols.n_sources, colsAt, entries]
  refine ⟨hn, ?_, ?_, ?_⟩
  · have ho : ∀ {α : Type} (d : α) (o : Option (List α)) x, o.map (entries d js) = some x → x.length = js.length := by
      intro α d o x hx
      rcases o with _ | y
      · cases hx
      · cases hx
        simp [entries]
    have hn' : (colsAt js (h.src s).cols).n_sources = js.length := by rw [← hi.cols, hn]
    rw [hi.cols]
    refine ⟨?_, ?_, ?_, ?_, ?_, ?_, ?_, ?_, ?_, ?_, ?_⟩
    all_goals try rw [hn']
    all_goals try exact List.length_map ..
    · exact fun x hx => ho _ _ x hx
    · exact fun x hx => ho _ _ x hx
    · exact fun x hx => ho _ _ x hx
    · exact fun x hx => ho _ _ x hx
    · exact fun x hx => ho _ _ x hx
    · intro hp
      simp only [colsAt, Option.isSome_map] at hp ⊢
      exact hz.rect.angles hp
  · intro r hr
    rw [hn]
    have := hi.snr
    unfold snrValues at this
    rw [hr] at this
    rcases hs : (h.src s).snr with _ | r0
    · rw [hs] at this; cases this
    · rw [hs] at this
      simp only [Option.map_some, Option.some.injEq] at this
      rw [this]
      simp [entries]
  · intro r hr
    rw [hn]
    have := hi.harm
    unfold harmValues at this
    rw [hr] at this
    rcases hs : (h.src s).max_snr_harmonic with _ | r0
    · rw [hs] at this; cases this
    · rw [hs] at this
      simp only [Option.map_some, Option.some.injEq] at this
      rw [this]
      simp [entries]

/-- Indices that mean nothing raise and change nothing: integers out of range `IndexError`; lists of booleans of another
length, slices with step 0 and arrays of anything else `ValueError`. -/
theorem C38_rejected (hv : (h.src s).cls ≠ .VerificationBinaries) :
    (∀ is, (∃ i ∈ is, ¬ (-((h.src s).cols.n_sources : ℤ) ≤ i ∧ i < (h.src s).cols.n_sources)) →
      getitem s (.ints is) h = (.error .IndexError, h)) ∧
    (∀ i : ℤ, ¬ (-((h.src s).cols.n_sources : ℤ) ≤ i ∧ i < (h.src s).cols.n_sources) →
      getitem s (.int i) h = (.error .IndexError, h)) ∧
    (∀ bs, bs.length ≠ (h.src s).cols.n_sources → getitem s (.bools bs) h = (.error .ValueError, h)) ∧
    (∀ start stop, getitem s (.slice start stop (some 0)) h = (.error .ValueError, h)) ∧
    getitem s .other h = (.error .ValueError, h) ∧
    (∀ b, (h.src s).cols.n_sources ≠ 1 → getitem s (.bool b) h = (.error .IndexError, h)) := by
  have hints : ∀ is, (∃ i ∈ is, ¬ (-((h.src s).cols.n_sources : ℤ) ≤ i ∧ i < (h.src s).cols.n_sources)) →
      getitem_mask s (.ints is) h = (.error .IndexError, h) := by
    rintro is ⟨i, hi, hn⟩
    exact getitem_mask_error (pick_ints_error ⟨i, hi, fun hj => hn (posOf_exists.1 hj)⟩)
  refine ⟨fun is hi => ?_, fun i hi => ?_, fun bs hl => ?_, fun start stop => ?_, ?_, fun b hn => ?_⟩
  · rw [getitem_run, if_neg hv]
    exact hints is hi
  · rw [getitem_run, if_neg hv]
    exact hints [i] ⟨i, by simp, hi⟩
  · rw [getitem_run, if_neg hv]
    unfold to_mask
    simp only
    rw [if_pos hl]
    rfl
  · rw [getitem_run, if_neg hv]
    rfl
  · rw [getitem_run, if_neg hv]
    rfl
  · rw [getitem_run, if_neg hv]
    refine getitem_mask_error ?_
    unfold pick index
    simp only
    rw [if_neg (fun he => hn (by simpa [Cols.n_sources] using he.symm))]
    rfl

/-- These are all the indices that are rejected. In particular every slice with a step other than 0 and every integer
from `-n` to `n - 1` has a meaning, and only one. -/
theorem C38_meaning (n : ℕ) (ind : Index) : (∃ js, Selects n ind js) ↔
    match ind with
    | .int i => -(n : ℤ) ≤ i ∧ i < n
    | .ints is => ∀ i ∈ is, -(n : ℤ) ≤ i ∧ i < n
    | .bools bs => bs.length = n
    | .slice _ _ step => step ≠ some 0
    | .bool _ => n = 1
    | .other => False := by
  rcases ind with i | b | ⟨start, stop, step⟩ | is | bs | _
  · simp only [Selects, ← posOf_exists]
    exact ⟨fun ⟨_, j, hj, _⟩ => ⟨j, hj⟩, fun ⟨j, hj⟩ => ⟨[j], j, hj, rfl⟩⟩
  · exact ⟨fun ⟨_, h, _⟩ => h, fun h => ⟨_, h, rfl⟩⟩
  · simp only [Selects]
    have h0 : step ≠ some 0 ↔ step.getD 1 ≠ 0 := by rcases step with _ | x <;> simp
    rw [h0]
    constructor
    · rintro ⟨js, ⟨h, -⟩ | ⟨h, -⟩⟩ <;> omega
    · intro h
      exact ⟨_, (slice_spec h).2⟩
  · simp only [Selects]
    induction is with
    | nil => exact ⟨fun _ => by simp, fun _ => ⟨[], .nil⟩⟩
    | cons i is ih =>
      constructor
      · rintro ⟨js, hjs⟩
        cases hjs with
        | cons h1 h2 =>
          intro x hx
          rcases List.mem_cons.1 hx with rfl | hx
          · exact posOf_exists.1 ⟨_, h1⟩
          · exact ih.1 ⟨_, h2⟩ x hx
      · intro h
        obtain ⟨j, hj⟩ := posOf_exists.2 (h i (by simp))
        obtain ⟨js, hjs⟩ := ih.2 fun x hx => h x (by simp [hx])
        exact ⟨j :: js, .cons hj hjs⟩
  · exact ⟨fun ⟨_, h, _⟩ => h, fun h => ⟨_, h, rfl⟩⟩
  · exact ⟨fun ⟨_, h⟩ => h, fun h => h.elim⟩

/-- An index means at most one list of sources. -/
theorem C38_meaning_unique {n : ℕ} {js' : List ℕ} (h1 : Selects n ind js) (h2 : Selects n ind js') : js = js' := by
  have hpos : ∀ {i : ℤ} {j j' : ℕ}, PosOf n i j → PosOf n i j' → j = j' := by
    rintro i j j' ⟨a, b⟩ ⟨c, d⟩
    omega
  rcases ind with i | b | ⟨start, stop, step⟩ | is | bs | _
  · obtain ⟨j, hj, rfl⟩ := h1
    obtain ⟨j', hj', rfl⟩ := h2
    rw [hpos hj hj']
  · exact h1.2.trans h2.2.symm
  · exact sliceSelects_unique h1 h2
  · simp only [Selects] at h1 h2
    induction h1 generalizing js' with
    | nil => cases h2; rfl
    | cons a _ ih =>
      cases h2 with
      | cons c d => rw [hpos a c, ih d]
  · exact h1.2.trans h2.2.symm
  · exact h1.elim

/-- Verification binaries cannot be indexed, nor copied. -/
theorem C38_verification (hv : (h.src s).cls = .VerificationBinaries) :
    getitem s ind h = (.error .NotImplementedError, h) ∧ copy s h = (.error .NotImplementedError, h) := by
  unfold copy
  rw [getitem_run, getitem_run, if_pos hv, if_pos hv]
  exact ⟨rfl, rfl⟩

theorem selects_all (n : ℕ) : Selects n (.slice none none none) (List.range n) := by
  refine Or.inl ⟨by simp, List.pairwise_lt_range, fun j => ?_⟩
  simp [fromEnd]

theorem entries_range {α : Type} (d : α) {n : ℕ} {xs : List α} (h : xs.length = n) : entries d (List.range n) xs = xs := by
  refine List.ext_getElem? fun i => ?_
  unfold entries
  rw [List.getElem?_map]
  by_cases hi : i < n
  · rw [List.getElem?_range hi, List.getElem?_eq_getElem (by omega)]
    simp only [Option.map_some, Option.some.injEq, List.getD_eq_getElem?_getD]
    rw [List.getElem?_eq_getElem (by omega)]
    rfl
  · rw [List.getElem?_eq_none (by simpa using hi), List.getElem?_eq_none (by omega)]
    rfl

private theorem entries_opt {α : Type} (d : α) {n : ℕ} {o : Option (List α)} (h : ∀ x, o = some x → x.length = n) :
    o.map (entries d (List.range n)) = o := by
  rcases o with _ | x
  · rfl
  · rw [Option.map_some, entries_range d (h x rfl)]

theorem colsAt_range {c : Cols} (hr : Rect c) : colsAt (List.range c.n_sources) c = c := by
  unfold colsAt
  rw [entries_range 0 (n := c.n_sources) (xs := c.m_1) rfl, entries_range 0 hr.m_2, entries_range 0 hr.dist,
    entries_range 0 hr.f_orb, entries_range 0 hr.ecc, entries_range false hr.merged, entries_opt 0 hr.weights,
    entries_opt 0 hr.position, entries_opt 0 hr.inclination, entries_opt 0 hr.polarisation, entries_opt 0 hr.t_merge]

/-- `sources.copy()` has all sources, in the same order, with the same values. -/
theorem C38_copy {ok : Heap → Op → Prop} (hr : Reachable W ok h) (hb : (h.src s).sc_params.isSome)
    (hv : (h.src s).cls ≠ .VerificationBinaries) (hz : Sized h s) :
    ∃ s' h', copy s h = (.ok s', h') ∧ ItemOf h s (List.range (h.src s).cols.n_sources) h' s' ∧
      (h'.src s').cols = (h.src s).cols ∧ snrValues h' s' = snrValues h s ∧ harmValues h' s' = harmValues h s := by
  obtain ⟨s', h', h1, h2⟩ := C38_getitem hr hb hv hz (selects_all _)
  refine ⟨s', h', h1, h2, ?_, ?_, ?_⟩
  · rw [h2.cols, colsAt_range hz.rect]
  · rw [h2.snr]
    unfold snrValues
    rcases hs : (h.src s).snr with _ | r
    · rfl
    · simp only [Option.map_some]
      rw [entries_range _ (hz.snr r hs)]
  · rw [h2.harm]
    unfold harmValues
    rcases hs : (h.src s).max_snr_harmonic with _ | r
    · rfl
    · simp only [Option.map_some]
      rw [entries_range _ (hz.harm r hs)]

/-! ### Examples -/

theorem example_sized : Sized Example.heap 0 := by
  refine ⟨?_, ?_, ?_⟩
  · rw [Example.heap_src]
    exact example_rect
  · intro r hr
    rw [Example.heap_src] at hr
    cases hr
  · intro r hr
    rw [Example.heap_src] at hr
    cases hr

/-- The last source, then the first, then the last again: the conditions of `C38_getitem` can be met. -/
example : ∃ s' h', getitem 0 (.ints [-1, 0, 1]) Example.heap = (.ok s', h') ∧ ItemOf Example.heap 0 [1, 0, 1] h' s' ∧
    (h'.src s').cols.ecc = [0.3, 0, 0.3] := by
  have hc : (Example.heap.src 0).cols = Example.cols := by rw [Example.heap_src]; rfl
  have hn : (Example.heap.src 0).cols.n_sources = 2 := by rw [hc]; rfl
  obtain ⟨s', h', h1, h2⟩ := C38_getitem (ind := .ints [-1, 0, 1]) (js := [1, 0, 1]) (s := 0)
    (Example.reachable (ok := AnyCall) trivial) (by rw [Example.heap_src]; rfl)
    (by rw [Example.heap_src]; simp [newObject, Example.args]) example_sized
    (by
      rw [hn]
      exact .cons (by unfold PosOf; omega) (.cons (by unfold PosOf; omega) (.cons (by unfold PosOf; omega) .nil)))
  refine ⟨s', h', h1, h2, ?_⟩
  rw [h2.cols, hc]
  rfl

/-- Every second source from the end. -/
example : Selects 5 (.slice none none (some (-2))) [4, 2, 0] := by
  refine Or.inr ⟨by norm_num, by decide, fun j => ?_⟩
  simp [fromEnd]
  omega

/-- A slice with bounds beyond the ends. -/
example : Selects 3 (.slice (some (-2)) (some 100) none) [1, 2] := by
  refine Or.inl ⟨by norm_num, by decide, fun j => ?_⟩
  simp [fromEnd]
  omega

end Legwork.Props
