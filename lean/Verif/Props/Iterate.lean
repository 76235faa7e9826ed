import Verif.Spec.Iterate
import Verif.Props.SourceParts
import Verif.Props.SourceCopies
import Verif.Props.SourceRepeat

/-!
# Loops over sources (C102)
-/

namespace Legwork.Props

open Legwork.source Legwork.Spec
open PyM hiding bind

theorem reachable_calls {ok : Heap → Op → Prop} {W : World} {h h' : Heap} (hr : Reachable W AnyCall h) (hc : Calls W ok h h') :
    Reachable W AnyCall h' := by
  induction hc with
  | none => exact hr
  | call op _ _ ih => exact .call op ih trivial

theorem getitem_reachable {W : World} {h h' : Heap} {s t : ℕ} {ind : Index} (hr : Reachable W AnyCall h)
    (hg : getitem s ind h = (.ok t, h')) : Reachable W AnyCall h' := by
  have := Reachable.call (.getitem s ind) hr trivial
  have he : (Op.run W (.getitem s ind) h).2 = h' := by
    change ((getitem s ind >>= fun _ => pure ()) h).2 = h'
    rw [bind_run, hg]
    rfl
  rwa [he] at this

section

variable {W : World} {h : Heap} {s n : ℕ} {α : Type} {body : ℕ → M α} {order : ℕ → ℕ} {idx : ℕ → Option ℤ}

theorem sized_untouched {k : Heap} (hz : Sized h s) (hu : Untouched h k s) : Sized k s := by
  refine ⟨by rw [hu.src]; exact hz.rect, fun r hr => ?_, fun r hr => ?_⟩
  · rw [hu.src] at hr ⊢
    rw [hu.snr r hr]
    exact hz.snr r hr
  · rw [hu.src] at hr ⊢
    rw [hu.harm r hr]
    exact hz.harm r hr

/-- One round: the item and the heap afterwards. -/
private lemma one_round {k : Heap} (hb : (h.src s).sc_params.isSome)
    (hv : (h.src s).cls ≠ .VerificationBinaries) (hz : Sized h s) (hr : Reachable W AnyCall k) (hs : s < k.next)
    (hu : Untouched h k s) {j : ℕ} (hj : j < (h.src s).cols.n_sources) : ∃ t k', getitem s (.int j) k = (.ok t, k') ∧
      ItemOf k s [j] k' t ∧ (k'.src t).cols = colsAt [j] (h.src s).cols ∧ Reachable W AnyCall k' ∧ s < k'.next ∧ t ≠ s ∧
      Untouched h k' s := by
  obtain ⟨t, k', h1, h2⟩ := C38_getitem (ind := .int j) (js := [j]) hr (by rw [hu.src]; exact hb) (by rw [hu.src]; exact hv)
    (sized_untouched hz hu) ⟨j, by unfold PosOf; rw [hu.src]; omega, rfl⟩
  obtain ⟨g1, g2, -, -⟩ := C39_getitem hr hs h1
  exact ⟨t, k', h1, h2, by rw [h2.cols, hu.src], getitem_reachable hr h1, by have := h2.new; omega, g1, Untouched.trans hu g2⟩

private lemma visits (hb : (h.src s).sc_params.isSome)
    (hv : (h.src s).cls ≠ .VerificationBinaries) (hz : Sized h s)
    (hbody : ∀ t k, t ≠ s → Calls W (NotOn s) k (body t k).2)
    (hidx : ∀ i < (h.src s).cols.n_sources, idx i = some (order i : ℤ) ∧ order i < (h.src s).cols.n_sources)
    (hend : idx (h.src s).cols.n_sources = none ∨ idx (h.src s).cols.n_sources = some ((h.src s).cols.n_sources : ℤ))
    {i : ℕ} {k h' : Heap} {items : List ℕ} {r : Except PyErr (List α)} (hr : Reachable W AnyCall k) (hs : s < k.next)
    (hu : Untouched h k s) (hi : i ≤ (h.src s).cols.n_sources)
    (hl : ForEach idx (fun j => getitem s (.int j)) body i k items r h') :
    Untouched h h' s ∧
    (∀ m t, items[m]? = some t → i + m < (h.src s).cols.n_sources ∧ ∃ q q', Reachable W AnyCall q ∧ Untouched h q s ∧
      getitem s (.int (order (i + m))) q = (.ok t, q') ∧ ItemOf q s [order (i + m)] q' t ∧
      (q'.src t).cols = colsAt [order (i + m)] (h.src s).cols ∧
      (∀ outs, r = .ok outs → ∃ y, outs[m]? = some y ∧ (body t q').1 = .ok y) ∧
      ∀ e, r = .error e → m + 1 = items.length → (body t q').1 = .error e) ∧
    (∀ outs, r = .ok outs → i + items.length = (h.src s).cols.n_sources ∧ outs.length = items.length) ∧
    ∀ e, r = .error e → items ≠ [] := by
  induction hl with
  | @over i k hi' =>
    have : i = (h.src s).cols.n_sources := by
      by_contra hne
      rw [(hidx i (by omega)).1] at hi'
      cases hi'
    exact ⟨hu, by simp, fun outs ho => by cases ho; exact ⟨by simpa using this, rfl⟩, fun e he => by cases he⟩
  | @stop i j k k₁ hi' hx =>
    have : i = (h.src s).cols.n_sources := by
      by_contra hne
      obtain ⟨g1, g2⟩ := hidx i (by omega)
      rw [g1] at hi'
      cases hi'
      obtain ⟨t, k', h1, -⟩ := one_round hb hv hz hr hs hu g2
      rw [h1] at hx
      cases (Prod.mk.inj hx).1
    subst this
    have hjn : j = ((h.src s).cols.n_sources : ℤ) := by
      rcases hend with he | he
      · rw [he] at hi'; cases hi'
      · rw [he] at hi'; cases hi'; rfl
    have hk : k₁ = k := by
      have := (C38_rejected (h := k) (s := s) (by rw [hu.src]; exact hv)).2.1 j (by rw [hu.src]; omega)
      rw [this] at hx
      exact (Prod.mk.inj hx).2.symm
    subst hk
    exact ⟨hu, by simp, fun outs ho => by cases ho; exact ⟨by simp, rfl⟩, fun e he => by cases he⟩
  | @refused i j k k₁ e hi' he hx =>
    exfalso
    by_cases hlt : i < (h.src s).cols.n_sources
    · obtain ⟨g1, g2⟩ := hidx i hlt
      rw [g1] at hi'
      cases hi'
      obtain ⟨t, k', h1, -⟩ := one_round hb hv hz hr hs hu g2
      rw [h1] at hx
      cases (Prod.mk.inj hx).1
    · have : i = (h.src s).cols.n_sources := by omega
      subst this
      have hjn : j = ((h.src s).cols.n_sources : ℤ) := by
        rcases hend with he | he
        · rw [he] at hi'; cases hi'
        · rw [he] at hi'; cases hi'; rfl
      have := (C38_rejected (h := k) (s := s) (by rw [hu.src]; exact hv)).2.1 j (by rw [hu.src]; omega)
      rw [this] at hx
      exact he (Except.error.inj (Prod.mk.inj hx).1).symm
  | @raised i j k k₁ k₂ x e hi' hx hb' =>
    have hlt : i < (h.src s).cols.n_sources := by
      by_contra hlt
      have : i = (h.src s).cols.n_sources := by omega
      subst this
      have hjn : j = ((h.src s).cols.n_sources : ℤ) := by
        rcases hend with he | he
        · rw [he] at hi'; cases hi'
        · rw [he] at hi'; cases hi'; rfl
      have := (C38_rejected (h := k) (s := s) (by rw [hu.src]; exact hv)).2.1 j (by rw [hu.src]; omega)
      rw [this] at hx
      cases (Prod.mk.inj hx).1
    obtain ⟨g1, g2⟩ := hidx i hlt
    rw [g1] at hi'
    cases hi'
    obtain ⟨t, k', h1, h2, h3, h4, h5, h6, h7⟩ := one_round hb hv hz hr hs hu g2
    rw [h1] at hx
    obtain ⟨e1, rfl⟩ := Prod.mk.inj hx
    cases e1
    have hc := hbody x k' h6
    rw [hb'] at hc
    refine ⟨Untouched.trans h7 (C39_other_sources h4 h5 hc), fun m t' hm => ?_, fun outs ho => (by cases ho), fun _ _ => by simp⟩
    rcases m with _ | m
    · simp only [List.getElem?_cons_zero, Option.some.injEq] at hm
      subst hm
      refine ⟨by simpa using hlt, k, k', hr, hu, h1, h2, h3, fun outs ho => (by cases ho), fun e' he' _ => ?_⟩
      cases he'
      rw [hb']
    · simp at hm
  | @round i j k k₁ k₂ k₃ x y xs r hi' hx hb' hl ih =>
    have hlt : i < (h.src s).cols.n_sources := by
      by_contra hlt
      have : i = (h.src s).cols.n_sources := by omega
      subst this
      have hjn : j = ((h.src s).cols.n_sources : ℤ) := by
        rcases hend with he | he
        · rw [he] at hi'; cases hi'
        · rw [he] at hi'; cases hi'; rfl
      have := (C38_rejected (h := k) (s := s) (by rw [hu.src]; exact hv)).2.1 j (by rw [hu.src]; omega)
      rw [this] at hx
      cases (Prod.mk.inj hx).1
    obtain ⟨g1, g2⟩ := hidx i hlt
    rw [g1] at hi'
    cases hi'
    obtain ⟨t, k', h1, h2, h3, h4, h5, h6, h7⟩ := one_round hb hv hz hr hs hu g2
    rw [h1] at hx
    obtain ⟨e1, rfl⟩ := Prod.mk.inj hx
    cases e1
    have hc := hbody x k' h6
    rw [hb'] at hc
    have ha := away_calls (Reachable.inv h4) h5 hc
    obtain ⟨i1, i2, i3, i4⟩ := ih (reachable_calls h4 hc) ha.lt (Untouched.trans h7 ha.same) hlt
    refine ⟨i1, fun m t' hm => ?_, fun outs ho => ?_, fun _ _ => by simp⟩
    · rcases m with _ | m
      · simp only [List.getElem?_cons_zero, Option.some.injEq] at hm
        subst hm
        refine ⟨by simpa using hlt, k, k', hr, hu, h1, h2, h3, fun outs ho => ?_, fun e he hlen => ?_⟩
        · rcases r with e | ys
          · cases ho
          · cases ho
            exact ⟨y, rfl, by rw [hb']⟩
        · rcases r with e' | ys
          · exact absurd (by simpa using hlen) (i4 e' rfl)
          · cases he
      · rw [List.getElem?_cons_succ] at hm
        obtain ⟨j1, q, q', j0, j2, j3, j4, j5, j6, j7⟩ := i2 m t' hm
        rw [show i + (m + 1) = i + 1 + m by omega]
        refine ⟨j1, q, q', j0, j2, j3, j4, j5, fun outs ho => ?_, fun e he hlen => ?_⟩
        · rcases r with e | ys
          · cases ho
          · cases ho
            exact j6 ys rfl
        · rcases r with e' | ys
          · cases he
            exact j7 _ rfl (by simpa using hlen)
          · cases he
    · rcases r with e | ys
      · cases ho
      · cases ho
        obtain ⟨j1, j2⟩ := i3 ys rfl
        exact ⟨by simp only [List.length_cons]; omega, by simp [j2]⟩

private lemma ends (hb : (h.src s).sc_params.isSome)
    (hv : (h.src s).cls ≠ .VerificationBinaries) (hz : Sized h s)
    (hbody : ∀ t k, t ≠ s → Calls W (NotOn s) k (body t k).2)
    (hidx : ∀ i < (h.src s).cols.n_sources, idx i = some (order i : ℤ) ∧ order i < (h.src s).cols.n_sources)
    (hend : idx (h.src s).cols.n_sources = none ∨ idx (h.src s).cols.n_sources = some ((h.src s).cols.n_sources : ℤ))
    (m : ℕ) : ∀ {i : ℕ} {k : Heap}, Reachable W AnyCall k → s < k.next →
    Untouched h k s → i + m = (h.src s).cols.n_sources →
    ∃ items r h', ForEach idx (fun j => getitem s (.int j)) body i k items r h' := by
  induction m with
  | zero =>
    intro i k hr hs hu hi
    have : i = (h.src s).cols.n_sources := by omega
    subst this
    rcases hend with he | he
    · exact ⟨_, _, _, .over he⟩
    · exact ⟨_, _, _, .stop he ((C38_rejected (h := k) (s := s) (by rw [hu.src]; exact hv)).2.1 _ (by rw [hu.src]; omega))⟩
  | succ m ih =>
    intro i k hr hs hu hi
    obtain ⟨g1, g2⟩ := hidx i (by omega)
    obtain ⟨t, k', h1, h2, h3, h4, h5, h6, h7⟩ := one_round hb hv hz hr hs hu g2
    have hc := hbody t k' h6
    rcases hbo : body t k' with ⟨e | y, k₂⟩
    · exact ⟨_, _, _, .raised g1 h1 hbo⟩
    · rw [hbo] at hc
      have ha := away_calls (Reachable.inv h4) h5 hc
      obtain ⟨items, r, h', hl⟩ := ih (i := i + 1) (reachable_calls h4 hc) ha.lt (Untouched.trans h7 ha.same) (by omega)
      exact ⟨_, _, _, .round g1 h1 hbo hl⟩

/-- **C102.** `for x in sources` visits every source once, in order, and `for x in reversed(sources)` in the opposite order,
whatever calls the body of the loop makes, as long as it makes none on `sources` itself; the loop ends. There are `len(sources)`
rounds unless one raises. -/
theorem C102_loop (hr : Reachable W AnyCall h) (hs : s < h.next) (hb : (h.src s).sc_params.isSome)
    (hv : (h.src s).cls ≠ .VerificationBinaries) (hz : Sized h s) (hbody : ∀ t k, t ≠ s → Calls W (NotOn s) k (body t k).2)
    (hlen : len s h = (.ok n, h)) :
    ((∃ items r h', Loop s body h items r h') ∧
      ∀ items r h', Loop s body h items r h' → VisitsEach n (fun i => i) s body h items r h') ∧
    ((∃ items r h', LoopReversed s body h items r h') ∧
      ∀ items r h', LoopReversed s body h items r h' → VisitsEach n (fun i => n - 1 - i) s body h items r h') := by
  have hn : n = (h.src s).cols.n_sources := Except.ok.inj (Prod.mk.inj hlen).1 |>.symm
  subst hn
  have hf : ∀ i < (h.src s).cols.n_sources, forward i = some (((fun i => i) i : ℕ) : ℤ) ∧ (fun i => i) i < (h.src s).cols.n_sources :=
    fun i hi => ⟨rfl, hi⟩
  have hbk : ∀ i < (h.src s).cols.n_sources, backward (h.src s).cols.n_sources i =
      some ((((h.src s).cols.n_sources - 1 - i : ℕ)) : ℤ) ∧ (h.src s).cols.n_sources - 1 - i < (h.src s).cols.n_sources :=
    fun i hi => ⟨by unfold backward; rw [if_pos hi]; congr 1; omega, by omega⟩
  have hbe : backward (h.src s).cols.n_sources (h.src s).cols.n_sources = none := by simp [backward]
  refine ⟨⟨?_, fun items r h' hl => ?_⟩, ?_, fun items r h' hl => ?_⟩
  · exact ends hb hv hz hbody hf (Or.inr rfl) (h.src s).cols.n_sources (i := 0) hr hs (Untouched.refl _ _) (by omega)
  · obtain ⟨i1, i2, i3, i4⟩ := visits hb hv hz hbody hf (Or.inr rfl) hr hs (Untouched.refl _ _) (Nat.zero_le _) hl
    refine ⟨i1, fun i t hi => ?_, fun outs ho => ?_, i4⟩
    · obtain ⟨j1, q, q', -, j2⟩ := i2 i t hi
      rw [Nat.zero_add] at j1 j2
      exact ⟨j1, q, q', j2⟩
    · obtain ⟨j1, j2⟩ := i3 outs ho
      exact ⟨by omega, by omega⟩
  · obtain ⟨items, r, h', hl⟩ := ends hb hv hz hbody hbk (Or.inl hbe) (h.src s).cols.n_sources (i := 0) hr hs (Untouched.refl _ _) (by omega)
    exact ⟨items, r, h', _, rfl, hl⟩
  · obtain ⟨n, hn, hl⟩ := hl
    obtain rfl : (h.src s).cols.n_sources = n := Except.ok.inj (Prod.mk.inj hn).1
    obtain ⟨i1, i2, i3, i4⟩ := visits hb hv hz hbody hbk (Or.inl hbe) hr hs (Untouched.refl _ _) (Nat.zero_le _) hl
    refine ⟨i1, fun i t hi => ?_, fun outs ho => ?_, i4⟩
    · obtain ⟨j1, q, q', -, j2⟩ := i2 i t hi
      rw [Nat.zero_add] at j1 j2
      exact ⟨j1, q, q', j2⟩
    · obtain ⟨j1, j2⟩ := i3 outs ho
      exact ⟨by omega, by omega⟩

/-- Verification binaries cannot be looped over. -/
theorem C102_verification (hv : (h.src s).cls = .VerificationBinaries) :
    Loop s body h [] (.error .NotImplementedError) h :=
  .refused rfl (by simp) (C38_verification hv).1

/-- Calling `get_snr` on every item of a loop and reading the results. -/
noncomputable def snrOf (W : World) (a : SnrArgs) (n : ℕ) (t : ℕ) : M (List (Option ℝ) × List ℕ) := do
  let r ← get_snr W t a n none
  let heap ← PyM.get
  pure (heap.snrs r, storedHarm heap t)

theorem snrOf_calls {a : SnrArgs} (t : ℕ) (k : Heap) (ht : t ≠ s) : Calls W (NotOn s) k (snrOf W a n t k).2 := by
  have he : (snrOf W a n t k).2 = (Op.run W (.getSnr t a n none) k).2 := by
    change (snrOf W a n t k).2 = ((get_snr W t a n none >>= fun _ => pure ()) k).2
    unfold snrOf
    rw [bind_run, bind_run]
    rcases get_snr W t a n none k with ⟨e | r, k'⟩ <;> rfl
  rw [he]
  exact .call _ .none (by
    unfold NotOn
    simpa [Op.on] using ht)

/-- `get_snr` on an item of a loop. -/
private lemma snr_item {k k' h' : Heap} {t j r : ℕ} {a : SnrArgs} (hr : Reachable W AnyCall h) (hrk : Reachable W AnyCall k)
    (hv : (h.src s).cls ≠ .VerificationBinaries) (hz : Sized h s) (hn : n ≠ 0) (hsch : CompleteSchedule W (h.src s))
    (hrun : get_snr W s a n none h = (.ok r, h')) (hu : Untouched h k s) (hg : getitem s (.int j) k = (.ok t, k'))
    (hi : ItemOf k s [j] k' t) (hj : j < (h.src s).cols.n_sources) :
    (snrOf W a n t k').1 = .ok ([(h'.snrs r).getD j (some 0)], [(storedHarm h' s).getD j 0]) := by
  have hP := partOf_item (Reachable.inv hrk) (Reachable.inv (getitem_reachable hrk hg)) (sized_untouched hz hu) hi
    (by rw [hu.src]; simpa using hj)
  have e1 : snrNow k s = snrNow h s := by
    unfold snrNow
    rw [hu.src]
    rcases hs : (h.src s).snr with _ | r
    · rfl
    · exact hu.snr r hs
  have e2 : harmNow k s = harmNow h s := by
    unfold harmNow
    rw [hu.src]
    rcases hs : (h.src s).max_snr_harmonic with _ | r
    · rfl
    · exact hu.harm r hs
  have e3 : paramValues k s = paramValues h s := by
    unfold paramValues
    rw [hu.src]
    rcases hs : (h.src s).sc_params with _ | p
    · rfl
    · simp only [Option.map_some]
      rw [hu.params p hs]
  have hP' : PartOf h s [j] k' t := by
    obtain ⟨⟨⟨c1, c2, c3, c4, c5, c6, c7, c8, c9, c10, c11⟩, p2, p3⟩, p4, p5, p6, p7, p8, p9⟩ := hP
    rw [hu.src] at c1 c2 c3 c4 c5 c6 c7 c8 c9 c10 p4 p5 p8 p9
    rw [e1] at p6 p8
    rw [e2] at p7 p9
    rw [e3] at c11
    exact ⟨⟨⟨c1, c2, c3, c4, c5, c6, c7, c8, c9, c10, c11⟩, ((Reachable.inv hr).sc s).1, p3⟩, p4, p5, p6, p7, p8, p9⟩
  obtain ⟨r', k₂, h1, h2, h3⟩ := get_snr_part (ws := none) hP' hv hz hn hsch (fun m hm => by cases hm) hrun
  unfold snrOf
  rw [Option.map_none] at h1
  rw [bind_ok h1]
  change Except.ok (k₂.snrs r', storedHarm k₂ t) = _
  rw [h2, h3]
  rfl

/-- **C102** (SNRs). Calculating the SNRs one source at a time, in a loop over the collection, gives the SNRs and strongest
harmonics of one call for the whole collection. -/
theorem C102_snr {h' : Heap} {a : SnrArgs} {r : ℕ} (hr : Reachable W AnyCall h) (hs : s < h.next)
    (hb : (h.src s).sc_params.isSome) (hv : (h.src s).cls ≠ .VerificationBinaries) (hz : Sized h s) (hn : n ≠ 0)
    (hsch : CompleteSchedule W (h.src s)) (hrun : get_snr W s a n none h = (.ok r, h')) :
    ∃ items h'', Loop s (snrOf W a n) h items (.ok ((List.range (h.src s).cols.n_sources).map fun j =>
      ([(h'.snrs r).getD j (some 0)], [(storedHarm h' s).getD j 0]))) h'' := by
  have hbody : ∀ t k, t ≠ s → Calls W (NotOn s) k (snrOf W a n t k).2 := fun t k ht => snrOf_calls t k ht
  have hf : ∀ i < (h.src s).cols.n_sources, forward i = some (((fun i => i) i : ℕ) : ℤ) ∧ (fun i => i) i < (h.src s).cols.n_sources :=
    fun i hi => ⟨rfl, hi⟩
  obtain ⟨items, res, h'', hl⟩ := ends hb hv hz hbody hf (Or.inr rfl) (h.src s).cols.n_sources (i := 0) hr hs
    (Untouched.refl _ _) (by omega)
  obtain ⟨i1, i2, i3, i4⟩ := visits hb hv hz hbody hf (Or.inr rfl) hr hs (Untouched.refl _ _) (Nat.zero_le _) hl
  rcases res with e | outs
  · exfalso
    obtain ⟨t, ht⟩ : ∃ t, items[items.length - 1]? = some t :=
      ⟨_, List.getElem?_eq_getElem (by have := List.length_pos_iff.2 (i4 e rfl); omega)⟩
    obtain ⟨j1, q, q', j0, j2, j3, j4, -, -, j5⟩ := i2 _ t ht
    rw [Nat.zero_add] at j1 j3 j4
    have := j5 e rfl (by have := List.length_pos_iff.2 (i4 e rfl); omega)
    rw [snr_item hr j0 hv hz hn hsch hrun j2 j3 j4 j1] at this
    cases this
  · refine ⟨items, h'', ?_⟩
    have : outs = (List.range (h.src s).cols.n_sources).map fun j =>
        ([(h'.snrs r).getD j (some 0)], [(storedHarm h' s).getD j 0]) := by
      obtain ⟨l1, l2⟩ := i3 outs rfl
      refine List.ext_getElem? fun m => ?_
      by_cases hm : m < (h.src s).cols.n_sources
      · obtain ⟨j1, q, q', j0, j2, j3, j4, -, j5, -⟩ := i2 m _ (List.getElem?_eq_getElem (by omega))
        rw [Nat.zero_add] at j1 j3 j4
        obtain ⟨y, hy, hby⟩ := j5 outs rfl
        rw [snr_item hr j0 hv hz hn hsch hrun j2 j3 j4 j1] at hby
        rw [hy, List.getElem?_map, List.getElem?_range hm, ← Except.ok.inj hby]
        rfl
      · rw [List.getElem?_eq_none (by omega), List.getElem?_eq_none (by simpa using hm)]
    rw [← this]
    exact hl

end

/-! ### Examples -/

/-- Non-vacuity of `C102_snr` and `C102_loop`: SNRs of the two sources of the example, one at a time. -/
example : ∃ r h' items h'', get_snr Example.world 0 {} 100 none Example.heap = (.ok r, h') ∧
    Loop 0 (snrOf Example.world {} 100) Example.heap items (.ok [([(h'.snrs r).getD 0 (some 0)], [(storedHarm h' 0).getD 0 0]),
      ([(h'.snrs r).getD 1 (some 0)], [(storedHarm h' 0).getD 1 0])]) h'' ∧
    VisitsEach 2 (fun i => i) 0 (snrOf Example.world {} 100) Example.heap items
      (.ok [([(h'.snrs r).getD 0 (some 0)], [(storedHarm h' 0).getD 0 0]),
        ([(h'.snrs r).getD 1 (some 0)], [(storedHarm h' 0).getD 1 0])]) h'' := by
  have hc : (Example.heap.src 0).cols = Example.cols := by rw [Example.heap_src]; rfl
  have hn : (Example.heap.src 0).cols.n_sources = 2 := by rw [hc]; rfl
  have hre := Example.reachable (ok := AnyCall) trivial
  have hb : (Example.heap.src 0).sc_params.isSome := by rw [Example.heap_src]; rfl
  have hs : 0 < Example.heap.next := by decide
  obtain ⟨r, h', h2⟩ := example_get_snr none (fun m hm => by cases hm)
  obtain ⟨items, h'', hl⟩ := C102_snr hre hs hb example_cls' example_sized (by norm_num) example_schedule h2
  rw [hn] at hl
  have hlen : len 0 Example.heap = (.ok 2, Example.heap) := by
    rw [← hn]
    rfl
  exact ⟨r, h', items, h'', h2, hl, (C102_loop hre hs hb example_cls' example_sized
    (fun t k ht => snrOf_calls t k ht) hlen).1.2 _ _ _ hl⟩

end Legwork.Props
