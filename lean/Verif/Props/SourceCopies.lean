import Verif.Lemmas.Away
import Verif.Lemmas.Example
import Verif.Props.SourceIndex

/-!
# Copies are independent of the original (C39)
-/

namespace Legwork.Props

open Legwork.source Legwork.Spec
open PyM hiding bind

variable {W : World} {s s' : ℕ} {h h' h₁ : Heap}

/-- No call made on another source, and no construction of a new one, whether it succeeds or raises, changes anything
about an existing source `s`: not its attributes, its parameters, its SNRs or its dominant harmonics. -/
theorem C39_other_sources {ok : Heap → Op → Prop} (hr : Reachable W ok h) (hs : s < h.next)
    (hc : Calls W (NotOn s) h h') : Untouched h h' s := (away_calls (Reachable.inv hr) hs hc).same

/-- The parameters of a source belong to this source, so changing them is a call on it. -/
theorem C39_params_owner {ok : Heap → Op → Prop} {p : ℕ} (hr : Reachable W ok h) (hp : (h.src s).sc_params = some p) :
    (h.par p).source = some s := (((Reachable.inv hr).sc s).1 p hp).2.1

theorem getitem_fresh {ind : Index} (hi : Inv W false h) (hg : getitem s ind h = (.ok s', h₁)) :
    h.next ≤ s' ∧ s' < h₁.next ∧ (h₁.src s').sc_params.isSome := by
  rw [getitem_run] at hg
  split_ifs at hg with hv
  · simp at hg
  rcases hm : to_mask (h.src s).cols.n_sources ind with e | m <;> rw [hm] at hg
  · simp at hg
  · simp only at hg
    rcases getitem_mask_run s m h with ⟨e, h', hr, -⟩ | ⟨cols, snr, harm, p, h₂, -, hp, hgr, -, -, -, hr⟩
    · rw [hr] at hg
      simp at hg
    · obtain ⟨d', hd', -⟩ := filled_params_of_keysOk ((hi.sc s).1 p hp).2.2
      rcases hr with ⟨e, he⟩ | ⟨d, -, hr⟩
      · rw [he] at hd'; cases hd'
      · rw [hr] at hg
        simp only [Prod.mk.injEq, Except.ok.injEq] at hg
        obtain ⟨rfl, rfl⟩ := hg
        have := hgr.next
        exact ⟨this, by simp, by simp⟩

/-- **C39.** `sources[ind]` is another object. Making it changes nothing about the original; no later calls on it (or on
any other object) change the original, and no later calls on the original (or on any other object) change it. -/
theorem C39_getitem {ok : Heap → Op → Prop} {ind : Index} (hr : Reachable W ok h) (hs : s < h.next)
    (hg : getitem s ind h = (.ok s', h₁)) :
    s' ≠ s ∧ Untouched h h₁ s ∧ (∀ h₂, Calls W (NotOn s) h₁ h₂ → Untouched h h₂ s) ∧
    ∀ h₂, Calls W (NotOn s') h₁ h₂ → Untouched h₁ h₂ s' := by
  have hi := Reachable.inv hr
  obtain ⟨h1, h2, -⟩ := getitem_fresh hi hg
  have ha := leaves_getitem (W := W) (s₀ := s) s ind h h ⟨hi, hs, Untouched.refl _ _⟩
  rw [hg] at ha
  exact ⟨by omega, ha.same, fun h₂ hc => Untouched.trans ha.same (away_calls ha.inv ha.lt hc).same,
    fun h₂ hc => (away_calls ha.inv h2 hc).same⟩

/-- The same for `sources.copy()`. -/
theorem C39_copy {ok : Heap → Op → Prop} (hr : Reachable W ok h) (hs : s < h.next)
    (hg : source.copy s h = (.ok s', h₁)) :
    s' ≠ s ∧ Untouched h h₁ s ∧ (∀ h₂, Calls W (NotOn s) h₁ h₂ → Untouched h h₂ s) ∧
    ∀ h₂, Calls W (NotOn s') h₁ h₂ → Untouched h₁ h₂ s' := C39_getitem hr hs hg

/-- A part of the example, on which the tolerance is then changed and an SNR calculated: the original stays as it was.
On the original, a new curve is asked for: the part stays as it was. -/
example : ∃ s' h₁, getitem 0 (.ints [-1, 0]) Example.heap = (.ok s', h₁) ∧
    Untouched Example.heap (Op.run Example.world (.getSnr s' {} 100 none)
      (Op.run Example.world (.setTol s' 0.01) h₁).2).2 0 ∧
    Untouched h₁ (Op.run Example.world (.assign 0 (some (Example.custom 1))) h₁).2 s' := by
  have hn : (Example.heap.src 0).cols.n_sources = 2 := by rw [Example.heap_src]; rfl
  have hre := Example.reachable (ok := AnyCall) trivial
  obtain ⟨s', h₁, h1, -⟩ := C38_getitem (ind := .ints [-1, 0]) (js := [1, 0]) (s := 0)
    hre (by rw [Example.heap_src]; rfl) (by rw [Example.heap_src]; simp [newObject, Example.args]) example_sized
    (by
      rw [hn]
      exact .cons (by unfold PosOf; omega) (.cons (by unfold PosOf; omega) .nil))
  obtain ⟨hne, -, h2, h3⟩ := C39_getitem hre (by simp [Example.heap, heapAfterInit]) h1
  have hn : ∀ h, NotOn 0 h (.setTol s' 0.01) ∧ NotOn 0 h (.getSnr s' {} 100 none) ∧
      NotOn s' h (.assign 0 (some (Example.custom 1))) := fun h =>
    ⟨by simpa [NotOn, Op.on] using hne, by simpa [NotOn, Op.on] using hne, by simpa [NotOn, Op.on] using Ne.symm hne⟩
  exact ⟨s', h₁, h1, h2 _ (.call _ (.call _ .none (hn _).1) (hn _).2.1), h3 _ (.call _ .none (hn _).2.2)⟩

end Legwork.Props
