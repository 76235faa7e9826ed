import Verif.Lemmas.EvolveNew
import Verif.Lemmas.EvolveSteps
import Verif.Lemmas.Example
import Verif.Lemmas.Grows
import Verif.Props.SourceIndex
import Verif.Props.SourceParams

/-!
# Evolving a collection (C45–C47), consistency of collections (C68, C69)
-/

namespace Legwork.Props

open Legwork.source Legwork.Spec
open PyM hiding bind

variable {W : World} {s i : ℕ} {h h' : Heap} {T : ℕ → ℝ} {t : EvolTime}

/-! ### C45: evolution in place -/

/-- **C45.** `evolve_sources` succeeds for one time, or one time per source. Every source evolves for its time
(`EvolvesTo`: it is marked as merged exactly when its time has run out, and so on), and nothing but frequencies,
eccentricities, merged flags and merger times of these sources changes. -/
theorem C45_evolve (hr : Rect (h.src s).cols) (ht : TimesOf (h.src s).cols.n_sources T t) :
    ∃ h', evolve_sources W s t h = (.ok (), h') ∧ Rect (h'.src s).cols ∧
      (h'.src s).cols.n_sources = (h.src s).cols.n_sources ∧
      (∀ i < (h.src s).cols.n_sources, EvolvesTo W (T i) (rowAt (h.src s).cols i) (rowAt (h'.src s).cols i)) ∧
      h' = { h with src := Function.update h.src s { h.src s with cols := (h'.src s).cols } } := by
  refine ⟨_, evolve_sources_ok hr ht, ?_, ?_, ?_, ?_⟩
  · simpa using rect_evolved hr T
  · simp [Cols.evolved, Cols.n_sources]
  · intro i hi
    simpa using evolvesTo_evolved hi
  · simp [Heap.setSrc]

/-- An array of times of another length is rejected. Frequencies, eccentricities and merged flags are as before. -/
theorem C45_rejected {ts : List ℝ} (hr : Rect (h.src s).cols) (ht : ts.length ≠ (h.src s).cols.n_sources) :
    ∃ h' tm, evolve_sources W s (.array ts) h = (.error .ValueError, h') ∧
      h' = { h with src := Function.update h.src s { h.src s with cols := { (h.src s).cols with t_merge := some tm } } } :=
  ⟨_, _, evolve_sources_error hr ht, rfl⟩

/-- Merging is permanent: whatever calls are made, in any order and on any objects, a source marked as merged stays
marked as merged as long as nothing is evolved into the past and the program does not itself change the mark. Only lengths that the code does not check are assumed to
be right (`SizeOk`). -/
theorem C45_permanent (hr : Reachable W SizeOk h) (hs : s < h.next)
    (hc : Calls W (fun h op => SizeOk h op ∧ Forwards h op) h h')
    (hm : (h.src s).cols.merged[i]? = some true) : (h'.src s).cols.merged[i]? = some true := by
  have ht : ∀ x, Tidy h x := fun x => Reachable.tidy (fun _ _ h => h) hr x
  have hi := Reachable.inv hr
  suffices (∀ x, Tidy h' x) ∧ Inv W false h' ∧ s < h'.next ∧ (h'.src s).cols.merged[i]? = some true from this.2.2.2
  induction hc with
  | none => exact ⟨ht, hi, hs, hm⟩
  | @call h₁ op _ hok ih =>
    obtain ⟨ht₁, hi₁, hs₁, hm₁⟩ := ih
    have hn : h₁.next ≤ (op.run W h₁).2.next := run_grows W op h₁
    refine ⟨tidy_run hi₁ ht₁ hok.1, run_inv hi₁ (by simp), by omega, ?_⟩
    rcases cols_run hi₁ ht₁ hok.1 hs₁ with ⟨f, t, hcol⟩ | ⟨c, rfl, hcol⟩ | ⟨t, T, rfl, hT, hcol⟩
    · rw [hcol]
      exact hm₁
    · rw [hcol]
      exact hok.2 i hm₁
    · rw [hcol]
      have hlt : i < (h₁.src s).cols.n_sources := by
        rw [← (ht₁ s).sized.rect.merged]
        exact (List.getElem?_eq_some_iff.1 hm₁).1
      have hmr : (rowAt (h₁.src s).cols i).merged = true := by
        simp [rowAt, List.getD_eq_getElem?_getD, hm₁]
      have h0 : 0 ≤ T i := by
        have hf := hok.2
        cases t with
        | scalar t => rw [hT i hlt]; exact hf
        | array ts => exact hf _ (List.mem_of_getElem? (hT.2 i hlt))
      have htm : tmOf W.K (h₁.src s).cols i ≤ 0 := by
        unfold tmOf
        rcases htm : (h₁.src s).cols.t_merge with _ | ts
        · simp [hmr]
        · simp only
          exact ((ht₁ s).settled.merged i hmr (ts.getD i 0) (by simp [rowAt, htm])).le
      have hrow := rowAt_evolved (W := W) (T := T) hlt
      have h1 := congrArg One.merged hrow
      simp only [decide_eq_true (htm.trans h0)] at h1
      have hlen : i < ((h₁.src s).cols.evolved (evolvedOf W (h₁.src s).cols T)).merged.length := by
        rw [(rect_evolved (ht₁ s).sized.rect T).merged]
        exact hlt
      rw [List.getElem?_eq_getElem hlen]
      simp only [rowAt, List.getD_eq_getElem?_getD, List.getElem?_eq_getElem hlen, Option.getD_some] at h1
      rw [h1]

/-- Evolving into the past makes merged sources unmerged (with the orbit of a binary at 100 Hz): the restriction to
non-negative times is needed. -/
theorem C45_past (hr : Rect (h.src s).cols) (hk : Coherent (h.src s).cols) {t : ℝ} (ht : t < 0)
    (hi : i < (h.src s).cols.n_sources) (hm : (rowAt (h.src s).cols i).merged = true) :
    ∃ h', evolve_sources W s (.scalar t) h = (.ok (), h') ∧ (rowAt (h'.src s).cols i).merged = false := by
  obtain ⟨h', h1, -, -, h2, -⟩ := C45_evolve (W := W) (T := fun _ => t) (t := .scalar t) hr fun _ _ => rfl
  refine ⟨h', h1, ?_⟩
  obtain ⟨tm, h3, -, ⟨h4, -⟩ | ⟨-, h4, -⟩⟩ := (h2 i hi).change
  · exfalso
    have : tm = 0 := by
      unfold TimeLeft at h3
      rcases hx : (rowAt (h.src s).cols i).t_merge with _ | x <;> rw [hx] at h3
      · simpa [MergerTimeOf, hm] using h3
      · rw [h3]
        exact hk.merged i hm x hx
    linarith
  · exact h4

/-! ### C46: evolving in steps -/

/-- **C46.** Evolving a collection of circular sources in any number of steps, each with one time for all or one per
source, leaves exactly the state that evolving once for the total times leaves. Excluded is only the coincidence that a
source has a separation of exactly 1e-30 au between two steps, since the code uses this separation to mark merged
sources. -/
theorem C46_circular {ts : List EvolTime} {Ts : List (ℕ → ℝ)} {t : EvolTime} (hne : ts ≠ [])
    (hr : Rect (h.src s).cols) (hc : ∀ i < (h.src s).cols.n_sources, CircularSource W.K (rowAt (h.src s).cols i))
    (hT : List.Forall₂ (TimesOf (h.src s).cols.n_sources) Ts ts)
    (h0 : ∀ T ∈ Ts, ∀ i < (h.src s).cols.n_sources, 0 ≤ T i)
    (hm : ∀ i < (h.src s).cols.n_sources, (rowAt (h.src s).cols i).merged = false → ∀ k, 0 < k → k < Ts.length →
      ¬ AtMarker W.K (rowAt (h.src s).cols i) (total (Ts.take k) i))
    (ht : TimesOf (h.src s).cols.n_sources (total Ts) t) :
    evolveAll W s ts h = evolve_sources W s t h ∧ ∃ h', evolve_sources W s t h = (.ok (), h') :=
  ⟨evolveAll_steps hne hr hc hT h0 hm ht, _, evolve_sources_ok hr ht⟩

/-! ### C47: evolution into a new object -/

/-- The settings that an evolved new object takes over: all but the class and whether curves are interpolated. -/
structure CarriedOver (h : Heap) (s : ℕ) (h' : Heap) (s' : ℕ) : Prop where
  stat_tol : (h'.src s').stat_tol = (h.src s).stat_tol
  n_proc : (h'.src s').n_proc = (h.src s).n_proc
  gw_lum_tol : (h'.src s').gw_lum_tol = (h.src s).gw_lum_tol
  harmonics_required : (h'.src s').harmonics_required = (h.src s).harmonics_required
  max_strain_harmonic : (h'.src s').max_strain_harmonic = (h.src s).max_strain_harmonic
  ecc_tol : (h'.src s').ecc_tol = (h.src s).ecc_tol
  sc : (h'.src s').sc = (h.src s).sc
  g : (h'.src s').g = (h.src s).g
  params : paramValues h' s' = paramValues h s

/-- **C47.** `evolve_sources(t_evol, create_new_class=True)` makes a new object whose sources are exactly those the same
call in place would have left, but without weights; it takes over the settings, has parameters of its own with the same
entries, no SNRs, class `Source` and `interpolate_sc` set. In the original only the cached merger times change, to the
times left at the moment of the call; its parameters, SNRs and harmonics are as before, as is every other object. -/
theorem C47_new_class {ok : Heap → Op → Prop} {tol e : ℝ} (hre : Reachable W ok h) (hr : Rect (h.src s).cols)
    (hk : Coherent (h.src s).cols) (hs : s < h.next) (ht : TimesOf (h.src s).cols.n_sources T t)
    (htol : (h.src s).gw_lum_tol = some tol) (he : find_eccentric_transition tol = .ok e)
    (hp : (h.src s).sc_params.isSome) :
    ∃ s' h' h₁, evolve_sources_new W s t h = (.ok s', h') ∧ evolve_sources W s t h = (.ok (), h₁) ∧
      h.next ≤ s' ∧ s' < h'.next ∧
      (h'.src s').cols = { (h₁.src s).cols with weights := none } ∧
      CarriedOver h s h' s' ∧ (h'.src s').cls = .Source ∧ (h'.src s').interpolate_sc = true ∧
      (h'.src s').snr = none ∧ (h'.src s').max_snr_harmonic = none ∧
      (∃ p, (h'.src s').sc_params = some p ∧ h.next ≤ p ∧ p < h'.next ∧ (h'.par p).source = some s') ∧
      h'.src s = { h.src s with cols := { (h.src s).cols with t_merge := (h'.src s).cols.t_merge } } ∧
      (∀ i < (h.src s).cols.n_sources, ∃ tm, TimeLeft W.K (rowAt (h.src s).cols i) tm ∧
        (rowAt (h'.src s).cols i).t_merge = some tm) ∧
      (∀ x < h.next, x ≠ s → h'.src x = h.src x) ∧ (∀ p < h.next, h'.par p = h.par p) ∧ h'.snrs = h.snrs ∧
      h'.harms = h.harms := by
  obtain ⟨p, hp⟩ := Option.isSome_iff_exists.1 hp
  have hi := Reachable.inv hre
  obtain ⟨d, hd, hrun⟩ := evolve_new_ok (W := W) hi hr hk ht htol he hp
  have hne : s ≠ h.next := by omega
  obtain ⟨t1, t2, t3⟩ := hi.tol s tol htol
  refine ⟨_, _, _, hrun, evolve_sources_ok hr ht, le_rfl, by simp, ?_, ?_, ?_, ?_, ?_, ?_, ?_, ?_, ?_, ?_, ?_, ?_, ?_⟩
  · simp
  · constructor <;> simp [htol, t1, t2, t3 e he, paramValues, hp]
    funext k
    exact hd k
  · simp
  · simp
  · simp
  · simp
  · exact ⟨h.next + 1, by simp, by omega, by simp, by simp⟩
  · simp only [Function.update_of_ne hne, Function.update_self]
    rfl
  · intro i hlt
    simp only [Function.update_of_ne hne, Function.update_self]
    refine ⟨tmOf W.K (h.src s).cols i, timeLeft_iff.2 rfl, ?_⟩
    rw [rowAt_timed]
    simp only
    rw [getD_range hlt]
  · intro x hx hxs
    simp only
    rw [Function.update_of_ne (by omega), Function.update_of_ne hxs]
  · intro p hp
    simp only
    rw [Function.update_of_ne (by omega)]
  · rfl
  · rfl

/-! ### C68, C69: collections stay consistent -/

/-- **C68.** In every program, every collection has exactly one entry per source in each of its attributes and results,
its merged sources have no time left, and its sources are circular if they have positions. Assumed are only the lengths
that the code does not check (`SizeOk`). -/
theorem C68_tidy (hr : Reachable W SizeOk h) (s : ℕ) : Tidy h s := Reachable.tidy (fun _ _ h => h) hr s

/-- The constructor does not check the length of `weights`: when it accepts some arguments it also accepts them with any
other weights. -/
theorem C68_weights_unchecked {a : InitArgs} {c : Cols} (hc : init_cols W a = .ok c) (w : List ℝ) :
    init_cols W { a with weights := some (.array w false) } = .ok { c with weights := some w } := by
  rw [init_cols_iff] at hc ⊢
  exact ⟨hc.m_1, hc.m_2, hc.dist, hc.ecc, hc.f_orb, hc.units, hc.lengths, rfl, hc.orient, hc.merged, hc.t_merge⟩

/-- Assigning several separations to a single source is accepted and leaves as many frequencies. -/
theorem C68_separations_unchecked {m₁ m₂ : ℝ} (h1 : (h.src s).cols.m_1 = [m₁]) (h2 : (h.src s).cols.m_2 = [m₂])
    (a : List ℝ) : ∃ h', set_a W s a h = (.ok (), h') ∧ (h'.src s).cols.f_orb.length = a.length ∧
      (h'.src s).cols.n_sources = 1 := by
  refine ⟨h.setSrc s { h.src s with cols := { (h.src s).cols with
    f_orb := a.map fun a => utils.get_f_orb_from_a W.K a m₁ m₂ } }, ?_, by simp, by simp [Cols.n_sources, h1]⟩
  unfold set_a
  rw [bind_run]
  simp only [getSrc]
  rw [bind_run, lift_run, h1, h2]
  have hb : broadcast2 (fun a m => utils.get_f_orb_from_a W.K a m.1 m.2) a ([m₁].zip [m₂]) =
      .ok (a.map fun a => utils.get_f_orb_from_a W.K a m₁ m₂) := by
    unfold broadcast2
    split_ifs with hl
    · obtain ⟨x, rfl⟩ := List.length_eq_one_iff.1 hl
      rfl
    · rcases a with _ | ⟨x, _ | ⟨y, a⟩⟩
      · rfl
      · exact absurd rfl hl
      · rfl
  rw [hb]
  simp only [modSrc, modify_run, h1, h2]

/-- **C69.** Masses, distances, weights and angles of an existing collection never change, and neither does the number
of its sources, whatever calls are made on it or on other objects, unless the program itself assigns to these attributes. -/
theorem C69_fixed (hr : Reachable W SizeOk h) (hs : s < h.next)
    (hc : Calls W (fun h op => SizeOk h op ∧ NoAssignment op) h h') :
    (h'.src s).cols = { (h.src s).cols with
      f_orb := (h'.src s).cols.f_orb, ecc := (h'.src s).cols.ecc, merged := (h'.src s).cols.merged,
      t_merge := (h'.src s).cols.t_merge } ∧
    (h'.src s).cols.n_sources = (h.src s).cols.n_sources := by
  have ht : ∀ x, Tidy h x := fun x => Reachable.tidy (fun _ _ h => h) hr x
  have hi := Reachable.inv hr
  suffices (∀ x, Tidy h' x) ∧ Inv W false h' ∧ s < h'.next ∧ (h'.src s).cols = { (h.src s).cols with
      f_orb := (h'.src s).cols.f_orb, ecc := (h'.src s).cols.ecc, merged := (h'.src s).cols.merged,
      t_merge := (h'.src s).cols.t_merge } by
    refine ⟨this.2.2.2, ?_⟩
    rw [this.2.2.2]
    rfl
  induction hc with
  | none => exact ⟨ht, hi, hs, rfl⟩
  | @call h₁ op _ hok ih =>
    obtain ⟨ht₁, hi₁, hs₁, hc₁⟩ := ih
    have hn : h₁.next ≤ (op.run W h₁).2.next := run_grows W op h₁
    refine ⟨tidy_run hi₁ ht₁ hok.1, run_inv hi₁ (by simp), by omega, ?_⟩
    rcases cols_run hi₁ ht₁ hok.1 hs₁ with ⟨f, t, hcol⟩ | ⟨c, rfl, hcol⟩ | ⟨t, T, rfl, hT, hcol⟩
    · rw [hcol, hc₁]
    · exact hok.2.elim
    · rw [hcol, hc₁]
      rfl

/-! ### Cases -/

theorem example_coherent : Coherent (Example.heap.src 0).cols := by
  rw [Example.heap_src]
  refine ⟨fun i _ t ht => ?_, fun hp => ?_, fun _ => ⟨rfl, rfl⟩⟩
  · simp [rowAt, newObject, Example.cols] at ht
  · simp [newObject, Example.cols] at hp

theorem example_reachable : Reachable Example.world SizeOk Example.heap :=
  Example.reachable ⟨by simp [Example.args], by simp [Example.args], by simp [Example.args], by simp [Example.args]⟩

theorem example_n : (Example.heap.src 0).cols.n_sources = 2 := by rw [Example.heap_src]; rfl

/-- The merger time of the circular source of the example. -/
noncomputable def exampleTime : ℝ := tmOf Example.world.K (Example.heap.src 0).cols 0

theorem exampleTime_pos : 0 < exampleTime := by
  have hrow : rowAt (Example.heap.src 0).cols 0 = ⟨2e30, 1e30, 1e20, 1e-3, 0, none, none, none, none, false, none⟩ := by
    rw [Example.heap_src]; rfl
  unfold exampleTime
  rw [tmOf_fresh (by rw [hrow]; simp), hrow]
  simp only [Bool.false_eq_true, if_false]
  rw [tMerge1_circ rfl]
  simp only
  have h1 := get_a_from_f_orb_pos Example.world.K (f := 1e-3) (m₁ := 2e30) (m₂ := 1e30) (by norm_num) (by norm_num)
    (by norm_num)
  have h2 := evol.beta_pos Example.world.K (m₁ := 2e30) (m₂ := 1e30) (by norm_num) (by norm_num)
  positivity

/-- The example evolves until its first source merges; this source then stays merged when the tolerance is changed, an
SNR is calculated and the sources are evolved further; evolving back makes it unmerged. -/
example : ∃ h₁, evolve_sources Example.world 0 (.scalar exampleTime) Example.heap = (.ok (), h₁) ∧
    (h₁.src 0).cols.merged[0]? = some true ∧
    (∀ t, 0 ≤ t → (((Op.evolve 0 (.scalar t)).run Example.world ((Op.getSnr 0 {} 100 none).run Example.world
      ((Op.setTol 0 0.01).run Example.world h₁).2).2).2.src 0).cols.merged[0]? = some true) ∧
    ∃ h₂, evolve_sources Example.world 0 (.scalar (-1)) h₁ = (.ok (), h₂) ∧ (rowAt (h₂.src 0).cols 0).merged = false := by
  have hT : TimesOf (Example.heap.src 0).cols.n_sources (fun _ => exampleTime) (.scalar exampleTime) := fun _ _ => rfl
  have hn : 0 < (Example.heap.src 0).cols.n_sources := by rw [example_n]; omega
  obtain ⟨h₁, h1, h2, h3, h4, -⟩ := C45_evolve (W := Example.world) example_rect hT
  have hm : (rowAt (h₁.src 0).cols 0).merged = true := by
    obtain ⟨tm, h5, -, ⟨-, h6, -⟩ | ⟨h6, -⟩⟩ := (h4 0 hn).change
    · exact h6
    · rw [timeLeft_iff] at h5
      rw [h5] at h6
      exact absurd h6 (lt_irrefl _)
  have hm' : (h₁.src 0).cols.merged[0]? = some true := by
    have hl : 0 < (h₁.src 0).cols.merged.length := by rw [h2.merged, h3]; exact hn
    rw [List.getElem?_eq_getElem hl]
    simpa [rowAt, List.getD_eq_getElem?_getD, List.getElem?_eq_getElem hl] using hm
  have hre : Reachable Example.world SizeOk h₁ := by
    have := Reachable.call (ok := SizeOk) (.evolve 0 (.scalar exampleTime)) example_reachable trivial
    rwa [show (Op.run Example.world (.evolve 0 (.scalar exampleTime)) Example.heap).2 = h₁ from
      congrArg Prod.snd h1] at this
  refine ⟨h₁, h1, hm', fun t ht => ?_, ?_⟩
  · refine C45_permanent hre ?_ (.call _ (.call _ (.call _ .none ⟨trivial, trivial⟩) ⟨trivial, trivial⟩) ⟨trivial, ht⟩) hm'
    have : h₁.next = Example.heap.next := by
      rw [evolve_sources_ok example_rect hT] at h1
      cases h1
      rfl
    rw [this]
    simp [Example.heap, heapAfterInit]
  · exact C45_past h2 (C68_tidy hre 0).settled (by norm_num) (by rw [h3]; exact hn) hm

/-- A heap with a single circular source. -/
noncomputable def circularHeap : Heap := { Example.start with
  src := fun _ => { blank with cols :=
    ⟨[2e30], [1e30], [1e20], [1e-3], [0], none, none, none, none, [false], none⟩ } }

/-- This source evolved in three steps, of which the first takes it part of the way to its merger, and the second
beyond. -/
example : ∃ t, 0 < t ∧ t < exampleTime ∧ evolveAll Example.world 0 [.scalar t, .array [exampleTime], .scalar 5] circularHeap =
    evolve_sources Example.world 0 (.scalar (t + exampleTime + 5)) circularHeap := by
  have ha := get_a_from_f_orb_pos Example.world.K (f := 1e-3) (m₁ := 2e30) (m₂ := 1e30) (by norm_num) (by norm_num)
    (by norm_num)
  have hb := evol.beta_pos Example.world.K (m₁ := 2e30) (m₂ := 1e30) (by norm_num) (by norm_num)
  have htm : exampleTime = utils.get_a_from_f_orb Example.world.K 1e-3 2e30 1e30 ^ 4 /
      (4 * utils.beta Example.world.K 2e30 1e30) := by
    have hrow : rowAt (Example.heap.src 0).cols 0 = ⟨2e30, 1e30, 1e20, 1e-3, 0, none, none, none, none, false, none⟩ := by
      rw [Example.heap_src]; rfl
    unfold exampleTime
    rw [tmOf_fresh (by rw [hrow]; simp), hrow]
    simp only [Bool.false_eq_true, if_false]
    rw [tMerge1_circ rfl]
  have hpos := exampleTime_pos
  have hrow : rowAt (circularHeap.src 0).cols 0 = ⟨2e30, 1e30, 1e20, 1e-3, 0, none, none, none, none, false, none⟩ := rfl
  have hn : (circularHeap.src 0).cols.n_sources = 1 := rfl
  have hmark : ∀ t, AtMarker Example.world.K (rowAt (circularHeap.src 0).cols 0) t →
      4 * utils.beta Example.world.K 2e30 1e30 * (exampleTime - t) = (1e-30 * evol.AU) ^ 4 := by
    intro t ht
    rw [hrow] at ht
    unfold AtMarker at ht
    simp only at ht
    rw [← ht, htm]
    field_simp
  suffices key : ∀ t, 0 < t → ¬ AtMarker Example.world.K (rowAt (circularHeap.src 0).cols 0) t →
      evolveAll Example.world 0 [.scalar t, .array [exampleTime], .scalar 5] circularHeap =
        evolve_sources Example.world 0 (.scalar (t + exampleTime + 5)) circularHeap by
    by_cases h1 : AtMarker Example.world.K (rowAt (circularHeap.src 0).cols 0) (exampleTime / 2)
    · refine ⟨exampleTime / 4, by positivity, by linarith, key _ (by positivity) fun h2 => ?_⟩
      have e1 := hmark _ h1
      have e2 := hmark _ h2
      have e3 : utils.beta Example.world.K 2e30 1e30 * exampleTime = 0 := by linarith
      rcases mul_eq_zero.1 e3 with e | e
      · exact hb.ne' e
      · exact hpos.ne' e
    · exact ⟨exampleTime / 2, by positivity, by linarith, key _ (by positivity) h1⟩
  intro t ht hmt
  refine (C46_circular (Ts := [fun _ => t, fun _ => exampleTime, fun _ => 5]) (by simp) ?_ ?_ ?_ ?_ ?_ ?_).1
  · constructor <;> simp [circularHeap, Cols.n_sources]
  · intro i hi
    obtain rfl : i = 0 := by omega
    rw [hrow]
    exact ⟨by norm_num, by norm_num, by norm_num, rfl, by simp⟩
  · refine .cons (fun _ _ => rfl) (.cons ⟨rfl, fun i hi => ?_⟩ (.cons (fun _ _ => rfl) .nil))
    obtain rfl : i = 0 := by omega
    rfl
  · intro T hT i _
    simp only [List.mem_cons, List.not_mem_nil, or_false] at hT
    rcases hT with rfl | rfl | rfl
    · exact ht.le
    · exact hpos.le
    · norm_num
  · intro i hi _ k hk0 hk
    obtain rfl : i = 0 := by omega
    simp only [List.length_cons, List.length_nil] at hk
    obtain rfl | rfl : k = 1 ∨ k = 2 := by omega
    · simpa [total] using hmt
    · intro hx
      have := hmark _ hx
      simp only [total, List.take, List.map, List.sum_cons, List.sum_nil] at this
      have h1 : 0 < utils.beta Example.world.K 2e30 1e30 * t := by positivity
      have h2 : (0 : ℝ) ≤ (1e-30 * evol.AU) ^ 4 := by positivity
      nlinarith
  · intro i _
    simp [total]
    ring

/-- Evolving the example into a new object. -/
noncomputable example := C47_new_class (W := Example.world) (T := fun _ => 1e8) (t := .scalar 1e8)
  (Example.reachable (ok := AnyCall) trivial) example_rect example_coherent (by simp [Example.heap, heapAfterInit])
  (fun _ _ => rfl) (by rw [Example.heap_src]; rfl) Example.find_eccTol (by rw [Example.heap_src]; rfl)

/-- Two binaries without interpolation, evolved into a new object: it claims interpolation and has no curve, so the
condition of `C40_evolved_without_curve` can be met (and `Interpolating` excludes this call). -/
example : ∃ h h' s', Reachable Example.world Interpolating h ∧ (h.src 0).interpolate_sc = false ∧
    evolve_sources_new Example.world 0 (.scalar 5) h = (.ok s', h') ∧
    (h'.src s').interpolate_sc = true ∧ (h'.src s').sc = none := by
  obtain ⟨a, ha⟩ : ∃ a : InitArgs, a = { Example.args with interpolate_sc := false } := ⟨_, rfl⟩
  have hc : init_cols Example.world a = .ok Example.cols := by
    rw [ha]
    exact Example.init_cols_args
  have ht : find_eccentric_transition a.gw_lum_tol = .ok Example.eccTol := by
    rw [ha]
    exact Example.find_eccTol
  have hd : filled_params a.sc_params = .ok (Example.params 0) := by
    rw [ha]
    exact Example.filled_custom 0
  have hi : a.interpolate_sc = false := by rw [ha]
  rcases init_run Example.world .Source a Example.start with ⟨c, et, d, sc, h1, h2, h3, h4, h5⟩ | ⟨-, h⟩
  · rw [hc] at h1
    rw [ht] at h2
    cases h1
    cases h2
    have hs : sc = none := by
      rcases h4 with ⟨h4, -⟩ | ⟨-, h4⟩
      · rw [hi] at h4; cases h4
      · exact h4
    have hr : Reachable Example.world (fun h op => SizeOk h op ∧ Interpolating h op)
        (heapAfterInit Example.world .Source a Example.cols Example.eccTol d sc Example.start) := by
      have := Reachable.call (W := Example.world) (ok := (fun h op => SizeOk h op ∧ Interpolating h op))
        (h := Example.start) (.init .Source a) (.start fun _ => rfl) (by rw [ha]; simp [SizeOk, Interpolating, Example.args])
      have he : (Op.run Example.world (.init .Source a) Example.start).2 =
          heapAfterInit Example.world .Source a Example.cols Example.eccTol d sc Example.start := by
        change ((init Example.world .Source a >>= fun _ => pure ()) Example.start).2 = _
        rw [bind_run, h5]
        rfl
      rwa [he] at this
    generalize hk : heapAfterInit Example.world .Source a Example.cols Example.eccTol d sc Example.start = k at hr
    have hsrc : k.src 0 = newObject Example.world .Source a Example.cols Example.eccTol sc 1 := by
      rw [← hk]
      change Function.update Example.start.src 0 _ 0 = _
      rw [Function.update_self]
      rfl
    have hoff : (k.src 0).interpolate_sc = false := by rw [hsrc]; exact hi
    have hri := reachable_mono (ok' := Interpolating) (fun _ _ h => h.2) hr
    have htidy := Reachable.tidy (fun _ _ h => h.1) hr 0
    obtain ⟨s', h', -, hrun, -⟩ := C47_new_class (W := Example.world) (T := fun _ => 5) (t := .scalar 5) hr
      htidy.sized.rect htidy.settled (by rw [← hk]; simp [heapAfterInit]) (fun _ _ => rfl)
      (tol := a.gw_lum_tol) (by rw [hsrc]; rfl) ht (by rw [hsrc]; rfl)
    exact ⟨k, h', s', hri, hoff, hrun, C40_evolved_without_curve hri hoff hrun⟩
  · exfalso
    rcases h with ⟨e, he⟩ | ⟨e, he⟩ | ⟨e, he⟩ | ⟨h, -⟩
    · rw [hc] at he; cases he
    · rw [ht] at he; cases he
    · rw [hd] at he; cases he
    · rw [hi] at h; cases h

end Legwork.Props
