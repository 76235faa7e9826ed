import Verif.Props.SourceEvolve

/-!
# Derived attributes (C44) and cached merger times (C70)
-/

namespace Legwork.Props

open Legwork.source Legwork.Spec Legwork.utils
open PyM hiding bind

variable {W : World} {s i : ℕ} {h h' : Heap} {T : ℕ → ℝ} {t : EvolTime} {c : Cols}

theorem zip_masses_length (hr : Rect c) : (c.m_1.zip c.m_2).length = c.n_sources := by
  rw [List.length_zip, hr.m_2]
  exact min_self _

/-- Element-wise values of a binary operation over columns. -/
theorem zipWith_masses {f : ℝ → ℝ × ℝ → ℝ} {x : List ℝ} (hr : Rect c) (hx : x.length = c.n_sources) :
    x.zipWith f (c.m_1.zip c.m_2) =
      (List.range c.n_sources).map fun i => f (x.getD i 0) ((rowAt c i).m_1, (rowAt c i).m_2) := by
  apply List.ext_getElem
  · simp [zip_masses_length hr, hx]
  · intro i h1 h2
    have hi : i < c.n_sources := by simpa using h2
    have h3 : i < c.m_1.length := hi
    have h4 : i < c.m_2.length := by rw [hr.m_2]; exact hi
    have h5 : i < x.length := by rw [hx]; exact hi
    simp [rowAt, List.getD_eq_getElem?_getD, List.getElem?_eq_getElem h3, List.getElem?_eq_getElem h4,
      List.getElem?_eq_getElem h5]

theorem broadcast2_same {α : Type} {f : ℝ → α → ℝ} {x : List ℝ} {y : List α} (hl : x.length = y.length) :
    broadcast2 f x y = .ok (x.zipWith f y) := by
  unfold broadcast2
  rw [if_pos hl]
  rfl

/-! ### C44: chirp masses and separations -/

/-- Reading `sources.a` gives the separation of every source, by Kepler's third law from its current frequency and
masses. -/
theorem C44_a (hr : Rect c) : Source_a W.K c = .ok ((rows c).map fun r => get_a_from_f_orb W.K r.f_orb r.m_1 r.m_2) := by
  unfold Source_a
  rw [broadcast2_same (by rw [hr.f_orb, zip_masses_length hr]), zipWith_masses hr hr.f_orb]
  simp [rows, rowAt]

/-- Reading `sources.m_c` gives the chirp mass of every source. -/
theorem C44_m_c (hr : Rect c) : c.m_c = (rows c).map fun r => chirp_mass r.m_1 r.m_2 := by
  unfold Cols.m_c rows
  apply List.ext_getElem
  · simp [hr.m_2, Cols.n_sources]
  · intro i h1 h2
    have hi : i < c.n_sources := by simpa using h2
    have h3 : i < c.m_1.length := hi
    have h4 : i < c.m_2.length := by rw [hr.m_2]; exact hi
    simp [rowAt, List.getD_eq_getElem?_getD, List.getElem?_eq_getElem h3, List.getElem?_eq_getElem h4]

/-- The frequencies of separations, by source. -/
noncomputable def freqs (K : Consts) (c : Cols) (a : List ℝ) : List ℝ :=
  (List.range c.n_sources).map fun i => get_f_orb_from_a K (a.getD i 0) (rowAt c i).m_1 (rowAt c i).m_2

/-- The frequencies left by an assignment to `sources.a`. -/
theorem set_a_run (hr : Rect (h.src s).cols) {a : List ℝ} (ha : a.length = (h.src s).cols.n_sources) :
    set_a W s a h = (.ok (), h.setSrc s { h.src s with cols := { (h.src s).cols with f_orb := freqs W.K (h.src s).cols a } }) := by
  unfold set_a
  rw [bind_run]
  simp only [getSrc]
  rw [bind_run, lift_run, broadcast2_same (by rw [ha, zip_masses_length hr]), zipWith_masses hr ha]
  rfl

/-- **C44.** After `sources.a = a` for positive separations and masses, reading `sources.a` gives `a` again, the
frequencies are those of `a` by Kepler's third law, chirp masses and the number of sources are as before, and nothing but
the frequencies has changed. -/
theorem C44_set_a (hr : Rect (h.src s).cols) {a : List ℝ} (ha : a.length = (h.src s).cols.n_sources)
    (hpos : ∀ x ∈ a, 0 < x) (hm : ∀ i < (h.src s).cols.n_sources,
      0 < (rowAt (h.src s).cols i).m_1 ∧ 0 < (rowAt (h.src s).cols i).m_2) :
    ∃ h', set_a W s a h = (.ok (), h') ∧ Source_a W.K (h'.src s).cols = .ok a ∧
      (∀ i < (h.src s).cols.n_sources, KeplerThird W.K (rowAt (h'.src s).cols i).f_orb (a.getD i 0)
        (rowAt (h'.src s).cols i).m_1 (rowAt (h'.src s).cols i).m_2) ∧
      (h'.src s).cols.m_c = (h.src s).cols.m_c ∧ (h'.src s).cols.n_sources = (h.src s).cols.n_sources ∧
      h' = h.setSrc s { h.src s with cols := { (h.src s).cols with f_orb := (h'.src s).cols.f_orb } } := by
  have hx : ∀ i < (h.src s).cols.n_sources, 0 < a.getD i 0 := by
    intro i hi
    rw [List.getD_eq_getElem?_getD, List.getElem?_eq_getElem (by rw [ha]; exact hi)]
    exact hpos _ (List.getElem_mem _)
  have hrow : ∀ i < (h.src s).cols.n_sources, ((freqs W.K (h.src s).cols a).getD i 0) =
      get_f_orb_from_a W.K (a.getD i 0) (rowAt (h.src s).cols i).m_1 (rowAt (h.src s).cols i).m_2 :=
    fun i hi => getD_range hi _ _
  refine ⟨_, set_a_run hr ha, ?_, ?_, by simp [Cols.m_c], by simp [Cols.n_sources], by simp⟩
  · have hr' : Rect { (h.src s).cols with f_orb := freqs W.K (h.src s).cols a } :=
      ⟨hr.m_2, hr.dist, by simp [Cols.n_sources, freqs], hr.ecc, hr.merged, hr.weights, hr.position, hr.inclination,
        hr.polarisation, hr.t_merge, hr.angles⟩
    rw [setSrc_src, Function.update_self, C44_a hr']
    congr 1
    apply List.ext_getElem
    · simp [rows, ha, Cols.n_sources]
    · intro i h1 h2
      have hi : i < (h.src s).cols.n_sources := by rw [← ha]; exact h2
      simp only [rows, List.getElem_map, List.getElem_range]
      have hf : (rowAt { (h.src s).cols with f_orb := freqs W.K (h.src s).cols a } i).f_orb = _ :=
        hrow i hi
      rw [hf]
      have := C01_a_roundtrip W.K (hx i hi) (hm i hi).1 (hm i hi).2
      rw [List.getD_eq_getElem?_getD, List.getElem?_eq_getElem h2] at this ⊢
      exact this
  · intro i hi
    rw [setSrc_src, Function.update_self]
    have hf : (rowAt { (h.src s).cols with f_orb := freqs W.K (h.src s).cols a } i).f_orb = _ :=
      hrow i hi
    simp only
    rw [hf]
    exact (C01_get_f_iff_kepler W.K (get_f_orb_from_a_pos W.K (hx i hi) (hm i hi).1 (hm i hi).2) (hx i hi) (hm i hi).1
      (hm i hi).2).1 rfl

theorem rect_colsAt (hr : Rect c) (js : List ℕ) : Rect (colsAt js c) := by
  have ho : ∀ {α : Type} (d : α) (o : Option (List α)) x, o.map (entries d js) = some x → x.length = js.length := by
    intro α d o x hx
    rcases o with _ | y
    · cases hx
    · cases hx
      simp [entries]
  have hn : (colsAt js c).n_sources = js.length := by simp [Cols.n_sources, colsAt, entries]
  refine ⟨?_, ?_, ?_, ?_, ?_, ?_, ?_, ?_, ?_, ?_, ?_⟩ <;> try rw [hn]
  iterate 5 simp [colsAt, entries]
  iterate 5 exact ho _ _
  simpa [colsAt] using hr.angles

/-- The derived attributes of a part of a collection are the parts of the derived attributes. -/
theorem C44_parts (hr : Rect c) {js : List ℕ} (hj : ∀ j ∈ js, j < c.n_sources) {as : List ℝ}
    (ha : Source_a W.K c = .ok as) :
    Source_a W.K (colsAt js c) = .ok (entries 0 js as) ∧ (colsAt js c).m_c = entries 0 js c.m_c := by
  have hr' : Rect (colsAt js c) := rect_colsAt hr js
  rw [C44_a hr] at ha
  cases ha
  rw [C44_a hr', C44_m_c hr, C44_m_c hr']
  have hrow : ∀ k (hk : k < js.length), (rowAt (colsAt js c) k).f_orb = (rowAt c js[k]).f_orb ∧
      (rowAt (colsAt js c) k).m_1 = (rowAt c js[k]).m_1 ∧ (rowAt (colsAt js c) k).m_2 = (rowAt c js[k]).m_2 := by
    intro k hk
    simp [rowAt, colsAt, entries, List.getD_eq_getElem?_getD, List.getElem?_eq_getElem hk]
  have hn : (colsAt js c).n_sources = js.length := by simp [Cols.n_sources, colsAt, entries]
  constructor
  · congr 1
    apply List.ext_getElem
    · simp [rows, entries, hn]
    · intro k h1 h2
      have hk : k < js.length := by simpa [entries] using h2
      obtain ⟨e1, e2, e3⟩ := hrow k hk
      have hjk := hj _ (List.getElem_mem hk)
      simp [rows, entries, e1, e2, e3, List.getD_eq_getElem?_getD, hjk]
  · apply List.ext_getElem
    · simp [rows, entries, hn]
    · intro k h1 h2
      have hk : k < js.length := by simpa [entries] using h2
      obtain ⟨e1, e2, e3⟩ := hrow k hk
      have hjk := hj _ (List.getElem_mem hk)
      simp [rows, entries, e2, e3, List.getD_eq_getElem?_getD, hjk]

/-! ### C70: cached merger times -/

/-- **C70.** Right after `get_merger_time()`, and for collections whose merger times have not been calculated yet,
`evolve_sources` merges exactly the sources whose present orbits merge within the time. -/
theorem C70_current (hr : Rect (h.src s).cols) (ht : TimesOf (h.src s).cols.n_sources T t)
    (hf : (h.src s).cols.t_merge = none ∨ ∃ h₀ w ts, Rect (h₀.src s).cols ∧
      get_merger_time W s true w true h₀ = (.ok ts, h)) :
    ∃ h', evolve_sources W s t h = (.ok (), h') ∧ ∀ i < (h.src s).cols.n_sources,
      ∃ tm, MergerTimeOf W.K true (rowAt (h.src s).cols i) tm ∧
        ((rowAt (h'.src s).cols i).merged = true ↔ tm ≤ T i) := by
  obtain ⟨h', h1, -, -, h2, -⟩ := C45_evolve (W := W) hr ht
  refine ⟨h', h1, fun i hi => ?_⟩
  obtain ⟨tm, h3, -, h4⟩ := (h2 i hi).change
  refine ⟨tm, ?_, ?_⟩
  · rcases hf with hf | ⟨h₀, w, ts, hr₀, hg⟩
    · simpa [TimeLeft, rowAt, hf] using h3
    · obtain ⟨ts', hg', hts⟩ := C58_saved (W := W) hr₀ w true
      rw [hg] at hg'
      simp only [Prod.mk.injEq, Except.ok.injEq] at hg'
      obtain ⟨rfl, rfl⟩ := hg'
      simp only [Function.update_self] at h3 hi ⊢
      have hi' : i < (h₀.src s).cols.n_sources := hi
      have hlen : ts.length = (h₀.src s).cols.n_sources := by rw [← hts.length_eq]; simp [rows]
      have h5 := (List.forall₂_iff_get.1 hts).2 i (by simpa [rows] using hi') (by rw [hlen]; exact hi')
      simp only [rows, List.get_eq_getElem, List.getElem_map, List.getElem_range] at h5
      simp only [TimeLeft, rowAt, Option.map_some, List.getD_eq_getElem?_getD,
        List.getElem?_eq_getElem (show i < ts.length by rw [hlen]; exact hi'), Option.getD_some] at h3
      rw [h3]
      exact h5
  · rcases h4 with ⟨h4, h5, -⟩ | ⟨h4, h5, -⟩
    · exact ⟨fun _ => h4, fun _ => h5⟩
    · rw [h5]
      exact ⟨fun h => Bool.noConfusion h, fun h => absurd h (not_le.2 h4)⟩

/-- Otherwise they may belong to earlier orbits: once merger times are stored, assigning any separations and then
evolving merges exactly the sources whose stored time has run out, whatever the separations are. -/
theorem C70_stale (hr : Rect (h.src s).cols) {ts a : List ℝ} (hts : (h.src s).cols.t_merge = some ts)
    (ha : a.length = (h.src s).cols.n_sources) (T : ℝ) :
    ∃ h₁ h₂, set_a W s a h = (.ok (), h₁) ∧ evolve_sources W s (.scalar T) h₁ = (.ok (), h₂) ∧
      ∀ i < (h.src s).cols.n_sources, ((rowAt (h₂.src s).cols i).merged = true ↔ ts.getD i 0 ≤ T) := by
  have hr₁ : Rect { (h.src s).cols with f_orb := freqs W.K (h.src s).cols a } :=
    ⟨hr.m_2, hr.dist, by simp [Cols.n_sources, freqs], hr.ecc, hr.merged, hr.weights, hr.position, hr.inclination,
      hr.polarisation, hr.t_merge, hr.angles⟩
  generalize hh : h.setSrc s { h.src s with cols := { (h.src s).cols with f_orb := freqs W.K (h.src s).cols a } } = h₁
  have hc : (h₁.src s).cols = { (h.src s).cols with f_orb := freqs W.K (h.src s).cols a } := by rw [← hh]; simp
  obtain ⟨h₂, h1, -, -, h2, -⟩ := C45_evolve (W := W) (h := h₁) (s := s) (T := fun _ => T) (t := .scalar T)
    (by rw [hc]; exact hr₁) fun _ _ => rfl
  refine ⟨h₁, h₂, by rw [set_a_run hr ha, hh], h1, fun i hi => ?_⟩
  obtain ⟨tm, h3, -, h4⟩ := (h2 i (by rw [hc]; exact hi)).change
  have : tm = ts.getD i 0 := by
    rw [hc] at h3
    simpa [TimeLeft, rowAt, hts] using h3
  subst this
  rcases h4 with ⟨h4, h5, -⟩ | ⟨h4, h5, -⟩
  · exact ⟨fun _ => h4, fun _ => h5⟩
  · rw [h5]
    exact ⟨fun h => Bool.noConfusion h, fun h => absurd h (not_le.2 h4)⟩

/-- So a circular binary can be marked as merged although its present orbit would last ten thousand times as long: one
asks for its merger time, then assigns ten times its separation, then evolves for the time it had before. -/
theorem C70_wrongly_merged (hn : (h.src s).cols.n_sources = 1) (hr : Rect (h.src s).cols)
    (hm : (rowAt (h.src s).cols 0).merged = false) (h1 : 0 < (rowAt (h.src s).cols 0).m_1)
    (h2 : 0 < (rowAt (h.src s).cols 0).m_2) (hf : 0 < (rowAt (h.src s).cols 0).f_orb)
    (he : (rowAt (h.src s).cols 0).ecc = 0) :
    ∃ tm a h₁ h₂ h₃, get_merger_time W s true none true h = (.ok [tm], h₁) ∧ set_a W s [a] h₁ = (.ok (), h₂) ∧
      0 < tm ∧ MergerTimeOf W.K true (rowAt (h₂.src s).cols 0) (10 ^ 4 * tm) ∧
      evolve_sources W s (.scalar tm) h₂ = (.ok (), h₃) ∧ (rowAt (h₃.src s).cols 0).merged = true := by
  obtain ⟨ts, hg, hts⟩ := C58_saved (W := W) hr none true
  have hlen : ts.length = 1 := by rw [← hts.length_eq]; simp [rows, hn]
  obtain ⟨tm, rfl⟩ := List.length_eq_one_iff.1 hlen
  have htm : MergerTimeOf W.K true (rowAt (h.src s).cols 0) tm := by
    simpa [rows, hn] using hts
  have hb := evol.beta_pos W.K h1 h2
  have ha := get_a_from_f_orb_pos W.K hf h1 h2
  have htm' : tm = get_a_from_f_orb W.K (rowAt (h.src s).cols 0).f_orb (rowAt (h.src s).cols 0).m_1
      (rowAt (h.src s).cols 0).m_2 ^ 4 / (4 * beta W.K (rowAt (h.src s).cols 0).m_1 (rowAt (h.src s).cols 0).m_2) := by
    rw [mergerTimeOf_iff, hm] at htm
    simp only [Bool.false_eq_true, if_false] at htm
    rw [htm, tMerge1_circ he]
  change _ = (_, h.setSrc s { h.src s with cols := { (h.src s).cols with t_merge := some [tm] } }) at hg
  generalize hh : h.setSrc s { h.src s with cols := { (h.src s).cols with t_merge := some [tm] } } = h₁ at hg
  have hc : (h₁.src s).cols = { (h.src s).cols with t_merge := some [tm] } := by rw [← hh]; simp
  have hr₁ : Rect (h₁.src s).cols := by
    rw [hc]
    exact ⟨hr.m_2, hr.dist, hr.f_orb, hr.ecc, hr.merged, hr.weights, hr.position, hr.inclination,
      hr.polarisation, by simp; exact hn.symm, hr.angles⟩
  have hn₁ : (h₁.src s).cols.n_sources = 1 := by rw [hc]; exact hn
  set a := 10 * get_a_from_f_orb W.K (rowAt (h.src s).cols 0).f_orb (rowAt (h.src s).cols 0).m_1
      (rowAt (h.src s).cols 0).m_2 with hadef
  have hapos : 0 < a := by positivity
  obtain ⟨h₂, h₃, hs, hev, hmg⟩ := C70_stale (W := W) (h := h₁) (s := s) hr₁ (ts := [tm]) (a := [a]) (by rw [hc])
    (by simpa using hn₁.symm) tm
  refine ⟨tm, a, h₁, h₂, h₃, hg, hs, ?_, ?_, hev, (hmg 0 (by omega)).2 (by simp)⟩
  · rw [htm']
    positivity
  · rw [set_a_run hr₁ (by simpa using hn₁.symm)] at hs
    simp only [Prod.mk.injEq, true_and] at hs
    have hrow : rowAt (h₂.src s).cols 0 = { rowAt (h.src s).cols 0 with
        f_orb := get_f_orb_from_a W.K a (rowAt (h.src s).cols 0).m_1 (rowAt (h.src s).cols 0).m_2, t_merge := some tm } := by
      rw [← hs, setSrc_src, Function.update_self]
      have hfr : (freqs W.K (h₁.src s).cols [a]).getD 0 0 = _ := getD_range (by omega) _ _
      rw [hc] at hfr ⊢
      unfold rowAt at hfr ⊢
      simp only at hfr ⊢
      rw [hfr]
      rfl
    rw [hrow, mergerTimeOf_iff]
    simp only [hm, Bool.false_eq_true, if_false]
    rw [tMerge1_circ (by exact he)]
    simp only
    rw [C01_a_roundtrip W.K hapos h1 h2, htm', hadef]
    ring

/-! ### Cases -/

/-- Assigning separations to the example, also with its tolerance changed before. -/
noncomputable example := C44_set_a (W := Example.world) example_rect (a := [1e9, 2e9]) (by rw [example_n]; rfl)
  (by simp; norm_num) (by
    intro i hi
    rw [example_n] at hi
    rw [Example.heap_src]
    interval_cases i <;> constructor <;> simp [rowAt, newObject, Example.cols] <;> norm_num)

/-- A binary that is wrongly marked as merged. -/
noncomputable example := C70_wrongly_merged (W := Example.world) (h := circularHeap) (s := 0) rfl
  (by constructor <;> simp [circularHeap, Cols.n_sources]) rfl
  (show (0 : ℝ) < 2e30 by norm_num) (show (0 : ℝ) < 1e30 by norm_num) (show (0 : ℝ) < 1e-3 by norm_num) rfl

end Legwork.Props
