import Verif.Lemmas.BesselDeriv
import Verif.Lemmas.BesselValues
import Verif.Lemmas.BesselTwo
import Verif.Props.PetersSum
import Verif.Props.SourceParams
import Mathlib.Topology.Order.IntermediateValue

/-!
# The transition between circular and eccentric, away from the grid

C33 says what `ecc_tol` is in terms of the points of the grid `linspace(0, 0.2, 10000)`. Here the same is said of all
eccentricities.
-/

namespace Legwork.Props

open Real Legwork.utils Legwork.Spec Set Legwork.source

/-- The distance of two points of the grid `linspace(0, 0.2, 10000)`. -/
noncomputable def gridStep : ℝ := 0.2 / 9999

/-- By how much the second harmonic exceeds what the tolerance asks for. -/
noncomputable def margin (tol e : ℝ) : ℝ := peters_g 2 e - (1 - tol) * peters_f e

private theorem margin_strictAnti {tol : ℝ} (h : tol < 1) : StrictAntiOn (margin tol) (Icc 0 0.35) := by
  intro x hx y hy hxy
  have h1 := peters_g_two_antitone hx hy hxy.le
  have h2 : peters_f x < peters_f y := C04_strictMono ⟨hx.1, hx.2.trans_lt (by norm_num)⟩ ⟨hy.1, hy.2.trans_lt (by norm_num)⟩ hxy
  have h3 : (1 - tol) * peters_f x < (1 - tol) * peters_f y := mul_lt_mul_of_pos_left h2 (by linarith)
  unfold margin
  linarith

private theorem margin_continuous (tol : ℝ) : ContinuousOn (margin tol) (Icc 0 0.2) := by
  intro e he
  obtain ⟨d, -, hd⟩ := hasDerivAt_peters_f_small he.1 he.2
  exact ((hasDerivAt_peters_g_two e).continuousAt.sub (continuousAt_const.mul hd.continuousAt)).continuousWithinAt

/-- The transition is a point of the grid with a predecessor. -/
private theorem transition_grid {tol e : ℝ} (htol : 0 ≤ tol) (h : find_eccentric_transition tol = .ok e) :
    tol < 1 ∧ 0 ≤ e - gridStep ∧ e ≤ 0.2 ∧ 0 ≤ margin tol (e - gridStep) ∧ margin tol e < 0 := by
  have hpos := C33_pos htol h
  obtain ⟨h1, h2, h3⟩ := C33_first h
  have ht : tol < 1 := by
    by_contra hc
    rw [C33_large_tolerance (not_lt.1 hc)] at h
    cases h
  obtain ⟨k, hk, rfl⟩ := List.mem_map.1 h1
  rw [List.mem_range] at hk
  have hstep : (0.2 : ℝ) / (((10000 : ℕ) : ℝ) - 1) = gridStep := by unfold gridStep; norm_num
  rw [hstep] at h hpos h1 h2 h3 ⊢
  have hs0 : 0 < gridStep := by unfold gridStep; norm_num
  have hk0 : k ≠ 0 := by
    rintro rfl
    simp at hpos
  obtain ⟨j, rfl⟩ := Nat.exists_eq_succ_of_ne_zero hk0
  have hj : ((j + 1 : ℕ) : ℝ) * gridStep - gridStep = j * gridStep := by push_cast; ring
  have hlt : (j : ℝ) * gridStep < ((j + 1 : ℕ) : ℝ) * gridStep := by push_cast; linarith
  have hk' : ((j + 1 : ℕ) : ℝ) ≤ 9999 := by exact_mod_cast (by omega : j + 1 ≤ 9999)
  have hmem : (j : ℝ) * gridStep ∈ np.linspace 0.2 10000 :=
    List.mem_map.2 ⟨j, List.mem_range.2 (by omega), by rw [hstep]⟩
  refine ⟨ht, ?_, ?_, ?_, ?_⟩
  · rw [Nat.succ_eq_add_one, hj]; positivity
  · calc ((j + 1 : ℕ) : ℝ) * gridStep ≤ 9999 * gridStep := mul_le_mul_of_nonneg_right hk' hs0.le
      _ = 0.2 := by unfold gridStep; norm_num
  · rw [Nat.succ_eq_add_one, hj]
    have := h3 _ hmem hlt
    unfold margin
    linarith
  · unfold margin
    linarith

/-- From the transition on the tolerance is broken. -/
private theorem margin_neg {tol e : ℝ} (htol : 0 ≤ tol) (h : find_eccentric_transition tol = .ok e) {x : ℝ} (hx : e ≤ x)
    (hx1 : x < 1) : margin tol x < 0 := by
  obtain ⟨h1, h2, h3, h4, h5⟩ := transition_grid htol h
  have hs0 : 0 < gridStep := by unfold gridStep; norm_num
  have hw : e ≤ 0.35 := h3.trans (by norm_num)
  rcases le_total x 0.35 with hc | hc
  · exact ((margin_strictAnti h1).antitoneOn ⟨by linarith, hw⟩ ⟨by linarith, hc⟩ hx).trans_lt h5
  · have a1 : margin tol 0.2 ≤ margin tol e :=
      (margin_strictAnti h1).antitoneOn ⟨by linarith, hw⟩ ⟨by norm_num, by norm_num⟩ h3
    have a2 := peters_g_two_end
    have a3 := peters_g_two_far hc hx1
    have hF : 0 < peters_f 0.2 := zero_lt_one.trans_le (C04_one_le (by norm_num) (by norm_num))
    have hFx : 0 < peters_f x := zero_lt_one.trans_le (C04_one_le (by linarith) hx1)
    unfold margin at a1 h5 ⊢
    have a4 : 0.55 < 1 - tol := by
      have : 0.55 * peters_f 0.2 < (1 - tol) * peters_f 0.2 := by linarith
      exact lt_of_mul_lt_mul_right this hF.le
    have a5 : 0.55 * peters_f x < (1 - tol) * peters_f x := mul_lt_mul_of_pos_right a4 hFx
    linarith

/-- **C115.** The transition separates all eccentricities, not only those of the grid: from the transition on the second
harmonic carries less than the fraction `1 - tol` of the power, and it carries at least that fraction at every eccentricity
that is below the transition by at least the distance of two grid points, `0.2/9999`. -/
theorem C115_transition {tol e : ℝ} (htol : 0 ≤ tol) (h : find_eccentric_transition tol = .ok e) :
    (∀ x, e ≤ x → x < 1 → peters_g 2 x < (1 - tol) * peters_f x) ∧
    ∀ x, 0 ≤ x → x ≤ e - 0.2 / 9999 → (1 - tol) * peters_f x ≤ peters_g 2 x := by
  obtain ⟨h1, h2, h3, h4, h5⟩ := transition_grid htol h
  have hs0 : 0 < gridStep := by unfold gridStep; norm_num
  have hw : e ≤ 0.35 := h3.trans (by norm_num)
  constructor
  · intro x hx hx2
    have := margin_neg htol h hx hx2
    unfold margin at this
    linarith
  · intro x hx hx2
    have hx2 : x ≤ e - gridStep := hx2
    have := (margin_strictAnti h1).antitoneOn ⟨hx, by linarith⟩ ⟨h2, by linarith⟩ hx2
    unfold margin at this h4
    linarith

/-- **C115** (the exact boundary). There is an eccentricity where the tolerance is reached exactly; up to it the second
harmonic carries the fraction `1 - tol`, beyond it less. The transition is at most `0.2/9999` above it, never below. -/
theorem C115_boundary {tol e : ℝ} (htol : 0 ≤ tol) (h : find_eccentric_transition tol = .ok e) :
    ∃ b, 0 ≤ b ∧ e - 0.2 / 9999 ≤ b ∧ b < e ∧ peters_g 2 b = (1 - tol) * peters_f b ∧
      ∀ x, 0 ≤ x → x < 1 → ((1 - tol) * peters_f x ≤ peters_g 2 x ↔ x ≤ b) := by
  obtain ⟨h1, h2, h3, h4, h5⟩ := transition_grid htol h
  have hs0 : 0 < gridStep := by unfold gridStep; norm_num
  have hw : e ≤ 0.35 := h3.trans (by norm_num)
  have hsub : Icc (e - gridStep) e ⊆ Icc 0 0.2 := Icc_subset_Icc h2 h3
  obtain ⟨b, hb, hb0⟩ := intermediate_value_Icc' (by linarith : e - gridStep ≤ e) ((margin_continuous tol).mono hsub)
    (⟨h5.le, h4⟩ : (0 : ℝ) ∈ Icc (margin tol e) (margin tol (e - gridStep)))
  have hbI := hsub hb
  have hne : b ≠ e := by
    rintro rfl
    exact absurd hb0 h5.ne
  refine ⟨b, hbI.1, hb.1, lt_of_le_of_ne hb.2 hne, ?_, ?_⟩
  · unfold margin at hb0
    linarith
  · intro x hx hx2
    have hiff : 0 ≤ margin tol x ↔ x ≤ b := by
      rcases le_total x e with hc | hc
      · rw [← hb0]
        exact (margin_strictAnti h1).le_iff_ge ⟨hbI.1, hb.2.trans hw⟩ ⟨hx, hc.trans hw⟩
      · have h6 := margin_neg htol h hc hx2
        have h7 := lt_of_le_of_ne hb.2 hne
        exact ⟨fun h => absurd h (not_le.2 h6), fun h => by linarith⟩
    rw [← hiff]
    unfold margin
    constructor <;> intro <;> linarith

/-- **C115** (what is neglected). Whatever is treated as circular, with an eccentricity of at most the transition, loses at most
the fraction `tol + 0.0002` of its power: all harmonics other than `n = 2` together carry no more than that. -/
theorem C115_neglected {tol e : ℝ} (htol : 0 ≤ tol) (h : find_eccentric_transition tol = .ok e) {x : ℝ} (h0 : 0 ≤ x)
    (hx : x ≤ e) : (1 - (tol + 0.0002)) * peters_f x ≤ peters_g 2 x ∧
      (∑' n : ℕ, if n = 1 then 0 else peters_g ((n : ℤ) + 1) x) ≤ (tol + 0.0002) * peters_f x := by
  obtain ⟨h1, h2, h3, h4, h5⟩ := transition_grid htol h
  have hx1 : x < 1 := by
    have : x ≤ 0.2 := hx.trans h3
    norm_num at this
    linarith
  have hF := C04_one_le h0 hx1
  have key : (1 - (tol + 0.0002)) * peters_f x ≤ peters_g 2 x := by
    rcases le_total x (e - gridStep) with hc | hc
    · have := (C115_transition htol h).2 x h0 hc
      nlinarith
    · have a := peters_g_two_slope h2 hc (hx.trans h3)
      have b := peters_f_slope h2 hc (hx.trans h3)
      have hd : x - (e - gridStep) ≤ 0.000021 := by
        have : gridStep ≤ 0.000021 := by unfold gridStep; norm_num
        linarith
      have c : (1 - tol) * peters_f x ≤ (1 - tol) * (peters_f (e - gridStep) + 4 * (x - (e - gridStep))) :=
        mul_le_mul_of_nonneg_left b (by linarith)
      have d : (1 - tol) * (x - (e - gridStep)) ≤ 1 * (x - (e - gridStep)) :=
        mul_le_mul_of_nonneg_right (by linarith) (by linarith)
      unfold margin at h4
      norm_num at hd ⊢
      nlinarith
  refine ⟨key, ?_⟩
  have hs := (C06_sum h0 hx1).update 1 0
  have e1 : Function.update (fun n : ℕ => peters_g ((n : ℤ) + 1) x) 1 0 =
      fun n : ℕ => if n = 1 then 0 else peters_g ((n : ℤ) + 1) x := by
    funext n
    simp [Function.update_apply]
  rw [e1] at hs
  rw [hs.tsum_eq]
  norm_num at key ⊢
  linarith

/-- **C115** (found). There is a transition exactly if the second harmonic is outside the tolerance at `e = 0.2`. -/
theorem C115_found {tol : ℝ} (htol : 0 ≤ tol) :
    (∃ e, find_eccentric_transition tol = .ok e) ↔ peters_g 2 0.2 < (1 - tol) * peters_f 0.2 := by
  constructor
  · rintro ⟨e, he⟩
    exact (C115_transition htol he).1 0.2 (transition_grid htol he).2.2.1 (by norm_num)
  · intro h
    refine (C33_found_iff tol).1.2 ⟨0.2, List.mem_map.2 ⟨9999, List.mem_range.2 (by norm_num), ?_⟩, h⟩
    norm_num

/-- **C115** (which tolerances). Every tolerance from 0 to 0.3711 has a transition. For a tolerance of 0.3712 or more the search
fails with an `IndexError`. -/
theorem C115_tolerances {tol : ℝ} :
    (0 ≤ tol → tol ≤ 0.3711 → ∃ e, find_eccentric_transition tol = .ok e) ∧
    (0.3712 ≤ tol → find_eccentric_transition tol = .error .IndexError) := by
  have hF : 0 < peters_f 0.2 := zero_lt_one.trans_le (C04_one_le (by norm_num) (by norm_num))
  have he : ((1 / 5 : ℚ) : ℝ) = 0.2 := by norm_num
  constructor
  · intro h0 h1
    rw [C115_found h0]
    have h := isOutside_sound (tol := 3711 / 10000) (e := 1 / 5) (s := 9797959 / 10000000) (by decide +kernel)
    rw [he] at h
    refine h.trans_le (mul_le_mul_of_nonneg_right ?_ hF.le)
    norm_num at h1 ⊢
    linarith
  · intro h1
    have h0 : 0 ≤ tol := le_trans (by norm_num) h1
    have h := isInside_sound (tol := 3712 / 10000) (e := 1 / 5) (s := 9797958 / 10000000) (by decide +kernel)
    rw [he] at h
    refine (C33_found_iff tol).2 ?_
    rw [C115_found h0, not_lt]
    refine le_trans (mul_le_mul_of_nonneg_right ?_ hF.le) h
    norm_num at h1 ⊢
    linarith

/-- **C115** (objects). However a program got there: if the second harmonic is outside the tolerance of a source at `e = 0.2`, then its `ecc_tol` is at most
`0.2/9999` above the eccentricity where the second harmonic carries exactly the fraction `1 - tol` of the power, and every
binary that it treats as circular loses at most the fraction `tol + 0.0002` of its power. -/
theorem C115_sources {W : World} {ok : Heap → Op → Prop} {h : Heap} (hr : Reachable W ok h) {s : ℕ} {tol : ℝ} (htol : 0 ≤ tol)
    (ht : (h.src s).gw_lum_tol = some tol) (hfound : peters_g 2 0.2 < (1 - tol) * peters_f 0.2) :
    ∃ etol b, (h.src s).ecc_tol = some etol ∧ etol - 0.2 / 9999 ≤ b ∧ b < etol ∧
      (∀ x, 0 ≤ x → x < 1 → ((1 - tol) * peters_f x ≤ peters_g 2 x ↔ x ≤ b)) ∧
      ∀ x, 0 ≤ x → x ≤ etol → (∑' n : ℕ, if n = 1 then 0 else peters_g ((n : ℤ) + 1) x) ≤ (tol + 0.0002) * peters_f x := by
  obtain ⟨e, he⟩ := (C115_found htol).2 hfound
  obtain ⟨f1, f2, f3⟩ := C33_first he
  obtain ⟨b, -, b1, b2, -, b4⟩ := C115_boundary htol he
  exact ⟨e, b, (C43_tolerances hr ht).2.2 e f1 f2 f3, b1, b2, b4, fun x h0 h1 => (C115_neglected htol he h0 h1).2⟩

/-- **C115** (rejected tolerances). With a tolerance of 0.3712 or more no source can be constructed. Assigning such a tolerance to a
source raises an exception but keeps the new tolerance with the old transition. -/
theorem C115_rejected (W : World) {tol : ℝ} (h1 : 0.3712 ≤ tol) (h : Heap) :
    (∀ cls a, a.gw_lum_tol = tol → ∃ e h', init W cls a h = (.error e, h')) ∧
    ∀ s, (h.src s).gw_lum_tol ≠ some tol → ∃ e h', set_gw_lum_tol W s tol h = (.error e, h') ∧
      (h'.src s).gw_lum_tol = some tol ∧ (h'.src s).ecc_tol = (h.src s).ecc_tol := by
  have hno := (C115_tolerances (tol := tol)).2 h1
  constructor
  · rintro cls a rfl
    rcases init_run W cls a h with ⟨_, _, _, _, -, h2, -⟩ | ⟨h2, -⟩
    · rw [hno] at h2
      cases h2
    · exact h2
  · intro s hne
    rcases set_gw_lum_tol_run W s tol h with ⟨heq, -⟩ | ⟨-, ⟨e, he, hr⟩ | ⟨e, he, hr⟩⟩
    · exact absurd heq hne
    · refine ⟨e, _, hr, ?_, ?_⟩ <;> simp
    · rw [hno] at he
      cases he

/-! ### The hypotheses are met -/

/-- The default tolerance. -/
example : ∃ b, 0 ≤ b ∧ Example.eccTol - 0.2 / 9999 ≤ b ∧ b < Example.eccTol ∧ peters_g 2 b = (1 - 0.05) * peters_f b ∧
    ∀ x, 0 ≤ x → x < 1 → ((1 - 0.05) * peters_f x ≤ peters_g 2 x ↔ x ≤ b) :=
  C115_boundary (by norm_num) Example.find_eccTol

/-- A source with the default tolerance. -/
example : ∃ etol b, (Example.heap.src 0).ecc_tol = some etol ∧ etol - 0.2 / 9999 ≤ b ∧ b < etol ∧
    (∀ x, 0 ≤ x → x < 1 → ((1 - 0.05) * peters_f x ≤ peters_g 2 x ↔ x ≤ b)) ∧
    ∀ x, 0 ≤ x → x ≤ etol → (∑' n : ℕ, if n = 1 then 0 else peters_g ((n : ℤ) + 1) x) ≤ (0.05 + 0.0002) * peters_f x :=
  C115_sources (Example.reachable (ok := AnyCall) trivial) (by norm_num) (by rw [Example.heap_src]; rfl) peters_g_two_lt

/-- Half of the luminosity is too much for a tolerance: no source, and no such tolerance for a source. -/
example : (∃ e h', init Example.world .Source { Example.args with gw_lum_tol := 0.5 } Example.start = (.error e, h')) ∧
    ∃ e h', set_gw_lum_tol Example.world 0 0.5 Example.heap = (.error e, h') ∧ (h'.src 0).gw_lum_tol = some 0.5 ∧
      (h'.src 0).ecc_tol = (Example.heap.src 0).ecc_tol :=
  ⟨(C115_rejected Example.world (tol := 0.5) (by norm_num) _).1 _ _ rfl,
    (C115_rejected Example.world (tol := 0.5) (by norm_num) _).2 0 (by
      rw [Example.heap_src]
      show some (0.05 : ℝ) ≠ some 0.5
      norm_num)⟩

end Legwork.Props
