import Verif.Lemmas.BesselValues
import Verif.Props.SourceMasks
import Verif.Props.Transition

/-!
# The values of `ecc_tol`

What `find_eccentric_transition` returns for the tolerances of the documentation, to the last grid point.
-/

namespace Legwork.Props

open Real Legwork.utils Legwork.Spec Legwork.source

/-- The transition is the point `i` of the grid if the second harmonic is within the tolerance at the point before it and outside
at this point. -/
private theorem transition_eq {tol : ℝ} (htol : 0 ≤ tol) (i : ℕ) (hi : i + 1 < 10000)
    (hin : (1 - tol) * peters_f (i * (0.2 / 9999)) ≤ peters_g 2 (i * (0.2 / 9999)))
    (hout : peters_g 2 ((i + 1 : ℕ) * (0.2 / 9999)) < (1 - tol) * peters_f ((i + 1 : ℕ) * (0.2 / 9999))) :
    find_eccentric_transition tol = .ok ((i + 1 : ℕ) * (0.2 / 9999)) := by
  have hstep : (0.2 : ℝ) / (((10000 : ℕ) : ℝ) - 1) = 0.2 / 9999 := by norm_num
  have hs0 : (0 : ℝ) < 0.2 / 9999 := by norm_num
  have hmem : ((i + 1 : ℕ) : ℝ) * (0.2 / 9999) ∈ np.linspace 0.2 10000 :=
    List.mem_map.2 ⟨i + 1, List.mem_range.2 hi, by rw [hstep]⟩
  obtain ⟨e, he⟩ := (C33_found_iff tol).1.2 ⟨_, hmem, hout⟩
  obtain ⟨h1, -, h3⟩ := C33_first he
  have hle : e ≤ ((i + 1 : ℕ) : ℝ) * (0.2 / 9999) := by
    by_contra hc
    exact absurd (h3 _ hmem (not_le.1 hc)) (not_le.2 hout)
  have hlt : (i : ℝ) * (0.2 / 9999) < e := by
    by_contra hc
    have hi' : (i : ℝ) < 9999 := by exact_mod_cast (by omega : i < 9999)
    have : (i : ℝ) * (0.2 / 9999) < 1 := by
      calc (i : ℝ) * (0.2 / 9999) ≤ 9999 * (0.2 / 9999) := by gcongr
        _ < 1 := by norm_num
    exact absurd hin (not_le.2 ((C115_transition htol he).1 _ (not_lt.1 hc) this))
  obtain ⟨k, -, hk⟩ := List.mem_map.1 h1
  rw [hstep] at hk
  subst hk
  have a : (i : ℝ) < k := lt_of_mul_lt_mul_right hlt hs0.le
  have b : (k : ℝ) ≤ ((i + 1 : ℕ) : ℝ) := le_of_mul_le_mul_right hle hs0
  have : k = i + 1 := by
    have a' : i < k := by exact_mod_cast a
    have b' : k ≤ i + 1 := by exact_mod_cast b
    omega
  rw [he, this]

/-- The same for all tolerances between two rational ones, with the two conditions decided in rational arithmetic. -/
private theorem transition_check (lo hi : ℚ) (i : ℕ) (s t : ℚ) (hi' : i + 1 < 10000) (hlo : 0 ≤ lo)
    (hin : isInside lo (i * (1 / 49995)) s = true) (hout : isOutside hi ((i + 1 : ℕ) * (1 / 49995)) t = true)
    {tol : ℝ} (h0 : (lo : ℝ) ≤ tol) (h1 : tol ≤ hi) :
    find_eccentric_transition tol = .ok ((i + 1 : ℕ) * (0.2 / 9999)) := by
  have g1 := isInside_sound hin
  have g2 := isOutside_sound hout
  have hstep : (0.2 : ℝ) / 9999 = 1 / 49995 := by norm_num
  have hF : ∀ k : ℕ, k < 10000 → 0 ≤ peters_f (k * (1 / 49995)) := by
    intro k hk
    have hk' : (k : ℝ) ≤ 9999 := by exact_mod_cast (by omega : k ≤ 9999)
    exact zero_le_one.trans (C04_one_le (by positivity) (by linarith))
  have hlo' : (0 : ℝ) ≤ lo := by exact_mod_cast hlo
  refine transition_eq (hlo'.trans h0) i hi' ?_ ?_
  · rw [hstep]
    push_cast at g1
    exact (mul_le_mul_of_nonneg_right (by linarith) (hF i (by omega))).trans g1
  · rw [hstep]
    have := hF (i + 1) hi'
    push_cast at g2 this ⊢
    exact g2.trans_le (mul_le_mul_of_nonneg_right (by linarith) this)

/-- **C117** (default tolerance). The transition for `gw_lum_tol = 0.05` is 1/15, and small changes of the tolerance, such as the
rounding of 0.05 to a float, do not matter. -/
theorem C117_default {tol : ℝ} (h0 : 0.049995 ≤ tol) (h1 : tol ≤ 0.05001) : find_eccentric_transition tol = .ok (1 / 15) := by
  have h := transition_check (49995 / 1000000) (5001 / 100000) 3332 (997776639378 / 1000000000000) (997775303140 / 1000000000000) (by norm_num)
    (by norm_num) (by decide +kernel) (by decide +kernel) (tol := tol) (by norm_num at h0 ⊢; linarith) (by norm_num at h1 ⊢; linarith)
  rw [h]
  norm_num

/-- **C117** (one per cent). The transition for `gw_lum_tol = 0.01` is the point 1476 of the grid, about 0.02952. -/
theorem C117_percent {tol : ℝ} (h0 : 0.009997 ≤ tol) (h1 : tol ≤ 0.010005) :
    find_eccentric_transition tol = .ok (1476 * (0.2 / 9999)) := by
  have h := transition_check (9997 / 1000000) (10005 / 1000000) 1475 (999564693215 / 1000000000000) (999564102641 / 1000000000000) (by norm_num)
    (by norm_num) (by decide +kernel) (by decide +kernel) (tol := tol) (by norm_num at h0 ⊢; linarith) (by norm_num at h1 ⊢; linarith)
  rw [h]
  norm_num

/-- **C117** (one per mille). The transition for `gw_lum_tol = 1e-3`, as used in the demos, is the point 466 of the grid, about
0.00932. -/
theorem C117_permille {tol : ℝ} (h0 : 0.000999 ≤ tol) (h1 : tol ≤ 0.001001) :
    find_eccentric_transition tol = .ok (466 * (0.2 / 9999)) := by
  have h := transition_check (999 / 1000000) (1001 / 1000000) 465 (999956745414 / 1000000000000) (999956559169 / 1000000000000) (by norm_num)
    (by norm_num) (by decide +kernel) (by decide +kernel) (tol := tol) (by norm_num at h0 ⊢; linarith) (by norm_num at h1 ⊢; linarith)
  rw [h]
  norm_num

/-- The transition of an object that has a tolerance with the given transition. -/
private theorem ecc_tol_of {W : World} {ok : Heap → Op → Prop} {h : Heap} (hr : Reachable W ok h) {s : ℕ} {tol e : ℝ}
    (ht : (h.src s).gw_lum_tol = some tol) (he : find_eccentric_transition tol = .ok e) : (h.src s).ecc_tol = some e := by
  obtain ⟨f1, f2, f3⟩ := C33_first he
  exact (C43_tolerances hr ht).2.2 e f1 f2 f3

private theorem assigned {W : World} {ok : Heap → Op → Prop} {h : Heap} (hr : Reachable W ok h) (s : ℕ) {tol e : ℝ}
    (he : find_eccentric_transition tol = .ok e) : ∃ h', set_gw_lum_tol W s tol h = (.ok (), h') ∧ (h'.src s).ecc_tol = some e := by
  rcases set_gw_lum_tol_run W s tol h with ⟨heq, hrun⟩ | ⟨-, ⟨x, hx, hrun⟩ | ⟨x, hx, hrun⟩⟩
  · exact ⟨h, hrun, ecc_tol_of hr heq he⟩
  · rw [he] at hx
    cases hx
  · rw [he] at hx
    cases hx
    exact ⟨_, hrun, by simp⟩

/-- **C117** (the notebook). Whatever happened to an object before: after assigning 0.05 to `gw_lum_tol` its `ecc_tol` is 0.0667
to three digits, and after assigning 0.01 it is 0.0295, as the documentation shows. -/
theorem C117_notebook {W : World} {ok : Heap → Op → Prop} {h : Heap} (hr : Reachable W ok h) (s : ℕ) :
    (∃ e h', set_gw_lum_tol W s 0.05 h = (.ok (), h') ∧ (h'.src s).ecc_tol = some e ∧ |e - 0.0667| < 0.00005) ∧
    ∃ e h', set_gw_lum_tol W s 0.01 h = (.ok (), h') ∧ (h'.src s).ecc_tol = some e ∧ |e - 0.0295| < 0.00005 := by
  obtain ⟨h1, a1, b1⟩ := assigned hr s (C117_default (tol := 0.05) (by norm_num) (by norm_num))
  obtain ⟨h2, a2, b2⟩ := assigned hr s (C117_percent (tol := 0.01) (by norm_num) (by norm_num))
  refine ⟨⟨_, h1, a1, b1, ?_⟩, ⟨_, h2, a2, b2, ?_⟩⟩ <;> rw [abs_lt] <;> constructor <;> norm_num

/-- **C117** (new objects). An object of any class that is constructed without giving `gw_lum_tol`, so that it has the value that it
has if only the masses, the eccentricity and the distance are given, has `ecc_tol = 1/15`. -/
theorem C117_constructed {W : World} {cls : Cls} {a : InitArgs}
    (hdef : a.gw_lum_tol = ({ m_1 := a.m_1, m_2 := a.m_2, ecc := a.ecc, dist := a.dist } : InitArgs).gw_lum_tol)
    {h h' : Heap} {s : ℕ} (hi : init W cls a h = (.ok s, h')) : (h'.src s).ecc_tol = some (1 / 15) := by
  have ha : a.gw_lum_tol = 0.05 := hdef
  have hf := C117_default (tol := 0.05) (by norm_num) (by norm_num)
  rcases init_run W cls a h with ⟨cols, e, d, sc, -, he, -, -, hrun⟩ | ⟨⟨e, h2, hrun⟩, -⟩
  · rw [hi] at hrun
    rw [ha, hf] at he
    cases he
    cases hrun
    simp [heapAfterInit, newObject]
  · rw [hi] at hrun
    cases hrun

open Classical in
/-- **C117** (masks). With the default tolerance the sources that count as circular are those with `ecc <= 1/15`. -/
theorem C117_mask {W : World} {ok : Heap → Op → Prop} {h : Heap} (hr : Reachable W ok h) {s : ℕ}
    (ht : (h.src s).gw_lum_tol = some 0.05) (t_obs : PVal) {m : List Bool}
    (hm : (get_source_mask W s (.bool true) .none t_obs h).1 = .ok m) :
    m = (h.src s).cols.ecc.map fun e => decide (e ≤ 1 / 15) := by
  have hf := ecc_tol_of hr ht (C117_default (by norm_num) (by norm_num))
  rw [get_source_mask_run, maskOf, hf, (C43_tolerances hr ht).1] at hm
  rcases hp : (h.src s).sc_params with _ | p
  · rw [hp] at hm
    cases hm
  rw [hp] at hm
  change logical_and (ecc_below (h.src s).cols.ecc (1 / 15)) (List.replicate (h.src s).cols.n_sources true) = _ at hm
  unfold logical_and at hm
  split_ifs at hm with hl
  · cases hm
    unfold ecc_below at hl ⊢
    rw [List.length_map, List.length_replicate] at hl
    rw [← hl]
    apply List.ext_getElem?
    intro i
    rw [List.getElem?_zipWith, List.getElem?_map, List.getElem?_replicate]
    by_cases hi : i < (h.src s).cols.ecc.length
    · simp [hi]
    · simp [hi]

/-! ### The hypotheses are met -/

/-- The notebook with the example object. -/
noncomputable example := C117_notebook (Example.reachable (ok := AnyCall) trivial) 0

/-- The constructor of the example object. -/
example : (Example.heap.src 0).ecc_tol = some (1 / 15) := C117_constructed rfl Example.init_start

/-- The transition of the example object, a number at last. -/
theorem Example.eccTol_eq : Example.eccTol = 1 / 15 := by
  have h := Example.find_eccTol
  rw [C117_default (by norm_num) (by norm_num)] at h
  exact (Except.ok.inj h).symm

/-- The example object: its mask of circular sources exists and is the one above. -/
example : ∃ m, (get_source_mask Example.world 0 (.bool true) .none .none Example.heap).1 = .ok m ∧
    m = (Example.heap.src 0).cols.ecc.map fun e => @decide (e ≤ 1 / 15) (Classical.propDecidable _) := by
  obtain ⟨m, hm, -⟩ := (C35_complement example_rect example_built .none).1
  exact ⟨m, hm, C117_mask (Example.reachable (ok := AnyCall) trivial) (by rw [Example.heap_src]; rfl) _ hm⟩

end Legwork.Props
