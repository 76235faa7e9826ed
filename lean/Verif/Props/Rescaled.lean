import Verif.Lemmas.SnrScale
import Verif.Props.Orientation
import Verif.Spec.Rescaled

/-!
# SNRs of the same binaries at other distances (C98)
-/

namespace Legwork.Props

open Real Legwork.source Legwork.Spec Legwork.snr Legwork.strain Legwork.utils
open PyM hiding bind

/-- A calculation in which the SNR is inversely proportional to the distance, and which does not depend on the order of the
masses or on the weight. -/
theorem sameBinary_scale {one : One → Except PyErr (Option ℝ × ℕ)} (hd : ∀ (x : One) (κ : ℝ) (v : Option ℝ × ℕ), 0 < κ →
      one x = .ok v → one { x with dist := κ * x.dist } = .ok (v.1.map (κ⁻¹ * ·), v.2))
    (hsw : ∀ x : One, one { x with m_1 := x.m_2, m_2 := x.m_1 } = one x)
    (hw : ∀ (x : One) (q : Option ℝ), one { x with weight := q } = one x) {x y : One} {v : Option ℝ × ℕ}
    (hxy : SameBinary x y) (hv : one x = .ok v) : one y = .ok (v.1.map ((y.dist / x.dist)⁻¹ * ·), v.2) := by
  obtain ⟨he, hm, h1, h2⟩ := hxy
  have key := hd _ _ _ (div_pos h2 h1) hv
  rw [div_mul_cancel₀ _ h1.ne'] at key
  rcases hm with ⟨e1, e2⟩ | ⟨e1, e2⟩
  · rw [he, e1, e2]
    exact (hw { x with dist := y.dist } y.weight).trans key
  · rw [he, e1, e2]
    exact (hw { x with m_1 := x.m_2, m_2 := x.m_1, dist := y.dist } y.weight).trans
      ((hsw { x with dist := y.dist }).trans key)

theorem full_sameBinary {W : World} {C : Ctx} {S : Settings} {stat_tol : ℝ} {n : ℕ} {x y : One} {v : Option ℝ × ℕ}
    (hxy : SameBinary x y) (hv : fullOne W C S stat_tol n x = .ok v) :
    fullOne W C S stat_tol n y = .ok (v.1.map ((y.dist / x.dist)⁻¹ * ·), v.2) :=
  sameBinary_scale (one := fullOne W C S stat_tol n) (fun _ _ _ hκ hv => full_dist hκ hv) full_swap (fun _ _ => rfl) hxy hv

/-- **C98.** Call `get_snr` on a plain `Source`, and on the same object after assigning other distances and weights and
exchanging the masses of some sources. The second call succeeds too; for every source, SNR times distance is the same and
so is the strongest harmonic. -/
theorem C98_get_snr {W : World} {ok : Heap → Op → Prop} {s n r : ℕ} {h h' : Heap} {a : SnrArgs} {ws : Option (List Bool)}
    (hreach : Reachable W ok h) (hcls : (h.src s).cls = .Source ∨ (h.src s).cls = .VerificationBinaries) (hn : n ≠ 0)
    (hs : CompleteSchedule W (h.src s)) (hr : Rect (h.src s).cols) (hw : FitsMask (h.src s).cols ws) {c : Cols} (hc : Rect c)
    (hrows : List.Forall₂ SameBinary (rows (h.src s).cols) (rows c))
    (hrun : get_snr W s a n ws h = (.ok r, h')) :
    ∃ r' k', get_snr W s a n ws (withCols h s c) = (.ok r', k') ∧
      ∀ (i : ℕ) (x : One), (rows (h.src s).cols)[i]? = some x → ∃ (y : One) (v u : Option ℝ), (rows c)[i]? = some y ∧ (h'.snrs r)[i]? = some v ∧
        (k'.snrs r')[i]? = some u ∧ v.map (x.dist * ·) = u.map (y.dist * ·) ∧
        (storedHarm k' s)[i]? = (storedHarm h' s)[i]? := by
  have hP := changed_of_cols (Reachable.inv hreach) hrows
  have hk : (withCols h s c).src s = { h.src s with cols := c } := by simp [withCols]
  have hrun' : Source_get_snr W s a n ws h = (.ok r, h') := by
    rw [get_snr_run] at hrun
    rcases hcls with hc | hc <;> · rw [hc] at hrun; exact hrun
  obtain ⟨r', k', hkrun, hrel⟩ := hP.full (W := W) (R := fun _ _ x y v u => u = (v.1.map ((y.dist / x.dist)⁻¹ * ·), v.2))
    (fun x y hxy => by rw [hxy.same]) hn hs hr (by show Rect ((withCols h s c).src s).cols; rw [hk]; exact hc)
    hw (fun C S x y v hxy hv => ⟨_, full_sameBinary hxy hv, rfl⟩) hrun'
  refine ⟨r', k', ?_, fun i x hx => ?_⟩
  · rw [get_snr_run, hk]
    rcases hcls with hc | hc <;> · rw [hc]; exact hkrun
  obtain ⟨y, hy, hxy, v, u, hv, hu, hdead, hlive⟩ := hrel i x hx
  have hy' : (rows c)[i]? = some y := by
    have e : ((withCols h s c).src s).cols = c := by rw [hk]
    rw [← e]
    exact hy
  refine ⟨y, v, u, hy', hv, hu, ?_⟩
  by_cases hd : x.merged = true ∨ ¬ Chosen ws i
  · obtain ⟨rfl, rfl, e⟩ := hdead hd
    exact ⟨by simp, e⟩
  · push Not at hd
    obtain ⟨m, l, C, S, hm, hl, -, -, -, hR⟩ := hlive (by simpa using hd.1) hd.2
    obtain ⟨rfl, rfl⟩ := Prod.mk.inj hR
    refine ⟨?_, ?_⟩
    · rcases v with _ | b
      · rfl
      · have h1 := hxy.dist.ne'
        have h2 := hxy.dist'.ne'
        simp only [Option.map_some, Option.some.injEq]
        field_simp
    · change (harmNow k' s)[i]? = (harmNow h' s)[i]?
      rw [hm, hl]

/-- **C98** (horizon). So a source whose SNR is `b` at the distance `x.dist` is found with an SNR of at least `ρ` exactly
up to the distance `x.dist * b / ρ`. -/
theorem C98_horizon {W : World} {ok : Heap → Op → Prop} {s n r r' : ℕ} {h h' k' : Heap} {a : SnrArgs} {ws : Option (List Bool)}
    (hreach : Reachable W ok h) (hcls : (h.src s).cls = .Source ∨ (h.src s).cls = .VerificationBinaries) (hn : n ≠ 0)
    (hs : CompleteSchedule W (h.src s)) (hr : Rect (h.src s).cols) (hw : FitsMask (h.src s).cols ws) {c : Cols} (hc : Rect c)
    (hrows : List.Forall₂ SameBinary (rows (h.src s).cols) (rows c))
    (hrun : get_snr W s a n ws h = (.ok r, h')) (hrun' : get_snr W s a n ws (withCols h s c) = (.ok r', k')) {i : ℕ} {x y : One}
    (hx : (rows (h.src s).cols)[i]? = some x) (hy : (rows c)[i]? = some y) {b ρ : ℝ} (hb : (h'.snrs r)[i]? = some (some b))
    (hρ : 0 < ρ) : ∃ b', (k'.snrs r')[i]? = some (some b') ∧ (ρ ≤ b' ↔ y.dist ≤ x.dist * b / ρ) := by
  obtain ⟨r₁, k₁, hk, hall⟩ := C98_get_snr hreach hcls hn hs hr hw hc hrows hrun
  rw [hrun'] at hk
  obtain ⟨e1, rfl⟩ := Prod.mk.inj hk
  cases e1
  obtain ⟨y', v, u, hy', hv, hu, he, -⟩ := hall i x hx
  rw [hy] at hy'
  cases hy'
  rw [hb] at hv
  cases hv
  obtain ⟨z, hz, hxz⟩ := forall₂_at hrows hx
  rw [hy] at hz
  cases hz
  rcases u with _ | b'
  · simp at he
  · simp only [Option.map_some, Option.some.injEq] at he
    refine ⟨b', hu, ?_⟩
    rw [le_div_iff₀ hρ, he, mul_le_mul_iff_right₀ hxz.dist']

/-- Other distances and weights, and the masses of the second binary exchanged. -/
noncomputable def movedCols : Cols :=
  { Example.cols with m_1 := [2e30, 2e30], m_2 := [1e30, 3e30], dist := [5e20, 1e19], weights := some [1, 7] }

/-- Non-vacuity of C98: a circular and an eccentric binary, then moved. -/
example : ∃ (W : World) (h h' : Heap) (r : ℕ) (c : Cols), Reachable W AnyCall h ∧ (h.src 0).cls = .Source ∧
    CompleteSchedule W (h.src 0) ∧ Rect (h.src 0).cols ∧ Rect c ∧ List.Forall₂ SameBinary (rows (h.src 0).cols) (rows c) ∧
    get_snr W 0 {} 100 none h = (.ok r, h') ∧ c ≠ (h.src 0).cols := by
  obtain ⟨h, hreach, hready, hcls, hsch, hcols, -⟩ := lisa_object
  have hno : FitsMask (h.src 0).cols none := fun m hm => by cases hm
  obtain ⟨r, h', hrun⟩ := C51_succeeds_auto (n := 100) (ws := none) (by norm_num) hsch hno hready
  refine ⟨_, h, h', r, movedCols, hreach, hcls, hsch, hready.rect, ?_, ?_, hrun, ?_⟩
  · constructor <;> simp [movedCols, Example.cols, Cols.n_sources]
  · rw [hcols]
    refine List.Forall₂.cons ⟨rfl, Or.inl ⟨rfl, rfl⟩, ?_, ?_⟩ (List.Forall₂.cons ⟨rfl, Or.inr ⟨rfl, rfl⟩, ?_, ?_⟩ List.Forall₂.nil)
    · show (0 : ℝ) < 1e20; norm_num
    · show (0 : ℝ) < 5e20; norm_num
    · show (0 : ℝ) < 2e20; norm_num
    · show (0 : ℝ) < 1e19; norm_num
  · rw [hcols]
    intro e
    have := congrArg Cols.weights e
    simp [movedCols, Example.cols] at this

end Legwork.Props
