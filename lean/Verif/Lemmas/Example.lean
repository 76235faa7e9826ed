import Verif.Lemmas.BesselSmall
import Verif.Lemmas.ScCurve
import Verif.Lemmas.SourceReach

/-!
# A concrete world and a concrete source object

Used to show that the hypotheses of the theorems about `Source` can be met.
-/

namespace Legwork.Example

open Legwork.source Legwork.Spec

/-- White noise for every user function, different for different functions; a small table; an `odeint` that never
moves. -/
noncomputable def world : World where
  K := Consts.codata2018
  env := ⟨.error .FileNotFoundError, fun _ _ _ => 0⟩
  table := ⟨[0, 0.5, 0.9], 2, [[0, 1], [1, 2], [10, 20]]⟩
  gSpline := fun n e => utils.peters_g n e
  odeint := fun _ e ts => ts.map fun _ => some e
  schedule := List.range
  psdFns := fun n _ _ _ _ _ => .ok ((1e-40 * ((n : ℝ) + 1) : ℝ) : WithTop ℝ)
  noiseFns := fun _ _ _ => .ok 0

/-- Parameters choosing the user function `n`. -/
def custom (n : ℕ) : Dict := [("instrument", .str "custom"), ("custom_psd", .psdFn n), ("t_obs", .time 1e8)]

/-- All parameters choosing the user function `n`. -/
def params (n : ℕ) : Dict :=
  [("instrument", .str "custom"), ("custom_psd", .psdFn n), ("t_obs", .time 1e8), ("L", .str "auto"),
   ("approximate_R", .bool false), ("confusion_noise", .str "auto")]

theorem filled_custom (n : ℕ) : filled_params (some (custom n)) = .ok (params n) := rfl

theorem psd_params (n : ℕ) (f : ℝ) :
    psd_of_dict world (params n) f = .ok ((1e-40 * ((n : ℝ) + 1) : ℝ) : WithTop ℝ) := by
  have h : ((params n).keys.any fun key => decide (key ∉ DEFAULT_SC_PARAMS.keys)) = false := by
    change ((params 0).keys.any fun key => decide (key ∉ DEFAULT_SC_PARAMS.keys)) = false
    decide
  unfold psd_of_dict
  rw [h]
  rfl

/-- The interpolated curve is the constant on the grid. -/
theorem exists_curve (n : ℕ) : ∃ c, curve world (params n) = .ok c :=
  curve_exists_iff.2 fun _ _ => ⟨_, psd_params n _⟩

/-- The interpolated curve of the user function `n`. -/
noncomputable def sc (n : ℕ) : ℝ → WithTop ℝ := (exists_curve n).choose

theorem curve_params (n : ℕ) : curve world (params n) = .ok (sc n) := (exists_curve n).choose_spec

theorem sc_grid (n : ℕ) {i : ℕ} (hi : i < 10000) : sc n (scGrid i) = ((1e-40 * ((n : ℝ) + 1) : ℝ) : WithTop ℝ) := by
  have := (curve_ok (curve_params n)).on_grid i hi
  rw [psd_params] at this
  exact (Except.ok.inj this).symm

theorem sc_ne : sc 0 ≠ sc 1 := by
  intro h
  have h0 := sc_grid 0 (i := 0) (by norm_num)
  have h1 := sc_grid 1 (i := 0) (by norm_num)
  rw [h, h1, WithTop.coe_eq_coe] at h0
  norm_num at h0

/-- A circular and an eccentric binary. -/
noncomputable def args : InitArgs where
  m_1 := .array [2e30, 3e30] true
  m_2 := .array [1e30, 2e30] true
  ecc := .array [0, 0.3] false
  dist := .array [1e20, 2e20] true
  f_orb := some (.array [1e-3, 1e-4] true)
  sc_params := some (custom 0)

/-- Their columns. -/
noncomputable def cols : Cols where
  m_1 := [2e30, 3e30]
  m_2 := [1e30, 2e30]
  dist := [1e20, 2e20]
  f_orb := [1e-3, 1e-4]
  ecc := [0, 0.3]
  merged := [false, false]

theorem init_cols_args : init_cols world args = .ok cols := by
  unfold init_cols init_orientation init_f_orb args
  simp [bind, Except.bind, pure, Except.pure, Raw.hasUnits, Raw.toList, cols, List.replicate]

/-- The transition eccentricity of the default tolerance. -/
noncomputable def eccTol : ℝ := utils.find_eccentric_transition_default.choose

theorem find_eccTol : find_eccentric_transition 0.05 = .ok eccTol := utils.find_eccentric_transition_default.choose_spec

/-- No objects. -/
noncomputable def start : Heap where
  next := 0
  src := fun _ => Spec.blank
  par := fun _ => ⟨[], none⟩
  snrs := fun _ => []
  harms := fun _ => []
  trace := []

/-- The heap with the two binaries, at address 0, and their parameters, at address 1. -/
noncomputable def heap : Heap := heapAfterInit world .Source args cols eccTol (params 0) (some (sc 0)) start

theorem init_start : init world .Source args start = (.ok 0, heap) := by
  rcases init_run world .Source args start with ⟨c, t, d, s, h1, h2, h3, h4, h5⟩ | ⟨-, h⟩
  · rw [init_cols_args] at h1
    change find_eccentric_transition 0.05 = _ at h2
    rw [find_eccTol] at h2
    change filled_params (some (custom 0)) = _ at h3
    rw [filled_custom] at h3
    cases h1
    cases h2
    cases h3
    rcases h4 with ⟨-, c, hc, hs⟩ | ⟨h4, -⟩
    · rw [curve_params] at hc
      cases hc
      rw [h5, hs]
      rfl
    · cases h4
  · exfalso
    rcases h with ⟨e, he⟩ | ⟨e, he⟩ | ⟨e, he⟩ | ⟨-, d, e, hd, he⟩
    · rw [init_cols_args] at he
      cases he
    · change find_eccentric_transition 0.05 = _ at he
      rw [find_eccTol] at he
      cases he
    · change filled_params (some (custom 0)) = _ at he
      rw [filled_custom] at he
      cases he
    · change filled_params (some (custom 0)) = _ at hd
      rw [filled_custom] at hd
      cases hd
      rw [curve_params] at he
      cases he

/-- The example heap can be reached. -/
theorem reachable {ok : Heap → Op → Prop} (hok : ok start (.init .Source args)) : Reachable world ok heap := by
  have h0 : Reachable world ok start := .start fun _ => rfl
  have h1 := Reachable.call (.init .Source args) h0 hok
  have h2 : (Op.run world (.init .Source args) start).2 = heap := by
    change ((init world .Source args >>= fun _ => pure ()) start).2 = heap
    rw [PyM.bind_run, init_start]
    rfl
  rwa [h2] at h1

theorem heap_src : heap.src 0 = newObject world .Source args cols eccTol (some (sc 0)) 1 := by
  change Function.update start.src 0 _ 0 = _
  rw [Function.update_self]
  rfl

theorem heap_par : heap.par 1 = ⟨params 0, some 0⟩ := by
  change Function.update start.par 1 _ 1 = _
  rw [Function.update_self]
  rfl

end Legwork.Example
