import Verif.Model.EvolArrays
import Verif.Props.EvolInput
import Verif.Lemmas.Pointwise

/-!
# C93: what `evol_ecc` does to the array of timesteps it is given
-/

namespace Legwork.Spec

open Legwork.evol

/-- The result of a call that is given a copy of the array `ts` of its own. -/
noncomputable def onCopy {n : ℕ} (K : Consts) (odeint : Odeint) (x : GridCall n) (ts : Fin n → List ℝ) :
    Except PyErr (EvolOut (Fin n)) :=
  evol_ecc K odeint x.ecc_i x.t_evol x.n_step (some (.grids ts)) x.beta x.m_1 x.m_2 x.a_i x.f_orb_i x.output_vars
    x.n_proc x.order x.avoid_merger x.exact_t_merge x.t_before x.t_merge

end Legwork.Spec

namespace Legwork.evol

/-- The merger clamp does nothing more the second time. -/
theorem clamp_row_idem (gyr T tb : ℝ) (row : List ℝ) :
    clamp_row gyr T tb (clamp_row gyr T tb row) = clamp_row gyr T tb row := by
  rcases row with _ | ⟨t0, ts⟩
  · rfl
  · rw [clamp_row_cons, clamp_row_cons, List.map_map]
    congr 1
    set P := np.rowMax t0 (ts.map fun t => if T - tb ≤ t then -1 * gyr else t) with hP
    rw [List.map_map]
    by_cases h : T - tb ≤ P
    · have hc : ∀ t, T - tb ≤ (if T - tb ≤ t then P else t) ↔ T - tb ≤ t := fun t => by
        split_ifs with h'
        · exact ⟨fun _ => h', fun _ => h⟩
        · rfl
      have hm : (ts.map ((fun t => if T - tb ≤ t then -1 * gyr else t) ∘ fun t => if T - tb ≤ t then P else t)) =
          ts.map fun t => if T - tb ≤ t then -1 * gyr else t := by
        apply List.map_congr_left
        intro t _
        simp only [Function.comp_apply, hc]
        split_ifs <;> rfl
      rw [hm, ← hP]
      apply List.map_congr_left
      intro t _
      simp only [Function.comp_apply, hc]
      split_ifs <;> rfl
    · apply List.map_congr_left
      intro t _
      have : ¬ T - tb ≤ (if T - tb ≤ t then P else t) := by
        split_ifs with h'
        · exact h
        · exact h'
      simp only [Function.comp_apply, if_neg this]

/-- Nothing is clamped before the limit. -/
theorem clamp_row_of_lt {gyr T tb : ℝ} {row : List ℝ} (h : ∀ t ∈ row, t < T - tb) : clamp_row gyr T tb row = row := by
  rcases row with _ | ⟨t0, ts⟩
  · rfl
  · rw [clamp_row_cons]
    congr 1
    conv_rhs => rw [← List.map_id ts]
    apply List.map_congr_left
    intro t ht
    rw [if_neg (not_le.2 (h t (by simp [ht])))]
    rfl

/-- Clamped times are bounded by those before the limit. -/
theorem clamp_row_le {gyr T tb B : ℝ} {t0 : ℝ} {ts : List ℝ} (hg : -gyr ≤ B) (h0 : t0 ≤ B)
    (h : ∀ t ∈ ts, t < T - tb → t ≤ B) : ∀ t ∈ clamp_row gyr T tb (t0 :: ts), t ≤ B := by
  rw [clamp_row_cons]
  have hP : np.rowMax t0 (ts.map fun t => if T - tb ≤ t then -1 * gyr else t) ≤ B := by
    rcases (rowMax_isGreatest t0 (ts.map fun t => if T - tb ≤ t then -1 * gyr else t)).1 with e | e
    · rw [e]
      exact h0
    · rw [List.mem_map] at e
      obtain ⟨t, ht, e⟩ := e
      rw [← e]
      split_ifs with hc
      · linarith
      · exact h t ht (not_le.1 hc)
  intro t ht
  rcases List.mem_cons.1 ht with rfl | ht
  · exact h0
  · obtain ⟨u, hu, rfl⟩ := List.mem_map.1 ht
    split_ifs with hc
    · exact hP
    · exact h u hu (not_le.1 hc)

end Legwork.evol

namespace Legwork.Props

open Legwork.evol Legwork.Spec Legwork.utils

/-- **C93** (result). A call returns what it would return for a copy of the array. -/
theorem C93_result {n : ℕ} (K : Consts) (odeint : Odeint) (x : GridCall n) (mem : Arrays n) :
    (evol_ecc_in_place K odeint x mem).1 = onCopy K odeint x (mem x.timesteps) := by
  unfold evol_ecc_in_place onCopy evol_ecc
  rcases check_mass_freq_input K x.beta x.m_1 x.m_2 x.a_i x.f_orb_i with e | ⟨b, a⟩
  · rfl
  · rw [ok_bind]
    simp only
    by_cases hw : wantsFreq x.output_vars = true ∧ (x.m_1.isNone ∨ x.m_2.isNone)
    · rw [if_pos hw, if_pos hw]
      rfl
    · rw [if_neg hw, if_neg hw]
      cases x.avoid_merger
      · rfl
      · simp only [if_true]
        rcases h : avoid_merger_times K x.ecc_i b a x.exact_t_merge x.t_before x.t_merge (mem x.timesteps) with e | ts
        · simp only [create_timesteps_array, bind, Except.bind, pure, Except.pure, h]
          try rfl
        · simp only [create_timesteps_array, bind, Except.bind, pure, Except.pure, h]
          try rfl

/-- **C93** (frame). A call changes no other array, and its own only with `avoid_merger`. -/
theorem C93_frame {n : ℕ} (K : Consts) (odeint : Odeint) (x : GridCall n) (mem : Arrays n) :
    (∀ p, p ≠ x.timesteps → (evol_ecc_in_place K odeint x mem).2 p = mem p) ∧
      (x.avoid_merger = false → (evol_ecc_in_place K odeint x mem).2 = mem) := by
  unfold evol_ecc_in_place
  rcases check_mass_freq_input K x.beta x.m_1 x.m_2 x.a_i x.f_orb_i with e | ⟨b, a⟩
  · exact ⟨fun _ _ => rfl, fun _ => rfl⟩
  · simp only
    split_ifs with hw ha
    · exact ⟨fun _ _ => rfl, fun _ => rfl⟩
    · rcases avoid_merger_times K x.ecc_i b a x.exact_t_merge x.t_before x.t_merge (mem x.timesteps) with e | ts
      · exact ⟨fun _ _ => rfl, fun _ => rfl⟩
      · exact ⟨fun p hp => Function.update_of_ne hp _ _, fun h => by simp [h] at ha⟩
    · exact ⟨fun _ _ => rfl, fun _ => rfl⟩

/-- What a call leaves in its array, if it gets as far as the merger times `T`. -/
theorem in_place_after {n : ℕ} {K : Consts} (odeint : Odeint) {x : GridCall n} (mem : Arrays n) {b a T : Fin n → ℝ}
    (hin : check_mass_freq_input K x.beta x.m_1 x.m_2 x.a_i x.f_orb_i = .ok (b, a))
    (hw : ¬ (wantsFreq x.output_vars = true ∧ (x.m_1.isNone ∨ x.m_2.isNone))) (ha : x.avoid_merger = true)
    (hT : x.t_merge = some T ∨ x.t_merge = none ∧
      get_t_merge_ecc K x.ecc_i (some a) none (some b) none none 0.15 (1 - 1e-4) x.exact_t_merge = .ok T)
    (hne : ∀ i, mem x.timesteps i ≠ []) :
    evol_ecc_in_place K odeint x mem =
      (evol_ecc_finish K odeint x b a fun i => clamp_row Gyr (T i) x.t_before (mem x.timesteps i),
        Function.update mem x.timesteps fun i => clamp_row Gyr (T i) x.t_before (mem x.timesteps i)) := by
  have h : avoid_merger_times K x.ecc_i b a x.exact_t_merge x.t_before x.t_merge (mem x.timesteps) =
      .ok fun i => clamp_row Gyr (T i) x.t_before (mem x.timesteps i) := by
    unfold avoid_merger_times
    have hne' : ¬ ∃ i, mem x.timesteps i = [] := by push Not; exact hne
    rcases hT with h | ⟨h, h'⟩
    · rw [h]
      simp only [if_neg hne']
      rfl
    · rw [h]
      simp only [h', ok_bind, if_neg hne', pure_ok]
  unfold evol_ecc_in_place
  simp only [hin]
  rw [if_neg hw, if_pos ha, h]

/-- **C93** (overwritten). With `avoid_merger` the array of the caller is replaced by the times actually used: all times
at or beyond `t_merge - t_before`, other than the first, are lost. -/
theorem C93_overwritten {n : ℕ} {K : Consts} (odeint : Odeint) {x : GridCall n} (mem : Arrays n) {b a T : Fin n → ℝ}
    (hin : check_mass_freq_input K x.beta x.m_1 x.m_2 x.a_i x.f_orb_i = .ok (b, a))
    (hw : ¬ (wantsFreq x.output_vars = true ∧ (x.m_1.isNone ∨ x.m_2.isNone))) (ha : x.avoid_merger = true)
    (hT : x.t_merge = some T ∨ x.t_merge = none ∧
      get_t_merge_ecc K x.ecc_i (some a) none (some b) none none 0.15 (1 - 1e-4) x.exact_t_merge = .ok T)
    (hne : ∀ i, mem x.timesteps i ≠ []) (hstart : ∀ i t, (mem x.timesteps i)[0]? = some t → -Gyr ≤ t) (i : Fin n) :
    MergerClamp (T i - x.t_before) (mem x.timesteps i) ((evol_ecc_in_place K odeint x mem).2 x.timesteps i) := by
  rw [in_place_after odeint mem hin hw ha hT hne]
  simp only [Function.update_self]
  exact clamp_row_spec fun z hz => by rw [neg_one_mul]; exact hstart i z hz

/-- **C93** (repeated). Repeating a call gives the same result and the same array. -/
theorem C93_repeated {n : ℕ} (K : Consts) (odeint : Odeint) (x : GridCall n) (mem : Arrays n) :
    evol_ecc_in_place K odeint x (evol_ecc_in_place K odeint x mem).2 = evol_ecc_in_place K odeint x mem := by
  rcases hin : check_mass_freq_input K x.beta x.m_1 x.m_2 x.a_i x.f_orb_i with e | ⟨b, a⟩
  · unfold evol_ecc_in_place
    simp only [hin]
  by_cases hw : wantsFreq x.output_vars = true ∧ (x.m_1.isNone ∨ x.m_2.isNone)
  · unfold evol_ecc_in_place
    simp only [hin, if_pos hw]
  by_cases ha : x.avoid_merger = true
  swap
  · rw [(C93_frame K odeint x mem).2 (by simpa using ha)]
  have key : ∀ T, (x.t_merge = some T ∨ x.t_merge = none ∧
      get_t_merge_ecc K x.ecc_i (some a) none (some b) none none 0.15 (1 - 1e-4) x.exact_t_merge = .ok T) →
      (∀ i, mem x.timesteps i ≠ []) →
      evol_ecc_in_place K odeint x (evol_ecc_in_place K odeint x mem).2 = evol_ecc_in_place K odeint x mem := by
    intro T hT hne
    have e := in_place_after odeint mem hin hw ha hT hne
    rw [e, in_place_after odeint _ hin hw ha hT]
    · simp only [Function.update_self, clamp_row_idem, Function.update_idem]
    · intro i h
      simp only [Function.update_self] at h
      have := congrArg List.length h
      rcases hr : mem x.timesteps i with _ | ⟨t0, ts⟩
      · exact hne i hr
      · rw [hr, clamp_row_cons] at this
        simp at this
  by_cases hne : ∀ i, mem x.timesteps i ≠ []
  swap
  · have h : ∃ i, mem x.timesteps i = [] := by push Not at hne; exact hne
    have e : (evol_ecc_in_place K odeint x mem).2 = mem := by
      unfold evol_ecc_in_place avoid_merger_times
      simp only [hin, if_neg hw, if_pos ha, if_pos h]
      rcases x.t_merge with _ | T
      · simp only
        rcases get_t_merge_ecc K x.ecc_i (some a) none (some b) none none 0.15 (1 - 1e-4) x.exact_t_merge <;> rfl
      · rfl
    rw [e]
  rcases htm : x.t_merge with _ | T
  · rcases hg : get_t_merge_ecc K x.ecc_i (some a) none (some b) none none 0.15 (1 - 1e-4) x.exact_t_merge with e | T
    · have e : (evol_ecc_in_place K odeint x mem).2 = mem := by
        unfold evol_ecc_in_place avoid_merger_times
        simp only [hin, if_neg hw, if_pos ha, htm, hg]
        rfl
      rw [e]
    · exact key T (.inr ⟨htm, hg⟩) hne
  · exact key T (.inl htm) hne

/-- **C93** (programs). If no array is used again after a call with `avoid_merger`, every call of a program returns what it
would return on its own with the array as it was when the program started. -/
theorem C93_programs {n : ℕ} (K : Consts) (odeint : Odeint) (xs : List (GridCall n)) (mem : Arrays n)
    (h : xs.Pairwise fun x y => x.avoid_merger = true → x.timesteps ≠ y.timesteps) :
    (run_calls K odeint xs mem).1 = xs.map fun x => onCopy K odeint x (mem x.timesteps) := by
  induction xs generalizing mem with
  | nil => rfl
  | cons x xs ih =>
    rw [List.pairwise_cons] at h
    simp only [run_calls, List.map_cons, C93_result, ih _ h.2]
    congr 1
    apply List.map_congr_left
    intro y hy
    by_cases ha : x.avoid_merger = true
    · rw [(C93_frame K odeint x mem).1 y.timesteps (h.1 y hy ha).symm]
    · rw [(C93_frame K odeint x mem).2 (by simpa using ha)]

/-- **C93** (not so for shared arrays). Evolving a source that merges after 5 Gyr and then one that merges after 50 Gyr on
the same array of times 0, 1, ..., 10 Gyr leaves the second one at 4 Gyr. -/
theorem C93_shared_array (K : Consts) (odeint : Odeint) : ∃ (x y : GridCall 1) (mem : Arrays 1) (R : Fin 1 → List ℝ),
    x.timesteps = y.timesteps ∧ (∀ i, mem y.timesteps i = (List.range 11).map fun k : ℕ => (k : ℝ) * Gyr) ∧
      onCopy K odeint y (mem y.timesteps) = .ok (.one (mem y.timesteps)) ∧
      (∃ r, (run_calls K odeint [x, y] mem).1 = [r, .ok (.one R)]) ∧ ∀ i, ∀ t ∈ R i, t ≤ 4 * Gyr := by
  set row : List ℝ := (List.range 11).map fun k : ℕ => (k : ℝ) * Gyr with hrow
  have hG : (0 : ℝ) < Gyr := by norm_num [Gyr]
  let src (T : ℝ) : GridCall 1 :=
    { ecc_i := fun _ => 0.5, timesteps := 0, beta := some fun _ => 1, a_i := some fun _ => 1, output_vars := ["timesteps"],
      t_merge := some fun _ => T }
  have hin : ∀ T, check_mass_freq_input K (src T).beta (src T).m_1 (src T).m_2 (src T).a_i (src T).f_orb_i =
      .ok (fun _ => 1, fun _ => 1) := fun T => rfl
  have hw : ∀ T, ¬ (wantsFreq (src T).output_vars = true ∧ ((src T).m_1.isNone ∨ (src T).m_2.isNone)) := fun T => by
    simp [src, wantsFreq]
  have hfin : ∀ T ts, evol_ecc_finish K odeint (src T) (fun _ => 1) (fun _ => 1) ts = .ok (.one ts) := fun T ts => by
    rfl
  have step : ∀ T (mem : Arrays 1), (∀ i, mem 0 i ≠ []) → evol_ecc_in_place K odeint (src T) mem =
      (.ok (.one fun i => clamp_row Gyr T (1e-3 * Gyr) (mem 0 i)),
        Function.update mem 0 fun i => clamp_row Gyr T (1e-3 * Gyr) (mem 0 i)) := by
    intro T mem hne
    rw [in_place_after odeint mem (hin T) (hw T) rfl (.inl rfl) hne, hfin]
  have hlow : ∀ t ∈ clamp_row Gyr (5 * Gyr) (1e-3 * Gyr) row, t ≤ 4 * Gyr := by
    have e : row = 0 :: ((List.range 10).map fun k : ℕ => ((k + 1 : ℕ) : ℝ) * Gyr) := by
      rw [hrow, List.range_succ_eq_map, List.map_cons, List.map_map]
      simp [Function.comp_def]
    rw [e]
    apply clamp_row_le (by linarith) (by positivity)
    intro t ht hlt
    obtain ⟨k, -, rfl⟩ := List.mem_map.1 ht
    have : ((k + 1 : ℕ) : ℝ) < 5 := by
      by_contra hc
      push Not at hc
      nlinarith
    have : k + 1 ≤ 4 := by exact_mod_cast Nat.lt_succ_iff.1 (by exact_mod_cast this)
    have : ((k + 1 : ℕ) : ℝ) ≤ 4 := by exact_mod_cast this
    nlinarith
  have hrow0 : row ≠ [] := by simp [hrow]
  have hcl : clamp_row Gyr (5 * Gyr) (1e-3 * Gyr) row ≠ [] := by
    simp [hrow, clamp_row, List.range_succ]
  refine ⟨src (5 * Gyr), src (50 * Gyr), fun _ _ => row, fun _ => clamp_row Gyr (5 * Gyr) (1e-3 * Gyr) row, rfl,
    fun _ => rfl, ?_, ⟨.ok (.one fun _ => clamp_row Gyr (5 * Gyr) (1e-3 * Gyr) row), ?_⟩, fun _ => hlow⟩
  · rw [← C93_result K odeint (src (50 * Gyr)) fun _ _ => row, step _ _ fun _ => hrow0]
    refine congrArg (fun r => Except.ok (EvolOut.one r)) (funext fun i => ?_)
    apply clamp_row_of_lt
    intro t ht
    obtain ⟨k, hk, rfl⟩ := List.mem_map.1 ht
    have : (k : ℝ) ≤ 10 := by exact_mod_cast Nat.lt_succ_iff.1 (List.mem_range.1 hk)
    nlinarith
  · simp only [run_calls]
    rw [step _ _ fun _ => hrow0]
    simp only
    rw [step _ _ fun _ => by simpa using hcl]
    simp only [Function.update_self]
    congr 5
    funext i
    exact clamp_row_of_lt fun t ht => by have := hlow t ht; nlinarith

end Legwork.Props
