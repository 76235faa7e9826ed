import Verif.Lemmas.SourceEach
import Verif.Lemmas.SourceSnr
import Verif.Spec.Masks

/-!
# What `get_source_mask` selects
-/

namespace Legwork.source

open Legwork.Spec
open PyM hiding bind

theorem auto_t_obs_iff {i : PVal} {T : ℝ} : auto_t_obs i .auto = T ↔
    (i = .str "LISA" ∧ T = 4 * psd.yr ∨ i ≠ .str "LISA" ∧ T = 5 * psd.yr) := by
  by_cases hi : i = .str "LISA"
  · subst hi
    simp only [auto_t_obs, true_and, ne_eq, not_true_eq_false, false_and, or_false]
    exact eq_comm
  · have : auto_t_obs i .auto = 5 * psd.yr := by
      unfold auto_t_obs
      rcases i with _ | s | _ | _ | _ | _ | _
      all_goals try rfl
      show (match PVal.str s with
        | PVal.str "LISA" => 4 * psd.yr
        | _ => 5 * psd.yr) = _
      split
      · simp_all
      · rfl
    rw [this]
    simp only [hi, false_and, ne_eq, not_false_eq_true, true_and, false_or]
    exact eq_comm

theorem mask_t_obs_iff {d : Dict} {t : PVal} {T : ℝ} : mask_t_obs d t = .ok T ↔ MaskTime d t T := by
  have hauto : (do
      let i ← d.item "instrument"
      pure (auto_t_obs i .auto) : Except PyErr ℝ) = .ok T ↔
      ∃ i, d.get? "instrument" = some i ∧ (i = .str "LISA" ∧ T = 4 * psd.yr ∨ i ≠ .str "LISA" ∧ T = 5 * psd.yr) := by
    unfold Dict.item
    rcases d.get? "instrument" with _ | i
    · simp [throw, throwThe, MonadExceptOf.throw, bind, Except.bind]
    · simp only [Option.some.injEq, exists_eq_left']
      rw [← auto_t_obs_iff]
      change (Except.ok (auto_t_obs i .auto) : Except PyErr ℝ) = .ok T ↔ _
      rw [Except.ok.injEq]
  have key : ∀ v, (do
      let t ← asTime v
      match t with
      | .auto => do
        let i ← d.item "instrument"
        pure (auto_t_obs i .auto)
      | .val t => pure t : Except PyErr ℝ) = .ok T ↔ (v = .time T ∨ v = .str "auto" ∧
      ∃ i, d.get? "instrument" = some i ∧ (i = .str "LISA" ∧ T = 4 * psd.yr ∨ i ≠ .str "LISA" ∧ T = 5 * psd.yr)) := by
    intro v
    rcases v with _ | s | _ | _ | _ | _ | _
    all_goals try (simp [asTime, throw, throwThe, MonadExceptOf.throw, bind, Except.bind, pure, Except.pure]; done)
    by_cases hs : s = "auto"
    · subst hs
      simp only [asTime, if_true, pure_bind, reduceCtorEq, false_or, true_and]
      exact hauto
    · simp [asTime, hs, throw, throwThe, MonadExceptOf.throw, bind, Except.bind]
  unfold mask_t_obs MaskTime
  simp only
  unfold orParam
  by_cases ht : t = .none
  · subst ht
    simp only [if_true, ne_eq, not_true_eq_false, false_and, true_and, false_or]
    unfold Dict.item
    rcases d.get? "t_obs" with _ | v
    · simp [throw, throwThe, MonadExceptOf.throw, bind, Except.bind]
    · simp only [Option.some.injEq, exists_eq_left']
      exact key v
  · simp only [ne_eq, ht, not_false_eq_true, true_and, false_and, or_false]
    exact key t


variable {c : Cols}

open Classical in
theorem circular_mask_ok (h : Rect c) (tol : ℝ) {a : Tri} (ha : a ≠ .other) :
    circular_mask c tol a = .ok ((rows c).map fun r => decide (CircularIs tol r a)) := by
  rcases a with _ | (_ | _) | _
  · unfold circular_mask CircularIs
    rw [← rows_length c, replicate_filter]
    simp [pure, Except.pure]
  · unfold circular_mask CircularIs ecc_above
    rw [h.col_ecc, List.map_map]
    rfl
  · unfold circular_mask CircularIs ecc_below
    rw [h.col_ecc, List.map_map]
    rfl
  · exact absurd rfl ha

open Classical in
theorem stationary_mask_iff (W : World) (h : Rect c) (tol : ℝ) (t : Except PyErr ℝ) {a : Tri} {m : List Bool} :
    stationary_mask W c tol t a = .ok m ↔ a ≠ .other ∧
      ((a = .none ∧ m = (rows c).map fun _ => true) ∨
        ∃ T, a ≠ .none ∧ t = .ok T ∧ m = (rows c).map fun r => decide (StationaryIs W.K T tol r a)) := by
  rcases a with _ | b | _
  · unfold stationary_mask
    rw [← rows_length c, replicate_filter, pure_ok]
    simp [eq_comm]
  · unfold stationary_mask
    simp only [ne_eq, reduceCtorEq, not_false_eq_true, true_and, false_and, false_or]
    rcases t with e | T
    · simp [bind, Except.bind]
    · rw [ok_bind, stationary_flags_ok W h, ok_bind, pure_ok]
      simp only [Except.ok.injEq, exists_eq_left']
      rcases b with _ | _
      · simp only [Bool.false_eq_true, if_false, logical_not, List.map_map]
        rw [eq_comm]
        have : (not ∘ stat1 W.K T tol) = fun r => decide (StationaryIs W.K T tol r (.bool false)) := by
          funext r
          by_cases hs : r.StationaryOver W.K T tol <;> simp [stat1, StationaryIs, hs]
        rw [this]
      · simp only [if_true]
        rw [eq_comm]
        rfl
  · unfold stationary_mask
    simp [throw, throwThe, MonadExceptOf.throw]

open Classical in
/-- The mask of a source, row by row. -/
theorem maskOf_iff (W : World) {x : Src} {par : ℕ → Params} {tol : ℝ} {p : ℕ} (h : Rect x.cols) (htol : x.ecc_tol = some tol)
    (hh : x.harmonics_required.isSome) (hp : x.sc_params = some p) {a b : Tri} {t : PVal} {m : List Bool} :
    maskOf W x par a b t = .ok m ↔ a ≠ .other ∧ b ≠ .other ∧
      ∃ T, (b ≠ .none → MaskTime (par p).dict t T) ∧
        m = (rows x.cols).map fun r => decide (CircularIs tol r a ∧ StationaryIs W.K T x.stat_tol r b) := by
  obtain ⟨q, hq⟩ := Option.isSome_iff_exists.1 hh
  unfold maskOf
  rw [htol, hq, hp]
  simp only
  by_cases ha : a = .other
  · subst ha
    simp [circular_mask, throw, throwThe, MonadExceptOf.throw, bind, Except.bind]
  rw [circular_mask_ok h tol ha, ok_bind, except_bind_ok]
  simp only [stationary_mask_iff W h]
  constructor
  · rintro ⟨sm, ⟨hb, hsm⟩, hm⟩
    refine ⟨ha, hb, ?_⟩
    rcases hsm with ⟨rfl, rfl⟩ | ⟨T, hb', hT, rfl⟩
    · refine ⟨0, by simp, ?_⟩
      rw [logical_and_map] at hm
      cases hm
      simp [StationaryIs]
    · refine ⟨T, fun _ => mask_t_obs_iff.1 hT, ?_⟩
      rw [logical_and_map] at hm
      cases hm
      simp
  · rintro ⟨-, hb, T, hT, rfl⟩
    by_cases hbn : b = .none
    · subst hbn
      refine ⟨_, ⟨hb, Or.inl ⟨rfl, rfl⟩⟩, ?_⟩
      rw [logical_and_map]
      simp [StationaryIs]
    · refine ⟨_, ⟨hb, Or.inr ⟨T, hbn, mask_t_obs_iff.2 (hT hbn), rfl⟩⟩, ?_⟩
      rw [logical_and_map]
      simp

end Legwork.source
