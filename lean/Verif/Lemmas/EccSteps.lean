import Verif.Lemmas.BranchAccuracy
import Verif.Lemmas.EvolveSteps
import Verif.Spec.EccEvolve

/-!
# Evolving in steps, row by row
-/

namespace Legwork.source

open Legwork.Spec Legwork.evol Legwork.utils Legwork.Props
open PyM hiding bind

variable {W : World} {c : Cols} {T : ℕ → ℝ} {h : Heap} {s i : ℕ} {r : One} {t τ tm : ℝ} {e : ℝ → ℝ}

/-! ### Rows -/

/-- The merger time used for a source. -/
noncomputable def tmRow (K : Consts) (r : One) : ℝ :=
  match r.t_merge with
  | some t => t
  | none => if r.merged then 0 else tMerge1 K true r

theorem tmOf_row {K : Consts} : tmOf K c i = tmRow K (rowAt c i) := by
  unfold tmOf tmRow
  rcases hc : c.t_merge with _ | ts
  · have : (rowAt c i).t_merge = none := by simp [rowAt, hc]
    rw [this]
  · have : (rowAt c i).t_merge = some (ts.getD i 0) := by simp [rowAt, hc]
    rw [this]

theorem timeLeft_row {K : Consts} : TimeLeft K r tm ↔ tm = tmRow K r := by
  unfold TimeLeft tmRow
  rcases r.t_merge with _ | x
  · exact mergerTimeOf_iff
  · rfl

/-- A source after a time. -/
noncomputable def stepRow (W : World) (t : ℝ) (r : One) : One :=
  { r with
    ecc := eccAfter W t (tmRow W.K r) r
    f_orb := freqAfter W t (tmRow W.K r) r
    merged := @decide (tmRow W.K r ≤ t) (Classical.propDecidable _)
    t_merge := some (max 0 (tmRow W.K r - t)) }

theorem rowAt_step (hi : i < c.n_sources) :
    rowAt (c.evolved (evolvedOf W c T)) i = stepRow W (T i) (rowAt c i) := by
  rw [rowAt_evolved hi, tmOf_row]
  rfl

theorem tmRow_step : tmRow W.K (stepRow W t r) = max 0 (tmRow W.K r - t) := rfl

/-! ### Columns -/

/-- The columns after several evolutions. -/
noncomputable def foldCols (W : World) (c : Cols) (Ts : List (ℕ → ℝ)) : Cols :=
  Ts.foldl (fun c T => c.evolved (evolvedOf W c T)) c

theorem foldCols_n (Ts : List (ℕ → ℝ)) : (foldCols W c Ts).n_sources = c.n_sources := by
  unfold foldCols
  induction Ts generalizing c with
  | nil => rfl
  | cons T Ts ih => exact ih

theorem foldCols_rect {Ts : List (ℕ → ℝ)} (hr : Rect c) : Rect (foldCols W c Ts) := by
  unfold foldCols
  induction Ts generalizing c with
  | nil => exact hr
  | cons T Ts ih => exact ih (rect_evolved hr _)

theorem foldCols_row {Ts : List (ℕ → ℝ)} (hi : i < c.n_sources) :
    rowAt (foldCols W c Ts) i = (Ts.map fun T => T i).foldl (fun r t => stepRow W t r) (rowAt c i) := by
  unfold foldCols
  induction Ts generalizing c with
  | nil => rfl
  | cons T Ts ih =>
    rw [List.map_cons, List.foldl_cons, List.foldl_cons, ← rowAt_step hi]
    exact ih hi

theorem foldCols_same (Ts : List (ℕ → ℝ)) : (foldCols W c Ts).m_1 = c.m_1 ∧ (foldCols W c Ts).m_2 = c.m_2 ∧
    (foldCols W c Ts).dist = c.dist ∧ (foldCols W c Ts).weights = c.weights ∧
    (foldCols W c Ts).position = c.position ∧ (foldCols W c Ts).inclination = c.inclination ∧
    (foldCols W c Ts).polarisation = c.polarisation := by
  unfold foldCols
  induction Ts generalizing c with
  | nil => exact ⟨rfl, rfl, rfl, rfl, rfl, rfl, rfl⟩
  | cons T Ts ih => exact ih

theorem foldCols_time {Ts : List (ℕ → ℝ)} (hne : Ts ≠ []) : (foldCols W c Ts).t_merge.isSome := by
  have key : ∀ (Ts : List (ℕ → ℝ)) (c : Cols), c.t_merge.isSome → (foldCols W c Ts).t_merge.isSome := by
    intro Ts
    unfold foldCols
    induction Ts with
    | nil => exact fun _ h => h
    | cons T Ts ih => exact fun c _ => ih _ rfl
  cases Ts with
  | nil => exact absurd rfl hne
  | cons T Ts => exact key Ts _ rfl

theorem evolveAll_fold {ts : List EvolTime} {Ts : List (ℕ → ℝ)} (hr : Rect (h.src s).cols)
    (hT : List.Forall₂ (TimesOf (h.src s).cols.n_sources) Ts ts) :
    evolveAll W s ts h =
      (.ok (), h.setSrc s { h.src s with cols := foldCols W (h.src s).cols Ts }) := by
  generalize hn : (h.src s).cols.n_sources = n at hT
  induction hT generalizing h with
  | nil =>
    change ((.ok (), h) : Except PyErr Unit × Heap) = (.ok (), h.setSrc s (h.src s))
    rw [setSrc_self]
  | @cons T t Ts ts h1 h2 ih =>
    subst hn
    unfold evolveAll
    rw [bind_ok (evolve_sources_ok hr h1)]
    rw [ih (h := h.setSrc s { h.src s with cols := (h.src s).cols.evolved (evolvedOf W (h.src s).cols T) })
      (by simpa using rect_evolved hr T) (by simp [Cols.evolved, Cols.n_sources])]
    simp only [Heap.setSrc, Function.update_self, Function.update_idem]
    rfl

/-- Evolving in steps, if it may be done for each source. -/
theorem fold_steps {Ts : List (ℕ → ℝ)} (hne : Ts ≠ []) (hr : Rect c) (hs : ∀ i < c.n_sources,
    (Ts.map fun T => T i).foldl (fun r t => stepRow W t r) (rowAt c i) = stepRow W (total Ts i) (rowAt c i)) :
    foldCols W c Ts = c.evolved (evolvedOf W c (total Ts)) := by
  obtain ⟨h0, h1, h2, h3, h4, h5, h6⟩ := foldCols_same (W := W) (c := c) Ts
  refine cols_ext_rows (rect_evolved hr _) (foldCols_rect hr) h0 h1 h2 h3 h4 h5 h6 ⟨foldCols_time hne, rfl⟩ fun i hi => ?_
  have hi' : i < c.n_sources := hi
  rw [foldCols_row hi', hs i hi', rowAt_step hi']

/-! ### Merged sources -/

theorem step_of_le (hle : tmRow W.K r ≤ t) :
    stepRow W t r = { r with ecc := 0, f_orb := 100, merged := true, t_merge := some 0 } := by
  unfold stepRow eccAfter freqAfter
  rw [if_pos hle, if_pos hle, decide_eq_true hle, max_eq_left (by linarith)]

theorem fold_of_le {ts : List ℝ} (hle : tmRow W.K r ≤ t) (h0 : ∀ x ∈ ts, 0 ≤ x) :
    ts.foldl (fun r t => stepRow W t r) (stepRow W t r) = stepRow W (t + ts.sum) r := by
  have h1 : stepRow W (t + ts.sum) r = stepRow W t r := by
    rw [step_of_le hle, step_of_le (hle.trans (le_add_of_nonneg_right (List.sum_nonneg h0)))]
  rw [h1]
  induction ts with
  | nil => rfl
  | cons x ts ih =>
    rw [List.foldl_cons]
    have hx : stepRow W x (stepRow W t r) = stepRow W t r := by
      rw [step_of_le (t := x) (by rw [tmRow_step, max_eq_left (by linarith)]; exact h0 x (by simp)), step_of_le hle]
    rw [hx]
    refine ih (fun y hy => h0 y (List.mem_cons_of_mem _ hy)) ?_
    rw [step_of_le hle, step_of_le (hle.trans (le_add_of_nonneg_right (List.sum_nonneg fun y hy =>
      h0 y (List.mem_cons_of_mem _ hy))))]

/-! ### Eccentric sources -/

theorem c01_pos {K : Consts} (hE : EccentricSource r) : 0 < c01 K r :=
  c_0_pos hE.ecc_pos hE.ecc_lt (get_a_from_f_orb_pos K hE.f_orb hE.m_1 hE.m_2)

/-- Two histories agree. -/
theorem history_unique {K : Consts} (hE : EccentricSource r) {e' : ℝ → ℝ} (h0 : 0 ≤ τ) (h1 : History K r τ e)
    (h2 : History K r τ e') : e τ = e' τ := by
  have hb := beta_pos K hE.m_1 hE.m_2
  have hc := c01_pos (K := K) hE
  have e1 := t_exact_countdown h1.solves hb hc h0
  have e2 := t_exact_countdown h2.solves hb hc h0
  rw [h1.start] at e1
  rw [h2.start, ← e1] at e2
  have b1 := h1.solves.bound τ ⟨h0, le_rfl⟩
  have b2 := h2.solves.bound τ ⟨h0, le_rfl⟩
  rcases lt_trichotomy (e τ) (e' τ) with hl | hl | hl
  · exact absurd e2 (t_exact_strictMono hb hc b1.1 hl b2.2).ne'
  · exact hl
  · exact absurd e2 (t_exact_strictMono hb hc b2.1 hl b1.2).ne

theorem history_mono {K : Consts} (h1 : History K r τ e) (hle : t ≤ τ) : History K r t e :=
  ⟨h1.start, h1.solves.mono le_rfl hle⟩

/-- What the integration gives. -/
theorem last_of_history (ho : SolvesPeters W.odeint) (hE : EccentricSource r) (h0 : 0 ≤ t)
    (hh : History W.K r t e) :
    eccLast W r t = e t ∧ freqLast W r t = f_or_merged W.K AU (separationAt W.K r (e t)) r.m_1 r.m_2 := by
  have hrun : eccRun W r t = [e 0, e t] := by
    unfold eccRun
    rw [linspace_two, ← hh.start, ho _ _ t e [0, t] (beta_pos W.K hE.m_1 hE.m_2) ?_ ?_ ⟨by simpa using h0, by simp⟩ ?_]
    · rfl
    · have := c01_pos (K := W.K) hE
      exact this
    · exact hh.solves
    · intro x hx
      simp only [List.mem_cons, List.not_mem_nil, or_false] at hx
      rcases hx with rfl | rfl
      · exact ⟨le_rfl, h0⟩
      · exact ⟨h0, le_rfl⟩
  unfold eccLast freqLast
  rw [hrun]
  exact ⟨rfl, rfl⟩

theorem separationAt_pos {K : Consts} (hE : EccentricSource r) {x : ℝ} (h0 : 0 < x) (h1 : x < 1) :
    0 < separationAt K r x := get_a_from_ecc_pos h0 h1 (c01_pos hE)

/-- An eccentric source that is not marked as merged, after a time. -/
theorem step_of_history (ho : SolvesPeters W.odeint) (hE : EccentricSource r) (h0 : 0 ≤ t) (ht : t < tmRow W.K r)
    (hh : History W.K r t e) : stepRow W t r =
      { r with ecc := e t, f_orb := f_or_merged W.K AU (separationAt W.K r (e t)) r.m_1 r.m_2, merged := false,
               t_merge := some (tmRow W.K r - t) } := by
  obtain ⟨h1, h2⟩ := last_of_history ho hE h0 hh
  unfold stepRow eccAfter freqAfter
  rw [if_neg (not_le.2 ht), if_neg (not_le.2 ht), if_neg hE.ecc_pos.ne', if_neg hE.ecc_pos.ne', h1, h2,
    decide_eq_false (not_le.2 ht), max_eq_right (by linarith)]

/-- It is an eccentric source on the same track. -/
theorem track_step (ho : SolvesPeters W.odeint) (hE : EccentricSource r) (h0 : 0 ≤ t) (ht : t < tmRow W.K r)
    (hh : History W.K r t e) (hm : separationAt W.K r (e t) ≠ 1e-30 * AU) :
    EccentricSource (stepRow W t r) ∧ c01 W.K (stepRow W t r) = c01 W.K r ∧ (stepRow W t r).ecc = e t := by
  obtain ⟨b0, b1⟩ := hh.solves.bound t ⟨h0, le_rfl⟩
  have hs := separationAt_pos (K := W.K) hE b0 b1
  rw [step_of_history ho hE h0 ht hh, f_or_merged_of_ne W.K hs.ne' hm]
  refine ⟨⟨hE.m_1, hE.m_2, get_f_orb_from_a_pos W.K hs hE.m_1 hE.m_2, b0, b1⟩, ?_, rfl⟩
  unfold c01
  simp only
  rw [C01_a_roundtrip W.K hs hE.m_1 hE.m_2]
  exact c_0_of_get_a b0 b1

theorem history_step (ho : SolvesPeters W.odeint) (hE : EccentricSource r) (h0 : 0 ≤ t) (ht : t < tmRow W.K r)
    (hm : ∀ e, History W.K r t e → separationAt W.K r (e t) ≠ 1e-30 * AU) {x : ℝ} (hx : 0 ≤ x)
    (hh : History W.K r (t + x) e) : History W.K (stepRow W t r) x fun y => e (t + y) := by
  have hh' := history_mono hh (show t ≤ t + x by linarith)
  obtain ⟨h1, h2, h3⟩ := track_step ho hE h0 ht hh' (hm e hh')
  refine ⟨by simp [h3], ?_⟩
  change EccentricInspiral (beta W.K r.m_1 r.m_2) (c01 W.K (stepRow W t r)) 0 x _
  rw [h2]
  refine ⟨fun y hy => hh.solves.bound _ ⟨by linarith [hy.1], by linarith [hy.2]⟩, fun y hy => ?_⟩
  have hd := hh.solves.ode (t + y) ⟨by linarith [hy.1], by linarith [hy.2]⟩
  exact hd.comp_const_add t y

theorem separationAt_step (ho : SolvesPeters W.odeint) (hE : EccentricSource r) (h0 : 0 ≤ t) (ht : t < tmRow W.K r)
    (hh : History W.K r t e) (hm : separationAt W.K r (e t) ≠ 1e-30 * AU) (x : ℝ) :
    separationAt W.K (stepRow W t r) x = separationAt W.K r x := by
  have := (track_step ho hE h0 ht hh hm).2.1
  change get_a_from_ecc x (c01 W.K (stepRow W t r)) = get_a_from_ecc x (c01 W.K r)
  rw [this]

/-- Evolving one eccentric source in steps. -/
theorem ecc_fold (ho : SolvesPeters W.odeint) {ts : List ℝ} (hne : ts ≠ []) (hE : EccentricSource r)
    (h0 : ∀ x ∈ ts, 0 ≤ x) (hL : NotMarkedLate W.K r ts.sum)
    (hm : ∀ k, 0 < k → k < ts.length → ¬ OnMarker W.K r (ts.take k).sum) :
    ts.foldl (fun r t => stepRow W t r) r = stepRow W ts.sum r := by
  induction ts generalizing r with
  | nil => exact absurd rfl hne
  | cons t ts ih =>
    rw [List.foldl_cons, List.sum_cons]
    rcases ts with _ | ⟨t', ts⟩
    · simp
    have ht0 : 0 ≤ t := h0 t (by simp)
    have h0' : ∀ x ∈ t' :: ts, 0 ≤ x := fun x hx => h0 x (List.mem_cons_of_mem _ hx)
    have hs0 : 0 ≤ (t' :: ts).sum := List.sum_nonneg h0'
    rw [List.sum_cons] at hL
    generalize hrest : t' :: ts = rest at *
    have hrne : rest ≠ [] := by rw [← hrest]; simp
    rcases le_or_gt (tmRow W.K r) t with hle | hlt
    · exact fold_of_le hle h0'
    have hmk : ∀ e, History W.K r t e → separationAt W.K r (e t) ≠ 1e-30 * AU := by
      intro e he hx
      refine hm 1 one_pos (by simp [← hrest]) ⟨tmRow W.K r, e, timeLeft_row.2 rfl, ?_⟩
      simpa using ⟨hlt, he, hx⟩
    obtain ⟨e, he⟩ := hL _ t (timeLeft_row.2 rfl) ht0 (by linarith) hlt
    obtain ⟨hE', hc', he'⟩ := track_step ho hE ht0 hlt he (hmk e he)
    have htm : tmRow W.K (stepRow W t r) = tmRow W.K r - t := by rw [tmRow_step, max_eq_right (by linarith)]
    have hL' : NotMarkedLate W.K (stepRow W t r) rest.sum := by
      intro tm x hx hx0 hxs hxt
      rw [timeLeft_row] at hx
      obtain ⟨e₂, h₂⟩ := hL _ (t + x) (timeLeft_row.2 rfl) (by linarith) (by linarith) (by rw [hx, htm] at hxt; linarith)
      exact ⟨_, history_step ho hE ht0 hlt hmk hx0 h₂⟩
    rw [ih hrne hE' h0' hL' ?_]
    · -- two steps
      rcases le_or_gt (tmRow W.K r) (t + rest.sum) with hle2 | hlt2
      · rw [step_of_le (t := rest.sum) (by rw [htm]; linarith), step_of_le hle2]
        rfl
      · obtain ⟨e₂, h₂⟩ := hL _ (t + rest.sum) (timeLeft_row.2 rfl) (by linarith) le_rfl hlt2
        have h₂' := history_mono h₂ (show t ≤ t + rest.sum by linarith)
        have hst := history_step ho hE ht0 hlt hmk hs0 h₂
        rw [step_of_history ho hE' hs0 (by rw [htm]; linarith) hst, step_of_history ho hE (by linarith) hlt2 h₂,
          separationAt_step ho hE ht0 hlt h₂' (hmk _ h₂'), htm]
        have : tmRow W.K r - t - rest.sum = tmRow W.K r - (t + rest.sum) := by ring
        rw [this]
        rfl
    · rintro k hk0 hk ⟨tm, e₂, h1, h2, h3, h4⟩
      have hk0' : 0 ≤ (rest.take k).sum := List.sum_nonneg fun x hx => h0' x (List.mem_of_mem_take hx)
      have hkle : (rest.take k).sum ≤ rest.sum := by
        conv_rhs => rw [← List.take_append_drop k rest, List.sum_append]
        exact le_add_of_nonneg_right (List.sum_nonneg fun x hx => h0' x (List.mem_of_mem_drop hx))
      rw [timeLeft_row, htm] at h1
      have hlt2 : t + (rest.take k).sum < tmRow W.K r := by rw [h1] at h2; linarith
      obtain ⟨e₃, h₃⟩ := hL _ (t + (rest.take k).sum) (timeLeft_row.2 rfl) (by linarith) (by linarith) hlt2
      refine hm (k + 1) (by omega) (by simpa using hk) ⟨tmRow W.K r, e₃, timeLeft_row.2 rfl, ?_⟩
      rw [List.take_succ_cons, List.sum_cons]
      refine ⟨hlt2, h₃, ?_⟩
      have hst := history_step ho hE ht0 hlt hmk hk0' h₃
      have huniq := history_unique hE' hk0' hst h3
      rw [separationAt_step ho hE ht0 hlt he (hmk e he), ← huniq] at h4
      exact h4

/-! ### Circular sources -/

/-- A collection of a single source. -/
def colsOf (r : One) : Cols :=
  ⟨[r.m_1], [r.m_2], [r.dist], [r.f_orb], [r.ecc], r.weight.map fun x => [x], r.position.map fun x => [x],
    r.inclination.map fun x => [x], r.polarisation.map fun x => [x], [r.merged], r.t_merge.map fun x => [x]⟩

theorem rowAt_colsOf : rowAt (colsOf r) 0 = r := by
  rcases r with ⟨m1, m2, d, f, e, w, p, i, q, m, t⟩
  cases w <;> cases p <;> cases i <;> cases q <;> cases t <;> rfl

/-- Evolving one circular source in steps. -/
theorem circ_fold {ts : List ℝ} (hne : ts ≠ []) (hc : CircularSource W.K r) (h0 : ∀ x ∈ ts, 0 ≤ x)
    (hm : r.merged = false → ∀ k, 0 < k → k < ts.length → ¬ AtMarker W.K r (ts.take k).sum) :
    ts.foldl (fun r t => stepRow W t r) r = stepRow W ts.sum r := by
  induction ts generalizing r with
  | nil => exact absurd rfl hne
  | cons t ts ih =>
    rw [List.foldl_cons, List.sum_cons]
    rcases ts with _ | ⟨t', ts⟩
    · simp
    have ht0 : 0 ≤ t := h0 t (by simp)
    have h0' : ∀ x ∈ t' :: ts, 0 ≤ x := fun x hx => h0 x (List.mem_cons_of_mem _ hx)
    have hs0 : 0 ≤ (t' :: ts).sum := List.sum_nonneg h0'
    have hm1 : r.merged = false → ¬ AtMarker W.K r t := fun hmg => by simpa using hm hmg 1 one_pos (by simp)
    have hi : 0 < (colsOf r).n_sources := Nat.one_pos
    have hc' : CircularSource W.K (rowAt (colsOf r) 0) := by rw [rowAt_colsOf]; exact hc
    have hm' : (rowAt (colsOf r) 0).merged = false → ¬ AtMarker W.K (rowAt (colsOf r) 0) t := by
      rw [rowAt_colsOf]; exact hm1
    have hc1 := circular_evolved (W := W) (T := fun _ => t) hc' hi ht0 hm'
    rw [rowAt_step hi, rowAt_colsOf] at hc1
    rw [ih (by simp) hc1 h0' ?_]
    · have := row_steps (W := W) (T₁ := fun _ => t) (T₂ := fun _ => (t' :: ts).sum) hc' hi ht0 hs0 hm'
      have hi' : 0 < ((colsOf r).evolved (evolvedOf W (colsOf r) fun _ => t)).n_sources := hi
      rw [rowAt_step hi', rowAt_step hi, rowAt_step hi, rowAt_colsOf] at this
      exact this
    · intro hmg k hk0 hk
      have := marker_evolved (W := W) (T := fun _ => t) hc' hi ht0 hm' (t := ((t' :: ts).take k).sum)
        (by rw [rowAt_step hi, rowAt_colsOf]; exact hmg)
      rw [rowAt_step hi, rowAt_colsOf] at this
      rw [this.2]
      have h2 := hm this.1 (k + 1) (by omega) (by simpa using hk)
      rwa [List.take_succ_cons, List.sum_cons] at h2

end Legwork.source
