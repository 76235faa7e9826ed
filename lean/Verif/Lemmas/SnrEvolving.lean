import Verif.Lemmas.Snr
import Verif.Lemmas.EvolOutput
import Verif.Lemmas.EvolCirc

/-!
# Helper lemmas on evolving signal-to-noise ratios
-/

namespace Legwork.snr

open Real Legwork.utils Legwork.strain Legwork.evol

theorem zipWith_ofFn {α β γ : Type*} (l : List α) (F : α → β → γ) (g : Fin l.length → β) :
    l.zipWith F (List.ofFn g) = List.ofFn fun i => F l[i] (g i) := by
  apply List.ext_getElem
  · simp
  · intro i h1 h2
    simp

theorem zip_ofFn {α β : Type*} {n : ℕ} (f : Fin n → α) (g : Fin n → β) :
    (List.ofFn f).zip (List.ofFn g) = List.ofFn fun i => (f i, g i) := by
  apply List.ext_getElem
  · simp
  · intro i h1 h2
    simp

/-- Orbital frequencies at evenly spaced times of a circular source. -/
noncomputable def circRow (K : Consts) (s : EvolSrc) (t_evol : ℝ) (n_step : ℕ) : List ℝ :=
  (np.linspace t_evol n_step).map fun t => f_or_merged K AU
    (a_circ (get_a_from_f_orb K s.f_orb_i s.m_1 s.m_2) (utils.beta K s.m_1 s.m_2) t) s.m_1 s.m_2

/-- The integrand of the SNR² at one orbital frequency. -/
noncomputable def circW (C : Ctx) (N : ℝ → WithTop ℝ) (s : EvolSrc) (f : ℝ) : ℝ :=
  divNoise (h_c_val C.K C.interpolated_g (chirp_mass s.m_1 s.m_2) s.dist f 0 2 ^ 2)
    ((N (2 * f)).map fun n => (2 * f) ^ 2 * n)

theorem evol_circ_snr (K : Consts) (srcs : List EvolSrc) (te : Fin srcs.length → ℝ) (n : ℕ) :
    evol_circ K AU (some (.array te)) n none none (some (column srcs EvolSrc.m_1)) (some (column srcs EvolSrc.m_2))
      none (some (column srcs EvolSrc.f_orb_i)) ["f_orb"]
      = .ok (.one fun i => circRow K srcs[i] (te i) n) := by
  rw [evol_circ_eq K AU _ _ _ _ _ _ _ _ _ (b' := fun i => utils.beta K srcs[i].m_1 srcs[i].m_2)
    (a' := fun i => get_a_from_f_orb K srcs[i].f_orb_i srcs[i].m_1 srcs[i].m_2)
    (ts := fun i => np.linspace (te i) n) rfl (fun _ => ⟨rfl, rfl⟩) rfl]
  simp [isKnown, unwrap, circVal, column, circRow, List.map_map, Function.comp_def]

theorem h_c_row_flatten {α β : Type*} (f : α → β) (l : List α) : (l.map fun x => [f x]).flatten = l.map f := by
  induction l with
  | nil => rfl
  | cons x xs ih => simp [ih]

theorem snr_circ_evolving_eq (C : Ctx) (srcs : List EvolSrc) {n : ℕ} (hn : n ≠ 0) (t_merge : Option (List ℝ))
    {N : ℝ → WithTop ℝ} (hN : ∀ f, noise C f = .ok (N f)) {T : Fin srcs.length → ℝ}
    (hT : merge_times_circ C srcs t_merge = .ok T) :
    snr_circ_evolving C srcs n t_merge = .ok (List.ofFn fun i =>
      let fs := drop_merged_circ (circRow C.K srcs[i] (min (T i - 1) C.t_obs) n)
      sqrt? (trapezoid (fs.map (circW C N srcs[i])) (fs.map fun f => 2 * f))) := by
  unfold snr_circ_evolving
  simp only
  rw [hT]
  simp only [bind, Except.bind]
  rw [evol_circ_snr]
  simp only [single, pure, Except.pure, hn, false_and, if_false]
  rw [zipWith_ofFn]
  rw [h_c_n_ok C.K C.interpolated_g two_any (by
    intro r hr
    obtain ⟨i, rfl⟩ := List.mem_ofFn.1 hr
    rfl)]
  rw [List.map_ofFn]
  simp only
  rw [mapM_ok (g := fun fs => fs.map fun f => N (2 * f)) (fun fs _ => mapM_ok fun f _ => hN _)]
  rw [List.map_ofFn]
  simp only
  rw [zip_ofFn, zip_ofFn, List.map_ofFn]
  congr 2
  funext i
  simp only [Function.comp, List.map_cons, List.map_nil, List.map_map]
  congr 1
  unfold snr2_circ_row
  have e := h_c_row_flatten (fun f => h_c_val C.K C.interpolated_g (chirp_mass srcs[i].m_1 srcs[i].m_2) srcs[i].dist
    f 0 2) (drop_merged_circ (circRow C.K srcs[i] (min (T i - 1) C.t_obs) n))
  simp only [Function.comp_def] at e ⊢
  rw [e]
  congr 1
  rw [List.map_map]
  have e2 : ∀ fs : List ℝ, (fs.zipWith (fun f (n : WithTop ℝ) => n.map fun n => (2 * f) ^ 2 * n)
      (fs.map fun f => N (2 * f))) = fs.map fun f => (N (2 * f)).map fun n => (2 * f) ^ 2 * n := by
    intro fs
    induction fs with
    | nil => rfl
    | cons f fs ih => simpa using ih
  rw [e2, zipWith_map_map]
  rfl

theorem drop_merged_circ_of_not_mem {row : List ℝ} (h : (100 : ℝ) ∉ row) : drop_merged_circ row = row := by
  have h' : ∀ f ∈ row, ¬ f = (1e2 : ℝ) := by
    intro f hf e
    norm_num at e
    exact h (e ▸ hf)
  unfold drop_merged_circ
  rcases row with _ | ⟨x, xs⟩
  · rfl
  · simp only [List.map_cons]
    rw [if_neg (h' x (by simp))]
    congr 1
    conv_rhs => rw [← List.map_id xs]
    apply List.map_congr_left
    intro f hf
    rw [if_neg (h' f (by simp [hf]))]
    rfl

/-- Frequency increases with time before merger, away from the code's 100 Hz marker. -/
theorem f_or_merged_lt (K : Consts) {a b m₁ m₂ x y : ℝ} (ha : 0 < a) (hb : 0 < b) (h₁ : 0 < m₁) (h₂ : 0 < m₂)
    (hxy : x < y) (hy : y < a ^ 4 / (4 * b))
    (h100x : f_or_merged K AU (a_circ a b x) m₁ m₂ ≠ 100) (h100y : f_or_merged K AU (a_circ a b y) m₁ m₂ ≠ 100) :
    0 < f_or_merged K AU (a_circ a b x) m₁ m₂ ∧
      f_or_merged K AU (a_circ a b x) m₁ m₂ < f_or_merged K AU (a_circ a b y) m₁ m₂ := by
  have hin := a_circ_inspiral ha hb
  have hpx := hin.pos x (hxy.trans hy)
  have hpy := hin.pos y hy
  have hlt := hin.decreasing (show x ∈ Set.Iic _ from (hxy.trans hy).le) (show y ∈ Set.Iic _ from hy.le) hxy
  have hm : ∀ z, f_or_merged K AU z m₁ m₂ ≠ 100 → z ≠ 1e-30 * AU := by
    rintro z hz rfl
    apply hz
    unfold f_or_merged
    simp only
    rw [ite_self, if_pos rfl]
    norm_num
  rw [f_or_merged_of_ne K hpx.ne' (hm _ h100x), f_or_merged_of_ne K hpy.ne' (hm _ h100y)]
  refine ⟨Props.get_f_orb_from_a_pos K hpx h₁ h₂, ?_⟩
  unfold get_f_orb_from_a
  have hG := K.G_pos
  apply div_lt_div_of_pos_right _ (by positivity)
  apply rpow_lt_rpow (by positivity) _ (by norm_num)
  apply div_lt_div_of_pos_left (by positivity) (by positivity)
  exact pow_lt_pow_left₀ hlt hpy.le (by norm_num)

end Legwork.snr
