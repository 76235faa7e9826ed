import Verif.Lemmas.EvolEcc
import Verif.Spec.EccEvolve
import Verif.Spec.Snr

/-!
# An integrator without errors
-/

namespace Legwork.evol

open Legwork.Spec Real

/-- The solution that an integrator without errors follows for a time `t`. -/
def Follows (rhs : ℝ → ℝ) (e₀ t : ℝ) (e : ℝ → ℝ) : Prop :=
  0 ≤ t ∧ ∃ β c : ℝ, 0 < β ∧ 0 < c ∧ EccentricInspiral β c 0 t e ∧ e 0 = e₀ ∧ rhs = fun x => de_dt x β c

open Classical in
/-- An integrator without errors: from the first time on it follows the solution while there is one, then it fails. -/
noncomputable def exactOdeint : Odeint := fun rhs e₀ ts => ts.map fun t =>
  if h : ∃ e, Follows rhs e₀ (t - ts.headD 0) e then some (h.choose (t - ts.headD 0)) else none

/-- Equal equations have equal constants. -/
theorem constants_eq {β c β' c' : ℝ} (hb : 0 < β) (hc : 0 < c) (hb' : 0 < β') (hc' : 0 < c')
    (h : (fun x => de_dt x β c) = fun x => de_dt x β' c') (x : ℝ) : t_exact c β x = t_exact c' β' x := by
  have h1 := congrFun h (1 / 2)
  have key : ∀ β c : ℝ, de_dt (1 / 2) β c = β / c ^ 4 * de_dt (1 / 2) 1 1 := by
    intro β c
    unfold de_dt
    rw [one_pow]
    ring
  have hneg : de_dt (1 / 2) 1 1 < 0 := de_dt_neg (by norm_num) (by norm_num) one_pos one_ne_zero
  simp only [key β c, key β' c'] at h1
  have h2 : β / c ^ 4 = β' / c' ^ 4 := mul_right_cancel₀ hneg.ne h1
  have h3 : c ^ 4 / β = c' ^ 4 / β' := by rw [← inv_div, h2, inv_div]
  unfold t_exact
  rw [mul_div_assoc, h3, mul_div_assoc]

/-- Of two solutions with the same start, the one that has been followed for longer has the smaller eccentricity. -/
theorem follows_le {rhs : ℝ → ℝ} {e₀ s t : ℝ} {e e' : ℝ → ℝ} (h : Follows rhs e₀ s e) (h' : Follows rhs e₀ t e')
    (hst : s ≤ t) : e' t ≤ e s := by
  obtain ⟨s0, β, c, hb, hc, he, h0, hrhs⟩ := h
  obtain ⟨t0, β', c', hb', hc', he', h0', hrhs'⟩ := h'
  have e1 := t_exact_countdown he hb hc s0
  have e2 := t_exact_countdown he' hb' hc' t0
  have hk := constants_eq hb hc hb' hc' (hrhs.symm.trans hrhs')
  rw [h0] at e1
  rw [h0', ← hk, ← hk] at e2
  by_contra hlt
  push Not at hlt
  have := t_exact_strictMono hb hc (he.bound s ⟨s0, le_rfl⟩).1 hlt (he'.bound t ⟨t0, le_rfl⟩).2
  linarith

theorem exactOdeint_solves : SolvesPeters exactOdeint := by
  intro β c τ e ts hb hc he hz hts
  have hd : ts.headD 0 = 0 := by
    cases ts with
    | nil => rfl
    | cons t ts => exact hz.2 t (by simp)
  unfold exactOdeint
  refine List.map_congr_left fun t ht => ?_
  obtain ⟨t0, t1⟩ := hts t ht
  have hf : Follows (fun x => de_dt x β c) (e 0) t e := ⟨t0, β, c, hb, hc, he.mono le_rfl t1, rfl, rfl⟩
  rw [hd, sub_zero]
  have hex : ∃ e', Follows (fun x => de_dt x β c) (e 0) t e' := ⟨e, hf⟩
  rw [dif_pos hex]
  exact congrArg some (le_antisymm (follows_le hf hex.choose_spec le_rfl) (follows_le hex.choose_spec hf le_rfl))

private lemma exact_getElem {rhs : ℝ → ℝ} {e₀ : ℝ} {ts : List ℝ} {i : ℕ} {x : Option ℝ}
    (h : (exactOdeint rhs e₀ ts)[i]? = some x) : ∃ t, ts[i]? = some t ∧
      ((x = none ∧ ¬ ∃ e, Follows rhs e₀ (t - ts.headD 0) e) ∨ ∃ e, Follows rhs e₀ (t - ts.headD 0) e ∧ x = some (e (t - ts.headD 0))) := by
  unfold exactOdeint at h
  rw [List.getElem?_map, Option.map_eq_some_iff] at h
  obtain ⟨t, ht, hx⟩ := h
  refine ⟨t, ht, ?_⟩
  split_ifs at hx with hex
  · exact Or.inr ⟨_, hex.choose_spec, hx.symm⟩
  · exact Or.inl ⟨hx.symm, hex⟩

private lemma getElem_le {ts : List ℝ} (hts : ts.Pairwise (· ≤ ·)) {i j : ℕ} {a b : ℝ} (hij : i ≤ j) (ha : ts[i]? = some a)
    (hb : ts[j]? = some b) : a ≤ b := by
  rcases hij.eq_or_lt with rfl | hlt
  · rw [ha] at hb; injection hb with hb; exact hb.le
  · obtain ⟨hi, rfl⟩ := List.getElem?_eq_some_iff.1 ha
    obtain ⟨hj, rfl⟩ := List.getElem?_eq_some_iff.1 hb
    exact List.pairwise_iff_getElem.1 hts i j hi hj hlt

/-- An integrator without errors meets the conditions of C65. -/
theorem exactOdeint_decreasing : DecreasingIntegrator exactOdeint where
  length rhs e₀ ts _ := by simp [exactOdeint]
  range rhs e₀ ts _ h0 h1 hts x hx := by
    obtain ⟨i, hi⟩ := List.getElem?_of_mem hx
    obtain ⟨t, -, ⟨h, -⟩ | ⟨e, ⟨t0, β, c, -, -, he, -⟩, h⟩⟩ := exact_getElem hi
    · cases h
    · injection h with h
      rw [h]
      exact he.bound _ ⟨t0, le_rfl⟩
  decreasing rhs e₀ ts _ h0 h1 hts i j x y hij hx hy := by
    obtain ⟨t, ht, ⟨h, -⟩ | ⟨e, he, h⟩⟩ := exact_getElem hx
    · cases h
    obtain ⟨t', ht', ⟨h', -⟩ | ⟨e', he', h'⟩⟩ := exact_getElem hy
    · cases h'
    injection h with h
    injection h' with h'
    rw [h, h']
    exact follows_le he he' (by linarith [getElem_le hts hij ht ht'])
  failed rhs e₀ ts _ h0 h1 hts i j x hij hx hy := by
    obtain ⟨t, ht, ⟨-, hno⟩ | ⟨e, he, h⟩⟩ := exact_getElem hx
    · obtain ⟨t', ht', ⟨h', -⟩ | ⟨e', ⟨t0, β, c, hb, hc, he', h0', hr⟩, h'⟩⟩ := exact_getElem hy
      · exact h'
      · refine absurd ⟨e', ?_, β, c, hb, hc, he'.mono le_rfl ?_, h0', hr⟩ hno
        · cases ts with
          | nil => simp at ht
          | cons a ts =>
            have := getElem_le hts (Nat.zero_le i) (a := a) (by simp) ht
            simpa using this
        · linarith [getElem_le hts hij ht ht']
    · cases h
  start rhs e₀ ts hp h0 h1 hts i t ht hi := by
    obtain ⟨β, c, hb, hc, rfl⟩ := hp
    have hd : ts.headD 0 = t := by
      cases ts with
      | nil => simp at ht
      | cons a ts => simpa using ht
    have hl : ∃ x, (exactOdeint (fun e => de_dt e β c) e₀ ts)[i]? = some x := by
      unfold exactOdeint
      rw [List.getElem?_map, hi]
      exact ⟨_, rfl⟩
    obtain ⟨x, hx⟩ := hl
    have hline : Follows (fun e => de_dt e β c) e₀ (t - t) fun s => e₀ + s * de_dt e₀ β c := by
      rw [sub_self]
      refine ⟨le_rfl, β, c, hb, hc, ?_, by simp, rfl⟩
      have hbd : ∀ s ∈ Set.Icc (0 : ℝ) 0, 0 < e₀ + s * de_dt e₀ β c ∧ e₀ + s * de_dt e₀ β c < 1 := by
        intro s hs
        rw [Set.Icc_self, Set.mem_singleton_iff] at hs
        rw [hs, zero_mul, add_zero]
        exact ⟨h0, h1⟩
      refine ⟨hbd, fun s hs => ?_⟩
      rw [← de_dt_eq_spec]
      rw [Set.Icc_self, Set.mem_singleton_iff] at hs
      subst hs
      simpa using ((hasDerivAt_id (0 : ℝ)).mul_const (de_dt e₀ β c)).const_add e₀
    obtain ⟨t', ht', ⟨-, hno⟩ | ⟨e, he, h⟩⟩ := exact_getElem hx
    · rw [hi] at ht'
      injection ht' with ht'
      rw [hd, ← ht'] at hno
      exact absurd ⟨_, hline⟩ hno
    · rw [hi] at ht'
      injection ht' with ht'
      rw [hd, ← ht', sub_self] at h
      rw [hx, h, he.2.choose_spec.choose_spec.2.2.2.1]

end Legwork.evol
