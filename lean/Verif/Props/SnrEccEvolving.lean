import Verif.Lemmas.SnrEccEvolving
import Verif.Lemmas.Psd
import Verif.Lemmas.ExactOdeint
import Verif.Props.SnrCircEvolving

/-!
# Evolving eccentric signal-to-noise ratios: C30 (evolving), C65
-/

namespace Legwork.Props

open Real Legwork.utils Legwork.strain Legwork.snr Legwork.evol Legwork.Spec

private lemma linspace_mem' {t x : ℝ} {n : ℕ} (h : x ∈ np.linspace t n) : ∃ s : ℝ, 0 ≤ s ∧ s ≤ 1 ∧ x = s * t := by
  unfold np.linspace at h
  obtain ⟨k, hk, rfl⟩ := List.mem_map.1 h
  rw [List.mem_range] at hk
  rcases Nat.lt_or_ge n 2 with h2 | h2
  · have : k = 0 := by omega
    exact ⟨0, le_rfl, zero_le_one, by simp [this]⟩
  · have hn : (0 : ℝ) < (n : ℝ) - 1 := by
      have : (2 : ℝ) ≤ n := by exact_mod_cast h2
      linarith
    refine ⟨k / ((n : ℝ) - 1), by positivity, ?_, by field_simp⟩
    rw [div_le_one hn]
    have : ((k + 1 : ℕ) : ℝ) ≤ n := by exact_mod_cast hk
    push_cast at this
    linarith

private lemma linspace_head (t : ℝ) {n : ℕ} (hn : n ≠ 0) : ∃ ts, np.linspace t n = 0 :: ts := by
  obtain ⟨m, rfl⟩ := Nat.exists_eq_succ_of_ne_zero hn
  refine ⟨((List.range m).map Nat.succ).map fun i : ℕ => (i : ℝ) * (t / (((m + 1 : ℕ) : ℝ) - 1)), ?_⟩
  unfold np.linspace
  rw [Nat.succ_eq_add_one, List.range_succ_eq_map]
  simp

/-- Times within 0.1 yr of merger are all replaced by the initial time. -/
private lemma eccTimes_close {C : Ctx} {T : ℝ} {n : ℕ} (hn : n ≠ 0) (hT : T ≤ 0.1 * psd.yr) (ht : 0 ≤ C.t_obs) :
    ∀ t ∈ eccTimes C T n, t = 0 := by
  unfold eccTimes
  have hmin : min (T - 0.1 * psd.yr) C.t_obs = T - 0.1 * psd.yr := min_eq_left (by linarith)
  rw [hmin]
  obtain ⟨ts, hts⟩ := linspace_head (T - 0.1 * psd.yr) hn
  rw [hts, clamp_row_cons]
  have hclose : ∀ t ∈ ts, T - 0.1 * psd.yr ≤ t := by
    intro t htm
    obtain ⟨s, h0, h1, rfl⟩ := linspace_mem' (show t ∈ np.linspace (T - 0.1 * psd.yr) n by rw [hts]; simp [htm])
    nlinarith
  intro t htm
  rcases List.mem_cons.1 htm with rfl | htm
  · rfl
  · obtain ⟨x, hx, rfl⟩ := List.mem_map.1 htm
    rw [if_pos (hclose x hx)]
    have hg := rowMax_isGreatest 0 (ts.map fun t => if T - 0.1 * psd.yr ≤ t then -1 * Gyr else t)
    apply le_antisymm
    · rcases hg.1 with h | h
      · exact h.le
      · obtain ⟨y, hy, e⟩ := List.mem_map.1 h
        rw [← e, if_pos (hclose y hy)]
        unfold Gyr; norm_num
    · exact hg.2 (Or.inl rfl)

private lemma eccTimes_sorted {C : Ctx} {T : ℝ} {n : ℕ} (hn : n ≠ 0) (ht : 0 ≤ C.t_obs) :
    (eccTimes C T n).Pairwise (· ≤ ·) := by
  rcases le_or_gt T (0.1 * psd.yr) with hT | hT
  · have := eccTimes_close hn hT ht
    apply List.pairwise_of_forall_mem_list
    intro x hx y hy
    rw [this x hx, this y hy]
  · unfold eccTimes
    apply Legwork.MergerClamp.sorted (limit := T - 0.1 * psd.yr)
    · apply clamp_row_spec
      intro z hz
      obtain ⟨ts, hts⟩ := linspace_head (min (T - 0.1 * psd.yr) C.t_obs) hn
      rw [hts] at hz
      simp at hz
      rw [← hz]
      unfold Gyr; norm_num
    · have h0 : 0 ≤ min (T - 0.1 * psd.yr) C.t_obs := le_min (by linarith) ht
      rcases h0.eq_or_lt with h0 | h0
      · rw [← h0]
        apply List.pairwise_of_forall_mem_list
        intro x hx y hy
        obtain ⟨r, -, -, rfl⟩ := linspace_mem' hx
        obtain ⟨r', -, -, rfl⟩ := linspace_mem' hy
        simp
      · exact (linspace_mono h0 n).imp le_of_lt

theorem eccTimes_head {C : Ctx} {T : ℝ} {n : ℕ} (hn : n ≠ 0) : (eccTimes C T n)[0]? = some 0 := by
  obtain ⟨ts, hts⟩ := linspace_head (min (T - 0.1 * psd.yr) C.t_obs) hn
  unfold eccTimes
  rw [hts, clamp_row_cons]
  rfl

/-- The evolution never passes through exactly 100 Hz (the code's marker for a merged binary) at a positive
eccentricity. -/
def Avoids100 (C : Ctx) (odeint : Odeint) (srcs : List EvolSrc) (T : Fin srcs.length → ℝ) (n : ℕ) : Prop :=
  ∀ es fs : Fin srcs.length → List ℝ,
    evol_ecc C.K odeint (fun i => srcs[i].ecc) (some (.array fun i => min (T i - 0.1 * psd.yr) C.t_obs)) n none none
      (some fun i => srcs[i].m_1) (some fun i => srcs[i].m_2) none (some fun i => srcs[i].f_orb_i) ["ecc", "f_orb"]
      1 [] true false (0.1 * psd.yr) (some T) = .ok (.many [es, fs]) →
    ∀ i (j : ℕ) e, (es i)[j]? = some e → (fs i)[j]? = some 100 → e = 0

private lemma eccFreq_eq (K : Consts) {s : EvolSrc} {x : ℝ} (hs : EvolPhys s) (h0 : 0 < s.ecc) (h1 : s.ecc < 1)
    (hx0 : 0 < x) (hx1 : x < 1) (h : eccFreq K s x ≠ 100) :
    eccFreq K s x = get_f_orb_from_a K (get_a_from_ecc x (c_0 (get_a_from_f_orb K s.f_orb_i s.m_1 s.m_2) s.ecc))
      s.m_1 s.m_2 := by
  obtain ⟨h1', h2, h3, h4⟩ := hs
  have ha := get_a_from_f_orb_pos K h3 h1' h2
  have hp := get_a_from_ecc_pos hx0 hx1 (c_0_pos h0 h1 ha)
  refine f_or_merged_of_ne K hp.ne' ?_
  intro e
  apply h
  unfold eccFreq
  rw [e]
  unfold f_or_merged
  simp only
  rw [ite_self, if_pos rfl]
  norm_num

private lemma eccFreq_pos (K : Consts) {s : EvolSrc} {x : ℝ} (hs : EvolPhys s) (h0 : 0 < s.ecc) (h1 : s.ecc < 1)
    (hx0 : 0 < x) (hx1 : x < 1) (h : eccFreq K s x ≠ 100) : 0 < eccFreq K s x := by
  rw [eccFreq_eq K hs h0 h1 hx0 hx1 h]
  obtain ⟨h1', h2, h3, h4⟩ := hs
  exact get_f_orb_from_a_pos K (get_a_from_ecc_pos hx0 hx1 (c_0_pos h0 h1 (get_a_from_f_orb_pos K h3 h1' h2))) h1' h2

private lemma eccFreq_anti (K : Consts) {s : EvolSrc} {x y : ℝ} (hs : EvolPhys s) (h0 : 0 < s.ecc) (h1 : s.ecc < 1)
    (hx0 : 0 < x) (hxy : x ≤ y) (hy1 : y < 1) (hx : eccFreq K s x ≠ 100) (hy : eccFreq K s y ≠ 100) :
    eccFreq K s y ≤ eccFreq K s x := by
  rcases hxy.eq_or_lt with rfl | hlt
  · exact le_rfl
  rw [eccFreq_eq K hs h0 h1 hx0 (hlt.trans hy1) hx, eccFreq_eq K hs h0 h1 (hx0.trans hlt) hy1 hy]
  obtain ⟨h1', h2, h3, h4⟩ := hs
  have hc := c_0_pos h0 h1 (get_a_from_f_orb_pos K h3 h1' h2)
  have hpx := get_a_from_ecc_pos hx0 (hlt.trans hy1) hc
  have hmono := C02_get_a_strictMono hc hx0.le hlt hy1
  unfold get_f_orb_from_a
  have hG := K.G_pos
  apply div_le_div_of_nonneg_right _ (by positivity)
  apply rpow_le_rpow (by have := hpx.trans hmono; positivity) _ (by norm_num)
  apply div_le_div_of_nonneg_left (by positivity) (by positivity)
  exact pow_le_pow_left₀ hpx.le hmono.le 3

private lemma eccFreq_zero (K : Consts) (s : EvolSrc) : eccFreq K s 0 = 100 := by
  unfold eccFreq get_a_from_ecc
  rw [zero_rpow (by norm_num)]
  simp only [mul_zero, zero_div, zero_mul]
  exact f_or_merged_zero K _ _ _

/-- Shape of the frequencies after removal of the merger marker. -/
private lemma drop_merged_ecc_eq {E : List ℝ} {g : ℝ → ℝ} (h0 : g 0 = 100) (h100 : ∀ x ∈ E, x ≠ 0 → g x ≠ 100)
    {e : ℝ} (he : E[0]? = some e) (he0 : e ≠ 0) :
    ∃ M, drop_merged_ecc E (E.map g) = E.map (fun x => if x = 0 then M else g x) ∧
      (∀ x ∈ E, x ≠ 0 → g x ≤ M) ∧ (M = -1 ∨ ∃ x ∈ E, x ≠ 0 ∧ M = g x) := by
  classical
  rcases E with _ | ⟨e', es⟩
  · simp at he
  · simp at he
    subst he
    have hz : ∀ (l : List ℝ), (∀ x ∈ l, x ∈ e' :: es) → l.zipWith (fun e f => if e = 0 ∧ f = 1e2 then -1 else f) (l.map g)
        = l.map fun x => if x = 0 then -1 else g x := by
      intro l hl
      induction l with
      | nil => rfl
      | cons x xs ih =>
        simp only [List.map_cons, List.zipWith_cons_cons]
        rw [ih fun y hy => hl y (by simp [hy])]
        congr 1
        by_cases hx : x = 0
        · rw [if_pos hx, if_pos ⟨hx, by rw [hx, h0]; norm_num⟩]
        · rw [if_neg hx, if_neg (fun h => hx h.1)]
    refine ⟨Legwork.np.rowMax (g e') (es.map fun x => if x = 0 then -1 else g x), ?_, ?_, ?_⟩
    · unfold drop_merged_ecc
      rw [hz _ (fun x hx => hx)]
      simp only [List.map_cons, if_neg he0]
      rw [List.map_map, if_neg]
      · congr 1
        apply List.map_congr_left
        intro x hx
        simp only [Function.comp]
        by_cases hx0 : x = 0
        · rw [if_pos hx0, if_pos (by rw [hx0, h0]; norm_num)]
        · rw [if_neg hx0, if_neg (by
            have := h100 x (by simp [hx]) hx0
            norm_num; exact this)]
      · have := h100 e' (by simp) he0
        norm_num; exact this
    · intro x hx hx0
      have hg := rowMax_isGreatest (g e') (es.map fun x => if x = 0 then -1 else g x)
      rcases List.mem_cons.1 hx with rfl | hx
      · exact hg.2 (Or.inl rfl)
      · exact hg.2 (Or.inr (List.mem_map.2 ⟨x, hx, by rw [if_neg hx0]⟩))
    · have hg := rowMax_isGreatest (g e') (es.map fun x => if x = 0 then -1 else g x)
      rcases hg.1 with h | h
      · exact Or.inr ⟨e', by simp, he0, h⟩
      · obtain ⟨x, hx, e⟩ := List.mem_map.1 h
        by_cases hx0 : x = 0
        · rw [if_pos hx0] at e; exact Or.inl e.symm
        · rw [if_neg hx0] at e; exact Or.inr ⟨x, by simp [hx], hx0, e.symm⟩

section

variable {C : Ctx} {odeint : Odeint} (ho : DecreasingIntegrator odeint) {s : EvolSrc} (hs : EvolPhys s)
  (h0 : 0 < s.ecc) (h1 : s.ecc < 1) {T : ℝ} {n : ℕ} (hn : n ≠ 0) (ht : 0 ≤ C.t_obs)

include hs h0 h1

private lemma petersRate : PetersRate fun e => de_dt e (utils.beta C.K s.m_1 s.m_2)
    (c_0 (get_a_from_f_orb C.K s.f_orb_i s.m_1 s.m_2) s.ecc) :=
  ⟨_, _, beta_pos C.K hs.1 hs.2.1, c_0_pos h0 h1 (get_a_from_f_orb_pos C.K hs.2.2.1 hs.1 hs.2.1), rfl⟩

include ho hn ht

private lemma eccRow_head : (eccRow C odeint s T n)[0]? = some s.ecc := by
  unfold eccRow
  rw [List.getElem?_map, ho.start _ _ _ (petersRate hs h0 h1) h0 h1 (eccTimes_sorted hn ht) 0 0 (eccTimes_head hn) (eccTimes_head hn)]
  rfl

private lemma eccRow_mem {x : ℝ} (hx : x ∈ eccRow C odeint s T n) : x = 0 ∨ 0 < x ∧ x < 1 := by
  unfold eccRow at hx
  obtain ⟨y, hy, rfl⟩ := List.mem_map.1 hx
  cases y with
  | none => exact Or.inl rfl
  | some y => exact Or.inr (ho.range _ _ _ (petersRate hs h0 h1) h0 h1 (eccTimes_sorted hn ht) y hy)

private lemma eccRow_order {i j : ℕ} {x y : ℝ} (hij : i ≤ j) (hx : (eccRow C odeint s T n)[i]? = some x)
    (hy : (eccRow C odeint s T n)[j]? = some y) (hy0 : y ≠ 0) : x ≠ 0 ∧ y ≤ x := by
  unfold eccRow at hx hy
  rw [List.getElem?_map] at hx hy
  obtain ⟨a, ha, rfl⟩ := Option.map_eq_some_iff.1 hx
  obtain ⟨b, hb, rfl⟩ := Option.map_eq_some_iff.1 hy
  cases b with
  | none => exact absurd rfl hy0
  | some b =>
    cases a with
    | none => exact absurd (ho.failed _ _ _ (petersRate hs h0 h1) h0 h1 (eccTimes_sorted hn ht) i j _ hij ha hb) (by simp)
    | some a =>
      have hr := ho.range _ _ _ (petersRate hs h0 h1) h0 h1 (eccTimes_sorted hn ht) a (List.mem_of_getElem? ha)
      exact ⟨hr.1.ne', ho.decreasing _ _ _ (petersRate hs h0 h1) h0 h1 (eccTimes_sorted hn ht) i j a b hij ha hb⟩

theorem eccFreqs_facts (h100 : ∀ x ∈ eccRow C odeint s T n, x ≠ 0 → eccFreq C.K s x ≠ 100) :
    (∀ f ∈ eccFreqs C odeint s T n, 0 < f) ∧ (eccFreqs C odeint s T n).Pairwise (· ≤ ·) := by
  obtain ⟨M, hM, hle, hor⟩ := drop_merged_ecc_eq (eccFreq_zero C.K s) h100
    (eccRow_head (C := C) (T := T) ho hs h0 h1 hn ht) h0.ne'
  have hfp : ∀ x ∈ eccRow C odeint s T n, x ≠ 0 → 0 < eccFreq C.K s x := by
    intro x hx hx0
    obtain ⟨hp, hlt⟩ := (eccRow_mem ho hs h0 h1 hn ht hx).resolve_left hx0
    exact eccFreq_pos C.K hs h0 h1 hp hlt (h100 x hx hx0)
  have hMp : 0 < M := lt_of_lt_of_le (hfp s.ecc (List.mem_of_getElem? (eccRow_head ho hs h0 h1 hn ht)) h0.ne')
    (hle s.ecc (List.mem_of_getElem? (eccRow_head ho hs h0 h1 hn ht)) h0.ne')
  unfold eccFreqs
  rw [hM]
  constructor
  · intro f hf
    obtain ⟨x, hx, rfl⟩ := List.mem_map.1 hf
    split_ifs with hx0
    · exact hMp
    · exact hfp x hx hx0
  · rw [List.pairwise_map, List.pairwise_iff_getElem]
    intro i j hi hj hij
    have hxi : (eccRow C odeint s T n)[i]? = some ((eccRow C odeint s T n)[i]) := List.getElem?_eq_getElem hi
    have hxj : (eccRow C odeint s T n)[j]? = some ((eccRow C odeint s T n)[j]) := List.getElem?_eq_getElem hj
    have hmi := List.getElem_mem hi
    have hmj := List.getElem_mem hj
    generalize (eccRow C odeint s T n)[i] = x at *
    generalize (eccRow C odeint s T n)[j] = y at *
    by_cases hy0 : y = 0
    · rw [if_pos hy0]
      split_ifs with hx0
      · exact le_rfl
      · exact hle x hmi hx0
    · obtain ⟨hx0, hyx⟩ := eccRow_order ho hs h0 h1 hn ht hij.le hxi hxj hy0
      rw [if_neg hy0, if_neg hx0]
      exact eccFreq_anti C.K hs h0 h1 ((eccRow_mem ho hs h0 h1 hn ht hmj).resolve_left hy0).1 hyx
        ((eccRow_mem ho hs h0 h1 hn ht hmi).resolve_left hx0).2 (h100 y hmj hy0) (h100 x hmi hx0)

private lemma eccSnr2_nonneg (h100 : ∀ x ∈ eccRow C odeint s T n, x ≠ 0 → eccFreq C.K s x ≠ 100)
    {N : ℝ → WithTop ℝ} (hN : ∀ f, 0 < f → 0 < N f) {k : ℤ} (hk : 1 ≤ k) :
    0 ≤ eccSnr2 C odeint N s T n k := by
  have hkp : (0 : ℝ) < k := by exact_mod_cast (by omega : 0 < k)
  obtain ⟨hpos, hsort⟩ := eccFreqs_facts ho hs h0 h1 hn ht h100
  unfold eccSnr2
  apply trapezoid_nonneg
  · intro y hy
    obtain ⟨⟨f, e⟩, hfe, rfl⟩ := List.mem_map.1 hy
    have hf := hpos f (List.of_mem_zip hfe).1
    unfold eccW
    apply divNoise_nonneg (sq_nonneg _)
    have hNp := hN (k * f) (by positivity)
    simp only
    cases hNf : N (k * f) with
    | top => exact le_top
    | coe y =>
      rw [hNf] at hNp
      have hy : 0 < y := by exact_mod_cast hNp
      show ((0 : ℝ) : WithTop ℝ) ≤ (((k * f) ^ 2 * y : ℝ) : WithTop ℝ)
      exact_mod_cast (by positivity : 0 ≤ (k * f) ^ 2 * y)
  · rw [List.pairwise_map]
    exact hsort.imp fun h => mul_le_mul_of_nonneg_left h hkp.le

private lemma eccSnr2_close (hT : T ≤ 0.1 * psd.yr) (h100 : eccFreq C.K s s.ecc ≠ 100) (N : ℝ → WithTop ℝ) (k : ℤ) :
    eccSnr2 C odeint N s T n k = 0 := by
  have hall : ∀ x ∈ eccRow C odeint s T n, x = s.ecc := by
    intro x hx
    obtain ⟨i, hi⟩ := List.getElem?_of_mem hx
    unfold eccRow at hi
    rw [List.getElem?_map] at hi
    obtain ⟨y, hy, rfl⟩ := Option.map_eq_some_iff.1 hi
    have hlen : i < (eccTimes C T n).length := by
      rw [← ho.length _ _ _ (petersRate (C := C) hs h0 h1)]
      exact (List.getElem?_eq_some_iff.1 hy).1
    have hti : (eccTimes C T n)[i]? = some 0 := by
      rw [List.getElem?_eq_getElem hlen, eccTimes_close hn hT ht _ (List.getElem_mem hlen)]
    rw [ho.start _ _ _ (petersRate hs h0 h1) h0 h1 (eccTimes_sorted hn ht) i 0 (eccTimes_head hn) hti] at hy
    injection hy with hy
    rw [← hy]; rfl
  obtain ⟨M, hM, -, -⟩ := drop_merged_ecc_eq (eccFreq_zero C.K s) (E := eccRow C odeint s T n)
    (fun x hx _ => by rw [hall x hx]; exact h100) (eccRow_head (C := C) (T := T) ho hs h0 h1 hn ht) h0.ne'
  unfold eccSnr2 eccFreqs
  rw [hM]
  apply trapezoid_const (c := k * eccFreq C.K s s.ecc)
  intro x hx
  rw [List.map_map] at hx
  obtain ⟨e, he, rfl⟩ := List.mem_map.1 hx
  simp only [Function.comp, hall e he, if_neg h0.ne']

end

theorem avoids_row {C : Ctx} {odeint : Odeint} {srcs : List EvolSrc} {T : Fin srcs.length → ℝ} {n : ℕ} (hn : n ≠ 0)
    (h : Avoids100 C odeint srcs T n) (i : Fin srcs.length) :
    ∀ x ∈ eccRow C odeint srcs[i] (T i) n, x ≠ 0 → eccFreq C.K srcs[i] x ≠ 100 := by
  intro x hx hx0 e
  obtain ⟨j, hj⟩ := List.getElem?_of_mem hx
  have := h _ _ (evol_ecc_snr C odeint srcs hn 1 [] (by simp) T) i j x hj (by
    rw [List.getElem?_map, hj, Option.map_some, e])
  exact hx0 this

/-- **C65.** Take any integrator whose eccentricities decrease (and possibly fail from some time on), any merger
times (computed or supplied), any positive noise curve, any number of harmonics, steps and worker processes. If the
evolution avoids the code's 100 Hz marker, `snr_ecc_evolving` returns for every source a non-negative SNR, the root of
its summed `ret_snr2_by_harmonic`; and for a source within 0.1 yr of merger that SNR is exactly 0. -/
theorem C65_well_defined (C : Ctx) {odeint : Odeint} (ho : DecreasingIntegrator odeint) (srcs : List EvolSrc) (H : ℕ)
    {n : ℕ} (hn : 1 ≤ n) (ht : 0 ≤ C.t_obs) {N : ℝ → WithTop ℝ} (hN : Curve C N) (hs : ∀ s ∈ srcs, EvolPhys s)
    (he : ∀ s ∈ srcs, 0 < s.ecc ∧ s.ecc < 1) (np : ℕ) (order : List ℕ)
    (hall : np > 1 → ∀ i < srcs.length, i ∈ order) {T : Fin srcs.length → ℝ} {t_merge : Option (List ℝ)}
    (hT : t_merge = some (List.ofFn T) ∨ t_merge = none ∧ get_t_merge_ecc C.K (fun i => srcs[i].ecc) none
      (some fun i => srcs[i].f_orb_i) none (some fun i => srcs[i].m_1) (some fun i => srcs[i].m_2) 0.15 (1 - 1e-4) true
      = .ok T) (h100 : Avoids100 C odeint srcs T n) :
    ∃ snr rows, snr_ecc_evolving C odeint srcs H n t_merge np order false false = .ok (.total snr) ∧
      snr_ecc_evolving C odeint srcs H n t_merge np order false true = .ok (.byHarmonic rows) ∧
      snr.length = srcs.length ∧ rows.length = srcs.length ∧
      ∀ (i : Fin srcs.length) x row, snr[i]? = some x → rows[i]? = some row →
        row.length = H ∧ (∀ y ∈ row, 0 ≤ y) ∧ (∃ v, x = some v ∧ 0 ≤ v ∧ v ^ 2 = row.sum) ∧
        (T i ≤ 0.1 * psd.yr → x = some 0) := by
  have hTT : merge_times_ecc C srcs t_merge = .ok T := by
    rcases hT with rfl | ⟨rfl, h⟩
    · simp [merge_times_ecc, pure, Except.pure]
    · exact h
  have hn' : n ≠ 0 := by omega
  refine ⟨_, _, by rw [snr_ecc_evolving_eq C odeint srcs H hn' t_merge np order hall false false hN.ok hTT]; rfl,
    by rw [snr_ecc_evolving_eq C odeint srcs H hn' t_merge np order hall false true hN.ok hTT]; rfl, by simp, by simp, ?_⟩
  intro i x row hx hr
  simp only [Fin.getElem?_fin, List.getElem?_ofFn, List.getElem?_map, Fin.is_lt, dif_pos, Fin.eta, Option.map_some,
    Option.some.injEq] at hx hr
  have hsi : EvolPhys srcs[i] := hs _ (List.getElem_mem _)
  obtain ⟨h0, h1⟩ := he srcs[i] (List.getElem_mem _)
  have h100i := avoids_row hn' h100 i
  have hnn : ∀ y ∈ row, 0 ≤ y := by
    intro y hy
    rw [← hr] at hy
    obtain ⟨k, hk, rfl⟩ := List.mem_map.1 hy
    exact eccSnr2_nonneg ho hsi h0 h1 hn' ht h100i hN.pos (mem_harmonics.1 hk).1
  have hsum : 0 ≤ row.sum := List.sum_nonneg hnn
  rw [hr] at hx
  rw [sqrt?_nonneg hsum] at hx
  refine ⟨by rw [← hr]; simp [harmonics_length], hnn, ⟨_, hx.symm, sqrt_nonneg _, sq_sqrt hsum⟩, ?_⟩
  intro hclose
  have hz : row.sum = 0 := by
    apply List.sum_eq_zero
    intro y hy
    rw [← hr] at hy
    obtain ⟨k, hk, rfl⟩ := List.mem_map.1 hy
    exact eccSnr2_close ho hsi h0 h1 hn' ht hclose
      (h100i _ (List.mem_of_getElem? (eccRow_head ho hsi h0 h1 hn' ht)) h0.ne') N k
  rw [← hx, hz, sqrt_zero]

/-- An integrator without errors is one in the sense of C65. -/
example : DecreasingIntegrator exactOdeint := exactOdeint_decreasing

/-- Sources whose eccentricity does not change noticeably avoid the marker unless they start at 100 Hz: the
hypothesis of C65 on, e.g., a list of a 1 mHz and a 20 mHz binary with solar-scale separations. -/
theorem constant_avoids (C : Ctx) (srcs : List EvolSrc) (T : Fin srcs.length → ℝ) {n : ℕ} (hn : 1 ≤ n)
    (hs : ∀ s ∈ srcs, EvolPhys s) (he : ∀ s ∈ srcs, 0 < s.ecc ∧ s.ecc < 1) (hf : ∀ s ∈ srcs, s.f_orb_i < 100)
    (ha : ∀ s ∈ srcs, get_a_from_f_orb C.K s.f_orb_i s.m_1 s.m_2 ≠ 1e-30 * AU) :
    Avoids100 C (fun _ e₀ ts => ts.map fun _ => some e₀) srcs T n := by
  intro es fs h i j e hes hfs
  have hh := evol_ecc_snr C (fun _ e₀ ts => ts.map fun _ => some e₀) srcs (by omega : n ≠ 0) 1 [] (by simp) T
  unfold column at hh
  rw [hh] at h
  simp only [Except.ok.injEq, EvolOut.many.injEq, List.cons.injEq, and_true] at h
  obtain ⟨rfl, rfl⟩ := h
  exfalso
  simp only [List.getElem?_map, hes, Option.map_some, Option.some.injEq] at hfs
  have hmem := List.mem_of_getElem? hes
  have hee : e = srcs[i].ecc := by
    unfold eccRow at hmem
    simp only [List.map_map, List.mem_map, Function.comp] at hmem
    obtain ⟨_, -, rfl⟩ := hmem
    rfl
  obtain ⟨h0, h1⟩ := he srcs[i] (List.getElem_mem _)
  obtain ⟨h1', h2, h3, h4⟩ := hs srcs[i] (List.getElem_mem _)
  have hlt := hf srcs[i] (List.getElem_mem _)
  have hne := ha srcs[i] (List.getElem_mem _)
  unfold eccFreq at hfs
  rw [hee, C02_a_roundtrip h0 h1, f_or_merged_of_ne C.K (get_a_from_f_orb_pos C.K h3 h1' h2).ne' hne,
    C01_f_roundtrip C.K h3 h1' h2] at hfs
  linarith

/-- **C30** (evolving). The same for `snr_ecc_evolving`: the reported harmonic is in range, maximal, and the lowest
maximal one. -/
theorem C30_evolving (C : Ctx) (odeint : Odeint) (srcs : List EvolSrc) (H n : ℕ) (t_merge : Option (List ℝ)) (np : ℕ)
    (order : List ℕ) (hn : 1 ≤ n) {N : ℝ → WithTop ℝ} (hN : ∀ f, noise C f = .ok (N f))
    (hall : np > 1 → ∀ i < srcs.length, i ∈ order) {snr : List (Option ℝ)} {ks : List ℕ}
    (h : snr_ecc_evolving C odeint srcs H n t_merge np order true false = .ok (.withMax snr ks)) :
    ∃ rows, snr_ecc_evolving C odeint srcs H n t_merge np order false true = .ok (.byHarmonic rows) ∧
      ks.length = srcs.length ∧
      Pointwise (fun k row => 1 ≤ k ∧ k ≤ H ∧ row.length = H ∧ ∃ v, row[k - 1]? = some v ∧
        ∀ j w, row[j - 1]? = some w → 1 ≤ j → w ≤ v ∧ (j < k → w < v)) ks rows := by
  rcases hT : merge_times_ecc C srcs t_merge with er | T
  · unfold snr_ecc_evolving at h
    simp only [hT, bind, Except.bind] at h
    cases h
  · have hn' : n ≠ 0 := by omega
    rw [snr_ecc_evolving_eq C odeint srcs H hn' t_merge np order hall true false hN hT] at h
    rw [snr_ecc_evolving_eq C odeint srcs H hn' t_merge np order hall false true hN hT]
    simp only [finish, Bool.false_eq_true, if_false, if_true] at h
    split at h
    · cases h
    · rename_i hne
      simp only [pure, Except.pure, Except.ok.injEq, SnrOut.withMax.injEq] at h
      refine ⟨_, rfl, by rw [← h.2]; simp, ?_⟩
      rw [← h.2]
      unfold Pointwise
      rw [List.forall₂_map_left_iff, List.forall₂_same]
      intro row hr
      have hl : row.length = H := by
        obtain ⟨i, rfl⟩ := List.mem_ofFn.1 hr
        simp [harmonics_length]
      have hH : row ≠ [] := by
        intro e
        rw [e] at hl
        exact hne ⟨hl.symm, List.ne_nil_of_mem hr⟩
      obtain ⟨v, hv, hmax⟩ := argmax_spec row hH
      have hlt : argmax row < row.length := (List.getElem?_eq_some_iff.1 hv).1
      refine ⟨by omega, by omega, hl, v, by simpa using hv, ?_⟩
      intro j w hw hj
      exact ⟨(hmax _ w hw).1, fun hlt => (hmax _ w hw).2 (by omega)⟩

end Legwork.Props
