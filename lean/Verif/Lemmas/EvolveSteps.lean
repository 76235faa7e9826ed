import Verif.Lemmas.Sizes

/-!
# Evolving in steps
-/

namespace Legwork.source

open Legwork.Spec Legwork.evol Legwork.utils Legwork.Props
open PyM hiding bind

variable {W : World} {c : Cols} {T T₁ T₂ : ℕ → ℝ} {h : Heap} {s i : ℕ} {r : One}

theorem tMerge1_circ {K : Consts} (he : r.ecc = 0) :
    tMerge1 K true r = get_a_from_f_orb K r.f_orb r.m_1 r.m_2 ^ 4 / (4 * beta K r.m_1 r.m_2) := by
  have := mergerTimeOf_iff (K := K) (ex := true) (r := { r with merged := false }) (t := tMerge1 K true r)
  have h2 := this.2 rfl
  simp only [MergerTimeOf, Bool.false_eq_true, if_false, he] at h2
  unfold get_t_merge_ecc at h2
  simp only [check_mass_freq_input, bind, Except.bind, pure, Except.pure, forall_const, if_true] at h2
  rw [get_t_merge_circ_some] at h2
  exact (congrFun (Except.ok.inj h2) ()).symm

theorem tmOf_fresh {K : Consts} (hf : ∀ t, (rowAt c i).t_merge = some t → MergerTimeOf K true (rowAt c i) t) :
    tmOf K c i = if (rowAt c i).merged then 0 else tMerge1 K true (rowAt c i) := by
  unfold tmOf
  rcases ht : c.t_merge with _ | ts
  · rfl
  · exact mergerTimeOf_iff.1 (hf (ts.getD i 0) (by simp [rowAt, ht]))

theorem tmOf_evolved (hi : i < c.n_sources) :
    tmOf W.K (c.evolved (evolvedOf W c T)) i = max 0 (tmOf W.K c i - T i) := by
  conv_lhs => unfold tmOf
  simp only [Cols.evolved, evolvedOf]
  exact getD_range hi _ _

theorem rowAt_evolved (hi : i < c.n_sources) : rowAt (c.evolved (evolvedOf W c T)) i = { rowAt c i with
    ecc := eccAfter W (T i) (tmOf W.K c i) (rowAt c i), f_orb := freqAfter W (T i) (tmOf W.K c i) (rowAt c i),
    merged := @decide (tmOf W.K c i ≤ T i) (Classical.propDecidable _), t_merge := some (max 0 (tmOf W.K c i - T i)) } := by
  unfold rowAt Cols.evolved evolvedOf
  simp only [Option.map_some]
  rw [getD_range hi, getD_range hi, getD_range hi, getD_range hi]
  rfl

/-- The separation of a circular source that has not merged, after a time. -/
theorem circLast_sep {K : Consts} (h1 : 0 < r.m_1) (h2 : 0 < r.m_2) {t : ℝ}
    (ht : t < get_a_from_f_orb K r.f_orb r.m_1 r.m_2 ^ 4 / (4 * beta K r.m_1 r.m_2)) (hm : ¬ AtMarker K r t) :
    0 < circLast K r t ∧ get_a_from_f_orb K (circLast K r t) r.m_1 r.m_2 =
      a_circ (get_a_from_f_orb K r.f_orb r.m_1 r.m_2) (beta K r.m_1 r.m_2) t := by
  have hb := beta_pos K h1 h2
  rw [lt_div_iff₀ (by positivity)] at ht
  have hlt : 4 * beta K r.m_1 r.m_2 * t < get_a_from_f_orb K r.f_orb r.m_1 r.m_2 ^ 4 := by linarith
  have hpos := a_circ_pos hlt
  have hne : a_circ (get_a_from_f_orb K r.f_orb r.m_1 r.m_2) (beta K r.m_1 r.m_2) t ≠ 1e-30 * AU := by
    intro he
    apply hm
    unfold AtMarker
    rw [← he, a_circ_pow_four, max_eq_right (by linarith)]
  unfold circLast
  rw [f_or_merged_of_ne K hpos.ne' hne]
  exact ⟨get_f_orb_from_a_pos K hpos h1 h2, C01_a_roundtrip K hpos h1 h2⟩

/-- Evolving one circular source twice. -/
theorem row_steps (hc : CircularSource W.K (rowAt c i)) (hi : i < c.n_sources) (h1 : 0 ≤ T₁ i) (h2 : 0 ≤ T₂ i)
    (hm : (rowAt c i).merged = false → ¬ AtMarker W.K (rowAt c i) (T₁ i)) :
    rowAt ((c.evolved (evolvedOf W c T₁)).evolved (evolvedOf W (c.evolved (evolvedOf W c T₁)) T₂)) i =
      rowAt (c.evolved (evolvedOf W c fun i => T₁ i + T₂ i)) i := by
  have hi' : i < (c.evolved (evolvedOf W c T₁)).n_sources := hi
  rw [rowAt_evolved hi', rowAt_evolved hi, tmOf_evolved hi, rowAt_evolved hi]
  have htm := tmOf_fresh hc.fresh
  have hb := beta_pos W.K hc.m_1 hc.m_2
  have hle0 : 0 ≤ tmOf W.K c i := by
    rw [htm]
    split_ifs
    · rfl
    · rw [tMerge1_circ hc.ecc]
      positivity
  have hmax : max 0 (max 0 (tmOf W.K c i - T₁ i) - T₂ i) = max 0 (tmOf W.K c i - (T₁ i + T₂ i)) := by
    rcases le_total (tmOf W.K c i - T₁ i) 0 with h | h
    · rw [max_eq_left h, max_eq_left (by linarith), max_eq_left (by linarith)]
    · rw [max_eq_right h]
      congr 1
      ring
  have hiff : (max 0 (tmOf W.K c i - T₁ i) ≤ T₂ i) ↔ tmOf W.K c i ≤ T₁ i + T₂ i := by
    rw [max_le_iff]
    constructor
    · rintro ⟨-, h⟩; linarith
    · intro h; exact ⟨h2, by linarith⟩
  have hfreq : ∀ {tm : ℝ}, tm = tmOf W.K c i → freqAfter W (T₂ i) (max 0 (tm - T₁ i)) { rowAt c i with
      ecc := eccAfter W (T₁ i) tm (rowAt c i), f_orb := freqAfter W (T₁ i) tm (rowAt c i),
      merged := @decide (tm ≤ T₁ i) (Classical.propDecidable _), t_merge := some (max 0 (tm - T₁ i)) } =
      freqAfter W (T₁ i + T₂ i) tm (rowAt c i) := by
    rintro tm rfl
    unfold freqAfter
    by_cases hle : tmOf W.K c i ≤ T₁ i + T₂ i
    · rw [if_pos (hiff.2 hle), if_pos hle]
    · rw [if_neg (fun h => hle (hiff.1 h)), if_neg hle]
      have hlt : T₁ i < tmOf W.K c i := by linarith
      simp only [eccAfter, if_neg (not_le.2 hlt), hc.ecc, if_true]
      rw [htm] at hlt
      split_ifs at hlt with hmg
      · linarith
      rw [tMerge1_circ hc.ecc] at hlt
      obtain ⟨hp, hs⟩ := circLast_sep hc.m_1 hc.m_2 hlt (hm (by simpa using hmg))
      change f_or_merged W.K AU (a_circ (get_a_from_f_orb W.K (circLast W.K (rowAt c i) (T₁ i))
        (rowAt c i).m_1 (rowAt c i).m_2) (beta W.K (rowAt c i).m_1 (rowAt c i).m_2) (T₂ i)) (rowAt c i).m_1
        (rowAt c i).m_2 = _
      rw [hs, a_circ_comp hb h2]
      rfl
  have hecc : ∀ (r : One) (tm t : ℝ), r.ecc = 0 → eccAfter W t tm r = 0 := by
    intro r tm t hr
    unfold eccAfter
    rw [hr]
    simp
  have hd : ∀ {p q : Prop}, (p ↔ q) → @decide p (Classical.propDecidable _) = @decide q (Classical.propDecidable _) := by
    intro p q hpq
    rw [decide_eq_decide]
    exact hpq
  rw [hmax, hfreq rfl, hd hiff, hecc _ _ (T₁ i + T₂ i) hc.ecc]
  rw [hecc _ (max 0 (tmOf W.K c i - T₁ i))]
  exact hecc _ _ _ hc.ecc

/-- A circular source stays one. -/
theorem circular_evolved (hc : CircularSource W.K (rowAt c i)) (hi : i < c.n_sources) (h0 : 0 ≤ T i)
    (hm : (rowAt c i).merged = false → ¬ AtMarker W.K (rowAt c i) (T i)) : CircularSource W.K (rowAt (c.evolved (evolvedOf W c T)) i) := by
  have htm := tmOf_fresh hc.fresh
  have hb := beta_pos W.K hc.m_1 hc.m_2
  have hecc : eccAfter W (T i) (tmOf W.K c i) (rowAt c i) = 0 := by
    unfold eccAfter
    simp [hc.ecc]
  rw [rowAt_evolved hi, hecc]
  by_cases hle : tmOf W.K c i ≤ T i
  · refine ⟨hc.m_1, hc.m_2, ?_, rfl, ?_⟩
    · simp only [freqAfter, if_pos hle]
      norm_num
    · rintro t ⟨⟩
      rw [mergerTimeOf_iff]
      simp [hle]
  · have hlt : T i < tmOf W.K c i := not_le.1 hle
    by_cases hmg : (rowAt c i).merged
    · rw [htm, if_pos hmg] at hlt hle
      exact absurd h0 hle
    rw [htm, if_neg hmg, tMerge1_circ hc.ecc] at hlt
    obtain ⟨hp, hs⟩ := circLast_sep hc.m_1 hc.m_2 hlt (hm (by simpa using hmg))
    refine ⟨hc.m_1, hc.m_2, ?_, rfl, ?_⟩
    · simpa [freqAfter, if_neg hle, hc.ecc] using hp
    · rintro t ⟨⟩
      rw [mergerTimeOf_iff]
      simp only [hle, decide_false, Bool.false_eq_true, if_false]
      rw [tMerge1_circ rfl]
      simp only [freqAfter, if_neg hle, hc.ecc, if_true]
      rw [hs, a_circ_pow_four, htm, if_neg hmg, tMerge1_circ hc.ecc]
      have h4 : 0 < 4 * beta W.K (rowAt c i).m_1 (rowAt c i).m_2 := by positivity
      have hlt' := hlt
      rw [lt_div_iff₀ h4] at hlt'
      rw [max_eq_right (by linarith), max_eq_right (by linarith)]
      field_simp

theorem marker_evolved (hc : CircularSource W.K (rowAt c i)) (hi : i < c.n_sources) (h0 : 0 ≤ T i)
    (hm : (rowAt c i).merged = false → ¬ AtMarker W.K (rowAt c i) (T i)) {t : ℝ}
    (hmg : (rowAt (c.evolved (evolvedOf W c T)) i).merged = false) :
    (rowAt c i).merged = false ∧
    (AtMarker W.K (rowAt (c.evolved (evolvedOf W c T)) i) t ↔ AtMarker W.K (rowAt c i) (T i + t)) := by
  have htm := tmOf_fresh hc.fresh
  rw [rowAt_evolved hi] at hmg ⊢
  simp only [decide_eq_false_iff_not] at hmg
  have hlt : T i < tmOf W.K c i := not_le.1 hmg
  rw [htm] at hlt
  split_ifs at hlt with hmg'
  · exact absurd h0 (not_le.2 hlt)
  rw [tMerge1_circ hc.ecc] at hlt
  have hmf : (rowAt c i).merged = false := by simpa using hmg'
  obtain ⟨hp, hs⟩ := circLast_sep hc.m_1 hc.m_2 hlt (hm hmf)
  refine ⟨hmf, ?_⟩
  unfold AtMarker
  simp only [freqAfter, if_neg hmg, hc.ecc, if_true]
  rw [hs, a_circ_pow_four]
  have hb := beta_pos W.K hc.m_1 hc.m_2
  have h4 : 0 < 4 * beta W.K (rowAt c i).m_1 (rowAt c i).m_2 := by positivity
  rw [lt_div_iff₀ h4] at hlt
  rw [max_eq_right (by linarith), mul_add]
  constructor <;> intro h <;> linarith

theorem cols_ext_rows {c c' : Cols} (hr : Rect c) (hr' : Rect c') (h0 : c'.m_1 = c.m_1) (h1 : c'.m_2 = c.m_2)
    (h2 : c'.dist = c.dist) (h3 : c'.weights = c.weights) (h4 : c'.position = c.position)
    (h5 : c'.inclination = c.inclination) (h6 : c'.polarisation = c.polarisation)
    (h7 : c'.t_merge.isSome ∧ c.t_merge.isSome) (h : ∀ i < c.n_sources, rowAt c' i = rowAt c i) : c' = c := by
  have hn : c'.n_sources = c.n_sources := by unfold Cols.n_sources; rw [h0]
  have key : ∀ {α : Type} {xs ys : List α} (d : α), ys.length = c.n_sources → xs.length = c.n_sources →
      (∀ i < c.n_sources, ys.getD i d = xs.getD i d) → ys = xs := by
    intro α xs ys d hy hx he
    rw [col_eq hy d, col_eq hx d]
    refine List.map_congr_left fun i hi => he i (List.mem_range.1 hi)
  have hf := key 0 (hn ▸ hr'.f_orb) hr.f_orb fun i hi => congrArg One.f_orb (h i hi)
  have he := key 0 (hn ▸ hr'.ecc) hr.ecc fun i hi => congrArg One.ecc (h i hi)
  have hm := key false (hn ▸ hr'.merged) hr.merged fun i hi => congrArg One.merged (h i hi)
  have ht : c'.t_merge = c.t_merge := by
    obtain ⟨x, hx⟩ := Option.isSome_iff_exists.1 h7.1
    obtain ⟨y, hy⟩ := Option.isSome_iff_exists.1 h7.2
    rw [hx, hy]
    refine congrArg some (key 0 (hn ▸ hr'.t_merge x hx) (hr.t_merge y hy) fun i hi => ?_)
    have := congrArg One.t_merge (h i hi)
    simpa [rowAt, hx, hy] using this
  cases c
  cases c'
  simp only at *
  subst h0 h1 h2 h3 h4 h5 h6 hf he hm ht
  rfl

theorem steps_two (hr : Rect c) (hc : ∀ i < c.n_sources, CircularSource W.K (rowAt c i))
    (h1 : ∀ i < c.n_sources, 0 ≤ T₁ i) (h2 : ∀ i < c.n_sources, 0 ≤ T₂ i)
    (hm : ∀ i < c.n_sources, (rowAt c i).merged = false → ¬ AtMarker W.K (rowAt c i) (T₁ i)) :
    (c.evolved (evolvedOf W c T₁)).evolved (evolvedOf W (c.evolved (evolvedOf W c T₁)) T₂) =
      c.evolved (evolvedOf W c fun i => T₁ i + T₂ i) :=
  cols_ext_rows (rect_evolved hr _) (rect_evolved (rect_evolved hr _) _) rfl rfl rfl rfl rfl rfl rfl ⟨rfl, rfl⟩
    fun i hi => row_steps (hc i hi) hi (h1 i hi) (h2 i hi) (hm i hi)

theorem evolveAll_steps {ts : List EvolTime} {Ts : List (ℕ → ℝ)} {t : EvolTime} (hne : ts ≠ [])
    (hr : Rect (h.src s).cols) (hc : ∀ i < (h.src s).cols.n_sources, CircularSource W.K (rowAt (h.src s).cols i))
    (hT : List.Forall₂ (TimesOf (h.src s).cols.n_sources) Ts ts)
    (h0 : ∀ T ∈ Ts, ∀ i < (h.src s).cols.n_sources, 0 ≤ T i)
    (hm : ∀ i < (h.src s).cols.n_sources, (rowAt (h.src s).cols i).merged = false → ∀ k, 0 < k → k < Ts.length →
      ¬ AtMarker W.K (rowAt (h.src s).cols i) (total (Ts.take k) i))
    (ht : TimesOf (h.src s).cols.n_sources (total Ts) t) : evolveAll W s ts h = evolve_sources W s t h := by
  induction ts generalizing Ts t h with
  | nil => exact absurd rfl hne
  | cons t₁ ts ih =>
    cases hT with
    | cons hT₁ hTs =>
      rename_i T₁ Ts
      have hrun₁ := evolve_sources_ok (W := W) (s := s) hr hT₁
      unfold evolveAll
      rw [bind_ok hrun₁]
      cases hTs with
      | nil =>
        rw [evolve_sources_ok hr ht]
        refine Prod.ext rfl ?_
        change h.setSrc s _ = _
        simp only
        congr 4
        funext i
        simp [total]
      | cons hT₂ hTs =>
        rename_i T₂ t₂ Ts ts
        have hm1 : ∀ i < (h.src s).cols.n_sources, (rowAt (h.src s).cols i).merged = false →
            ¬ AtMarker W.K (rowAt (h.src s).cols i) (T₁ i) := by
          intro i hi hmg
          have := hm i hi hmg 1 (by simp) (by simp)
          simpa [total] using this
        have h01 : ∀ i < (h.src s).cols.n_sources, 0 ≤ T₁ i := h0 T₁ (by simp)
        generalize hh : h.setSrc s { h.src s with
          cols := (h.src s).cols.evolved (evolvedOf W (h.src s).cols T₁) } = h₁
        have hcol : (h₁.src s).cols = (h.src s).cols.evolved (evolvedOf W (h.src s).cols T₁) := by rw [← hh]; simp
        have hn : (h₁.src s).cols.n_sources = (h.src s).cols.n_sources := by rw [hcol]; rfl
        have hr₁ : Rect (h₁.src s).cols := by rw [hcol]; exact rect_evolved hr _
        have hrest : ∀ i < (h.src s).cols.n_sources, 0 ≤ total (T₂ :: Ts) i := by
          intro i hi
          refine List.sum_nonneg fun x hx => ?_
          obtain ⟨T, hT, rfl⟩ := List.mem_map.1 hx
          exact h0 T (by simp only [List.mem_cons] at hT ⊢; tauto) i hi
        have hT' : TimesOf (h₁.src s).cols.n_sources (total (T₂ :: Ts))
            (.array ((List.range (h.src s).cols.n_sources).map (total (T₂ :: Ts)))) := by
          rw [hn]
          exact ⟨by simp, fun i hi => by simp [hi]⟩
        rw [ih (Ts := T₂ :: Ts) (h := h₁) (t := .array _) (by simp) hr₁ ?_ ?_ ?_ ?_ hT', evolve_sources_ok hr₁ hT',
          evolve_sources_ok hr ht]
        · refine Prod.ext rfl ?_
          rw [hcol, steps_two hr hc h01 hrest hm1, ← hh]
          simp only [Heap.setSrc, Function.update_self, Function.update_idem]
          congr 5
        · rw [hn, hcol]
          intro i hi
          exact circular_evolved (hc i hi) hi (h01 i hi) (hm1 i hi)
        · rw [hn]
          exact .cons hT₂ hTs
        · rw [hn]
          exact fun T hT => h0 T (by simp only [List.mem_cons] at hT ⊢; tauto)
        · rw [hn, hcol]
          intro i hi hmg k hk0 hk
          obtain ⟨hmf, hiff⟩ := marker_evolved (hc i hi) hi (h01 i hi) (hm1 i hi) (t := total ((T₂ :: Ts).take k) i) hmg
          rw [hiff]
          have := hm i hi hmf (k + 1) (by omega) (by simpa using hk)
          simpa [total] using this

end Legwork.source
