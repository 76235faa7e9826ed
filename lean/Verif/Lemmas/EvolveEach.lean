import Verif.Spec.Evolve
import Verif.Lemmas.SourceEach
import Verif.Lemmas.EvolOutput

/-!
# Evolution, source by source
-/

namespace Legwork.source

open Legwork.Spec Legwork.evol Legwork.utils

variable {W : World} {c : Cols} {n : ℕ} {T : ℕ → ℝ} {t : EvolTime}

/-- The frequency of a circular source after a time. -/
noncomputable def circLast (K : Consts) (r : One) (T : ℝ) : ℝ :=
  f_or_merged K AU (a_circ (get_a_from_f_orb K r.f_orb r.m_1 r.m_2) (beta K r.m_1 r.m_2) T) r.m_1 r.m_2

/-- `c_0` of a source. -/
noncomputable def c01 (K : Consts) (r : One) : ℝ := c_0 (get_a_from_f_orb K r.f_orb r.m_1 r.m_2) r.ecc

/-- The eccentricities given by the integration. -/
noncomputable def eccRun (W : World) (r : One) (T : ℝ) : List ℝ :=
  (W.odeint (fun e => de_dt e (beta W.K r.m_1 r.m_2) (c01 W.K r)) r.ecc (np.linspace T 2)).map nan_to_num

/-- The final eccentricity. -/
noncomputable def eccLast (W : World) (r : One) (T : ℝ) : ℝ := (eccRun W r T).getLastD 0

/-- The final frequency. -/
noncomputable def freqLast (W : World) (r : One) (T : ℝ) : ℝ :=
  (((eccRun W r T).map fun e => get_a_from_ecc e (c01 W.K r)).map fun a => f_or_merged W.K AU a r.m_1 r.m_2).getLastD 0

theorem linspace_two (T : ℝ) : np.linspace T 2 = [0, T] := by
  unfold np.linspace
  norm_num [List.range_succ]

/-! ### Times -/

theorem times_all (h : TimesOf n T t) : t.all n = .ok ((List.range n).map T) := by
  cases t with
  | scalar x =>
    refine congrArg Except.ok ?_
    apply List.ext_getElem
    · simp
    · intro i h1 h2
      simp only [List.getElem_replicate, List.getElem_map, List.getElem_range]
      rw [h i (by simpa using h1)]
  | array ts =>
    simp only [EvolTime.all]
    rw [if_pos h.1]
    refine congrArg Except.ok ?_
    apply List.ext_getElem?
    intro i
    by_cases hi : i < n
    · rw [h.2 i hi]; simp [hi]
    · have : ts.length ≤ i := by have := h.1; omega
      rw [List.getElem?_eq_none this]
      simp [hi]

theorem times_all_error {ts : List ℝ} (h : ts.length ≠ n) : (EvolTime.array ts).all n = .error .ValueError := by
  simp only [EvolTime.all]
  rw [if_neg h]
  rfl

/-- Every successful reading of the times is of this form. -/
theorem times_of_all {xs : List ℝ} (h : t.all n = .ok xs) : TimesOf n (fun i => xs.getD i 0) t ∧ xs.length = n := by
  cases t with
  | scalar x =>
    cases h
    refine ⟨fun i hi => ?_, by simp⟩
    simp [List.getD_eq_getElem?_getD, hi]
  | array ts =>
    simp only [EvolTime.all] at h
    split_ifs at h with hl
    · cases h
      refine ⟨⟨hl, fun i hi => ?_⟩, hl⟩
      have : i < xs.length := by omega
      simp [List.getD_eq_getElem?_getD, this]

theorem times_masked (h : TimesOf n T t) (p : ℕ → Bool) : ∃ te, t.masked ((List.range n).map p) = .ok (some te) ∧
    ∀ {K : Consts} {a b : Fin _ → ℝ} {ecc : Option (Fin _ → ℝ)}, create_timesteps_array K a b ecc (some te) 2 none =
      .ok fun i => np.linspace (T (((List.range n).filter p).getD i 0)) 2 := by
  have hcount : ((List.range n).map p).count true = ((List.range n).filter p).length := by
    rw [List.count_eq_countP, List.countP_map, List.countP_eq_length_filter]
    congr 2
    funext i
    simp
  cases t with
  | scalar x =>
    refine ⟨_, rfl, ?_⟩
    intro K a b ecc
    refine congrArg Except.ok ?_
    funext i
    simp only
    have hi : (i : ℕ) < ((List.range n).filter p).length := hcount ▸ i.2
    have hm : ((List.range n).filter p).getD i 0 ∈ (List.range n).filter p := by
      rw [List.getD_eq_getElem?_getD, List.getElem?_eq_getElem hi]
      exact List.getElem_mem _
    rw [h _ (by simpa using (List.mem_filter.1 hm).1)]
  | array ts =>
    have hts : ts = (List.range n).map T := by
      have := times_all h
      simp only [EvolTime.all] at this
      rw [if_pos h.1] at this
      cases this
      rfl
    unfold EvolTime.masked
    refine ⟨.array (colFn (((List.range n).filter p).map T) _), ?_, ?_⟩
    · simp only
      conv_lhs => rw [hts, index_map, ok_bind]
      rfl
    · intro K a b ecc
      refine congrArg Except.ok ?_
      funext i
      have hi : (i : ℕ) < ((List.range n).filter p).length := hcount ▸ i.2
      simp only [colFn, List.getD_eq_getElem?_getD]
      simp [hi]

/-! ### One kind of sources -/

theorem ofFn_getD {β : Type} (js : List ℕ) (F : ℕ → β) {k : ℕ} (hk : k = js.length) :
    List.ofFn (fun i : Fin k => F (js.getD i 0)) = js.map F := by
  subst hk
  apply List.ext_getElem
  · simp
  · intro i h1 h2
    have hi : i < js.length := by simpa using h1
    simp [List.getD_eq_getElem?_getD, hi]

theorem count_map (p : ℕ → Bool) : ((List.range n).map p).count true = ((List.range n).filter p).length := by
  rw [List.count_eq_countP, List.countP_map, List.countP_eq_length_filter]
  congr 2
  funext i
  simp

theorem index_range {α : Type} (p : ℕ → Bool) {xs : List α} {f : One → α} (hx : xs = (rows c).map f) :
    index ((List.range c.n_sources).map p) xs =
      .ok (((List.range c.n_sources).filter p).map fun i => f (rowAt c i)) := by
  rw [hx]
  unfold rows
  rw [List.map_map]
  exact index_map _ _ _

theorem colFn_filter (p : ℕ → Bool) (f : ℕ → ℝ) (i : Fin (((List.range n).map p).count true)) :
    colFn (((List.range n).filter p).map f) _ i = f (((List.range n).filter p).getD i 0) := by
  have hi : (i : ℕ) < ((List.range n).filter p).length := count_map p ▸ i.2
  simp only [colFn, List.getD_eq_getElem?_getD]
  simp [hi]

theorem no_any (p : ℕ → Bool) (h : ¬ ((List.range n).map p).any id = true) : ∀ i ∈ List.range n, p i = false := by
  intro i hi
  by_contra hp
  apply h
  rw [List.any_map, List.any_eq_true]
  exact ⟨i, hi, by simpa using hp⟩

theorem evolve_circ_ok (hr : Rect c) (ht : TimesOf c.n_sources T t) (p : ℕ → Bool) (f0 : ℕ → ℝ) :
    evolve_circ W c t ((List.range c.n_sources).map p) ((List.range c.n_sources).map f0) =
      .ok ((List.range c.n_sources).map fun i => if p i then circLast W.K (rowAt c i) (T i) else f0 i) := by
  unfold evolve_circ
  split_ifs with hany
  · obtain ⟨te, h1, h2⟩ := times_masked ht p
    rw [h1, ok_bind, index_range p (col_m_1 c), ok_bind, index_range p hr.col_m_2, ok_bind, index_range p hr.col_f_orb,
      ok_bind]
    rw [evol_circ_eq W.K AU (some te) 2 none none _ _ none _ ["f_orb"] rfl (fun _ => ⟨rfl, rfl⟩) h2]
    simp only [isKnown, List.filter_cons, List.filter_nil]
    simp only [unwrap, List.map_cons, List.map_nil, if_true, decide_true, Bool.or_true, Bool.true_or, ok_bind, snr.single,
      Option.getD_some]
    rw [pure_bind]
    refine congrArg Except.ok ?_
    rw [← assign_map_map]
    refine congrArg _ ?_
    rw [← ofFn_getD _ (fun i => circLast W.K (rowAt c i) (T i)) (count_map p)]
    unfold lastOf circVal
    simp only [colFn_filter, linspace_two]
    rfl
  · refine congrArg Except.ok (List.map_congr_left fun i hi => ?_)
    rw [no_any p hany i hi]
    rfl

theorem evolve_ecc_ok (hr : Rect c) (ht : TimesOf c.n_sources T t) (p : ℕ → Bool) (e0 f0 : ℕ → ℝ) :
    evolve_ecc W c t ((List.range c.n_sources).map p)
        ((List.range c.n_sources).map e0, (List.range c.n_sources).map f0) =
      .ok ((List.range c.n_sources).map fun i => if p i then eccLast W (rowAt c i) (T i) else e0 i,
           (List.range c.n_sources).map fun i => if p i then freqLast W (rowAt c i) (T i) else f0 i) := by
  unfold evolve_ecc
  split_ifs with hany
  · obtain ⟨te, h1, h2⟩ := times_masked ht p
    rw [h1, ok_bind, index_range p (col_m_1 c), ok_bind, index_range p hr.col_m_2, ok_bind, index_range p hr.col_f_orb,
      ok_bind, index_range p hr.col_ecc, ok_bind]
    rw [evol_ecc_eq W.K W.odeint _ (some te) 2 none none _ _ none _ ["ecc", "f_orb"] 1 [] false true _ none rfl
      (fun _ => ⟨rfl, rfl⟩) h2 rfl]
    simp only [isKnown, List.filter_cons, List.filter_nil]
    simp only [unwrap, List.map_cons, List.map_nil, if_true, decide_true, Bool.or_true, Bool.true_or, Bool.true_and,
      ok_bind, snr.pair, integrate_eq W.odeint 1 [] (by simp)]
    rw [pure_bind]
    simp only [Option.getD_some]
    refine congrArg Except.ok (Prod.ext ?_ ?_)
    · simp only
      rw [← assign_map_map]
      refine congrArg _ ?_
      rw [← ofFn_getD _ (fun i => eccLast W (rowAt c i) (T i)) (count_map p)]
      unfold lastOf eccVal
      simp only [colFn_filter]
      rfl
    · simp only
      rw [← assign_map_map]
      refine congrArg _ ?_
      rw [← ofFn_getD _ (fun i => freqLast W (rowAt c i) (T i)) (count_map p)]
      unfold lastOf eccVal
      simp only [colFn_filter]
      rfl
  · refine congrArg Except.ok (Prod.ext (List.map_congr_left fun i hi => ?_) (List.map_congr_left fun i hi => ?_)) <;>
      rw [no_any p hany i hi] <;> rfl

/-! ### All sources -/

theorem orbitAfter_iff {T : ℝ} {r : One} {e f : ℝ} : OrbitAfter W T r e f ↔
    if r.ecc = 0 then e = 0 ∧ f = circLast W.K r T else e = eccLast W r T ∧ f = freqLast W r T := by
  unfold OrbitAfter
  split_ifs with he
  · rw [evol_circ_eq W.K AU (some (.scalar T)) 2 none none _ _ none _ ["f_orb"] rfl (fun _ => ⟨rfl, rfl⟩) rfl]
    simp only [isKnown, List.filter_cons, List.filter_nil]
    simp only [unwrap, List.map_cons, List.map_nil, if_true, decide_true, Bool.or_true, Bool.true_or, Option.getD_some,
      Except.ok.injEq, EvolOut.one.injEq]
    refine and_congr_right fun _ => ?_
    constructor
    · rintro ⟨f', rfl, h⟩
      rw [← h]
      unfold circVal circLast
      simp only [linspace_two]
      rfl
    · intro h
      refine ⟨_, rfl, ?_⟩
      rw [h]
      unfold circVal circLast
      simp only [linspace_two]
      rfl
  · rw [evol_ecc_eq W.K W.odeint _ (some (.scalar T)) 2 none none _ _ none _ ["ecc", "f_orb"] 1 [] false true _ none rfl
      (fun _ => ⟨rfl, rfl⟩) rfl rfl]
    simp only [isKnown, List.filter_cons, List.filter_nil]
    simp only [unwrap, List.map_cons, List.map_nil, if_true, decide_true, Bool.or_true, Bool.true_or, Bool.true_and,
      integrate_eq W.odeint 1 [] (by simp), Option.getD_some, Except.ok.injEq, EvolOut.many.injEq]
    constructor
    · rintro ⟨e', f', heq, h1, h2⟩
      obtain ⟨rfl, h3⟩ := List.cons.inj heq
      obtain ⟨rfl, -⟩ := List.cons.inj h3
      exact ⟨h1.symm, h2.symm⟩
    · rintro ⟨h1, h2⟩
      exact ⟨_, _, rfl, h1.symm, h2.symm⟩

open Classical in
/-- Eccentricity after the evolution. -/
noncomputable def eccAfter (W : World) (T tm : ℝ) (r : One) : ℝ :=
  if tm ≤ T then 0 else if r.ecc = 0 then 0 else eccLast W r T

open Classical in
/-- Frequency after the evolution. -/
noncomputable def freqAfter (W : World) (T tm : ℝ) (r : One) : ℝ :=
  if tm ≤ T then 100 else if r.ecc = 0 then circLast W.K r T else freqLast W r T

open Classical in
theorem calc_evolve_ok (hr : Rect c) (ht : TimesOf c.n_sources T t) (tm : ℕ → ℝ) :
    calc_evolve W c ((List.range c.n_sources).map tm) t = .ok
      ⟨(List.range c.n_sources).map fun i => eccAfter W (T i) (tm i) (rowAt c i),
       (List.range c.n_sources).map fun i => freqAfter W (T i) (tm i) (rowAt c i),
       (List.range c.n_sources).map fun i => decide (tm i ≤ T i),
       (List.range c.n_sources).map fun i => max 0 (tm i - T i)⟩ := by
  have hecc : ecc_zero c.ecc = (List.range c.n_sources).map fun i => decide ((rowAt c i).ecc = 0) := by
    unfold ecc_zero
    rw [hr.col_ecc]
    unfold rows
    rw [List.map_map, List.map_map]
    rfl
  have hm : merged_flags ((List.range c.n_sources).map T) ((List.range c.n_sources).map tm) =
      (List.range c.n_sources).map fun i => decide (tm i ≤ T i) := by
    unfold merged_flags
    rw [List.zipWith_map, List.zipWith_self]
  unfold calc_evolve
  rw [times_all ht, ok_bind]
  simp only [hm, hecc, logical_not, List.map_map]
  rw [logical_and_map, ok_bind]
  erw [logical_and_map]
  rw [ok_bind]
  erw [evolve_circ_ok hr ht]
  rw [ok_bind]
  have h0 : List.replicate c.n_sources (0 : ℝ) = (List.range c.n_sources).map fun _ => (0 : ℝ) := by
    rw [List.map_const', List.length_range]
  rw [h0, evolve_ecc_ok hr ht, ok_bind]
  simp only [List.zipWith_map, List.zipWith_self]
  refine congrArg Except.ok ?_
  congr 1
  · refine List.map_congr_left fun i _ => ?_
    unfold eccAfter
    by_cases h1 : tm i ≤ T i <;> by_cases h2 : (rowAt c i).ecc = 0 <;> simp [h1, h2]
  · refine List.map_congr_left fun i _ => ?_
    unfold freqAfter
    by_cases h1 : tm i ≤ T i <;> by_cases h2 : (rowAt c i).ecc = 0 <;> simp [h1, h2]

end Legwork.source
