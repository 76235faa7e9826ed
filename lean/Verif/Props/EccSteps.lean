import Verif.Lemmas.EccSteps
import Verif.Lemmas.Example
import Verif.Lemmas.LateMerger
import Verif.Lemmas.ExactOdeint
import Verif.Props.SourceEvolve

/-!
# Evolving eccentric sources: C109
-/

namespace Legwork.Props

open Legwork.source Legwork.Spec Legwork.evol Legwork.utils
open PyM hiding bind

variable {W : World} {s i : ℕ} {h : Heap} {T : ℕ → ℝ} {t : EvolTime} {r : One}

/-- **C109** (orbit). With an integrator without errors, an eccentric source that is not marked as merged has the
eccentricity of Peters' solution after `evolve_sources`, and the frequency that belongs to the separation of this
solution, and its merger time has become shorter by the time of the evolution. -/
theorem C109_orbit (ho : SolvesPeters W.odeint) (hr : Rect (h.src s).cols)
    (ht : TimesOf (h.src s).cols.n_sources T t) (hi : i < (h.src s).cols.n_sources)
    (hE : EccentricSource (rowAt (h.src s).cols i)) (h0 : 0 ≤ T i) {tm : ℝ}
    (htm : TimeLeft W.K (rowAt (h.src s).cols i) tm) (hlt : T i < tm) {e : ℝ → ℝ}
    (he : History W.K (rowAt (h.src s).cols i) (T i) e) (hm : ¬ OnMarker W.K (rowAt (h.src s).cols i) (T i)) :
    ∃ h', evolve_sources W s t h = (.ok (), h') ∧ (rowAt (h'.src s).cols i).merged = false ∧
      (rowAt (h'.src s).cols i).ecc = e (T i) ∧ 0 < (rowAt (h'.src s).cols i).f_orb ∧
      get_a_from_f_orb W.K (rowAt (h'.src s).cols i).f_orb (rowAt (h'.src s).cols i).m_1 (rowAt (h'.src s).cols i).m_2 =
        separationAt W.K (rowAt (h.src s).cols i) (e (T i)) ∧
      (rowAt (h'.src s).cols i).t_merge = some (tm - T i) := by
  refine ⟨_, evolve_sources_ok hr ht, ?_⟩
  simp only [setSrc_src, Function.update_self]
  rw [rowAt_step hi]
  have hlt' : T i < tmRow W.K (rowAt (h.src s).cols i) := by rwa [← timeLeft_row.1 htm]
  have hne : separationAt W.K (rowAt (h.src s).cols i) (e (T i)) ≠ 1e-30 * AU := fun hx => hm ⟨tm, e, htm, hlt, he, hx⟩
  obtain ⟨b0, b1⟩ := he.solves.bound (T i) ⟨h0, le_rfl⟩
  have hs := separationAt_pos (K := W.K) hE b0 b1
  rw [step_of_history ho hE h0 hlt' he, f_or_merged_of_ne W.K hs.ne' hne]
  exact ⟨rfl, rfl, get_f_orb_from_a_pos W.K hs hE.m_1 hE.m_2, C01_a_roundtrip W.K hs hE.m_1 hE.m_2, by
    rw [timeLeft_row.1 htm]⟩

/-- **C109** (steps). With an integrator without errors, evolving circular and eccentric sources in any number of steps,
each with one time for all or one per source, leaves exactly the state that evolving once for the total times leaves.
Excluded are the coincidence that a source has a separation of exactly 1e-30 au between two steps, and eccentric sources
that merge before they are marked as merged (see `C109_on_time` and `C109_late`). -/
theorem C109_steps (ho : SolvesPeters W.odeint) {ts : List EvolTime} {Ts : List (ℕ → ℝ)} (hne : ts ≠ [])
    (hr : Rect (h.src s).cols) (hT : List.Forall₂ (TimesOf (h.src s).cols.n_sources) Ts ts)
    (h0 : ∀ T ∈ Ts, ∀ i < (h.src s).cols.n_sources, 0 ≤ T i)
    (hs : ∀ i < (h.src s).cols.n_sources,
      CircularSource W.K (rowAt (h.src s).cols i) ∧
        ((rowAt (h.src s).cols i).merged = false → ∀ k, 0 < k → k < Ts.length →
          ¬ AtMarker W.K (rowAt (h.src s).cols i) (total (Ts.take k) i)) ∨
      EccentricSource (rowAt (h.src s).cols i) ∧ NotMarkedLate W.K (rowAt (h.src s).cols i) (total Ts i) ∧
        ∀ k, 0 < k → k < Ts.length → ¬ OnMarker W.K (rowAt (h.src s).cols i) (total (Ts.take k) i))
    (ht : TimesOf (h.src s).cols.n_sources (total Ts) t) :
    evolveAll W s ts h = evolve_sources W s t h ∧ ∃ h', evolve_sources W s t h = (.ok (), h') := by
  refine ⟨?_, _, evolve_sources_ok hr ht⟩
  have hne' : Ts ≠ [] := by
    rintro rfl
    cases hT
    exact hne rfl
  rw [evolveAll_fold hr hT, evolve_sources_ok hr ht, fold_steps hne' hr fun i hi => ?_]
  have hpos : ∀ x ∈ Ts.map fun T => T i, 0 ≤ x := by
    intro x hx
    obtain ⟨T, hT, rfl⟩ := List.mem_map.1 hx
    exact h0 T hT i hi
  have hlist : (Ts.map fun T => T i) ≠ [] := by simpa using hne'
  have htake : ∀ k, ((Ts.map fun T => T i).take k).sum = total (Ts.take k) i := by
    intro k
    unfold total
    rw [List.map_take]
  rcases hs i hi with ⟨h1, h2⟩ | ⟨h1, h2, h3⟩
  · refine circ_fold hlist h1 hpos fun hmg k hk0 hk => ?_
    rw [htake]
    exact h2 hmg k hk0 (by simpa using hk)
  · refine ecc_fold ho hlist h1 hpos h2 fun k hk0 hk => ?_
    rw [htake]
    exact h3 k hk0 (by simpa using hk)

/-- **C109** (in time). A source with an eccentricity of at most 0.9999 is never marked as merged too late: up to its
merger time, as `get_merger_time` gives it, Peters' equation has a solution. -/
theorem C109_on_time {K : Consts} (hE : EccentricSource r) (he : r.ecc ≤ 1 - 1e-4)
    (hf : ∀ t, r.t_merge = some t → MergerTimeOf K true r t) (τ : ℝ) : NotMarkedLate K r τ := by
  intro tm t htm h0 _ hlt
  have htm' : MergerTimeOf K true r tm := by
    unfold TimeLeft at htm
    rcases ht : r.t_merge with _ | x <;> rw [ht] at htm
    · exact htm
    · rw [htm]; exact hf x ht
  rw [mergerTimeOf_iff] at htm'
  have hb := beta_pos K hE.m_1 hE.m_2
  have hc := c01_pos (K := K) hE
  have hle : tm ≤ t_exact (c01 K r) (beta K r.m_1 r.m_2) r.ecc := by
    rw [htm']
    split_ifs
    · exact (t_exact_pos hb hc hE.ecc_pos hE.ecc_lt).le
    · unfold tMerge1 snr.tEcc t_val
      rw [if_neg (not_lt.2 hE.ecc_pos.le), if_neg hE.ecc_pos.ne']
      split_ifs with h1 h2
      · exact t_small_le_exact hb hE.ecc_pos hE.ecc_lt
      · exact absurd he (not_le.2 h2)
      · exact le_rfl
      · exact absurd rfl ‹_›
  obtain ⟨e, h1, h2⟩ := exists_solution hb hc hE.ecc_pos hE.ecc_lt
  exact ⟨e, h1, h2 t (hlt.trans_le hle)⟩

/-- **C109** (too late). Sources with larger eccentricities are marked too late: there are times after which such a
source is not marked as merged although Peters' equation has no solution up to that time. -/
theorem C109_late (hr : Rect (h.src s).cols) (hi : i < (h.src s).cols.n_sources)
    (hE : EccentricSource (rowAt (h.src s).cols i)) (he : 1 - 1e-4 < (rowAt (h.src s).cols i).ecc)
    (hf : ∀ t, (rowAt (h.src s).cols i).t_merge = some t → MergerTimeOf W.K true (rowAt (h.src s).cols i) t)
    (hg : (rowAt (h.src s).cols i).merged = false) :
    ∃ T h', 0 < T ∧ evolve_sources W s (.scalar T) h = (.ok (), h') ∧ (rowAt (h'.src s).cols i).merged = false ∧
      ¬ ∃ e, History W.K (rowAt (h.src s).cols i) T e := by
  set r := rowAt (h.src s).cols i with hrow
  have hb := beta_pos W.K hE.m_1 hE.m_2
  have hc := c01_pos (K := W.K) hE
  have hlarge : tMerge1 W.K true r = t_large (c01 W.K r) (beta W.K r.m_1 r.m_2) r.ecc := by
    unfold tMerge1 snr.tEcc t_val
    rw [if_neg (not_lt.2 hE.ecc_pos.le), if_neg hE.ecc_pos.ne', if_neg (by norm_num at he ⊢; linarith), if_pos he]
    rfl
  have hlt := t_exact_lt_large (get_a_from_f_orb_pos W.K hE.f_orb hE.m_1 hE.m_2) hb hE.ecc_pos hE.ecc_lt
  have htm : tmOf W.K (h.src s).cols i = tMerge1 W.K true r := by
    rw [tmOf_fresh hf, ← hrow, hg]
    simp
  refine ⟨t_exact (c01 W.K r) (beta W.K r.m_1 r.m_2) r.ecc, _, t_exact_pos hb hc hE.ecc_pos hE.ecc_lt,
    evolve_sources_ok hr (T := fun _ => t_exact (c01 W.K r) (beta W.K r.m_1 r.m_2) r.ecc) (fun _ _ => rfl), ?_, ?_⟩
  · simp only [setSrc_src, Function.update_self]
    rw [rowAt_evolved hi, htm, hlarge]
    exact decide_eq_false (not_le.2 hlt)
  · rintro ⟨e, he⟩
    have hp := t_exact_pos hb hc hE.ecc_pos hE.ecc_lt
    have h1 := t_exact_countdown he.solves hb hc hp.le
    rw [he.start] at h1
    have hbd := he.solves.bound _ ⟨hp.le, le_rfl⟩
    have h2 := t_exact_pos hb hc hbd.1 hbd.2
    have h1' : t_exact (c01 W.K r) (beta W.K r.m_1 r.m_2) (e (t_exact (c01 W.K r) (beta W.K r.m_1 r.m_2) r.ecc)) = 0 := by
      rw [show c01 W.K r = c_0 (get_a_from_f_orb W.K r.f_orb r.m_1 r.m_2) r.ecc from rfl] at *
      linarith
    exact h2.ne' h1'

/-! ### Cases -/

/-- The example with an integrator without errors. -/
noncomputable def exactWorld : World := { Example.world with odeint := exactOdeint }

/-- A heap with a circular and an eccentric source. -/
noncomputable def mixedHeap : Heap := { Example.start with
  src := fun _ => { blank with cols :=
    ⟨[2e30, 2e30], [1e30, 1e30], [1e20, 1e20], [1e-3, 1e-3], [0, 0.3], none, none, none, none, [false, false], none⟩ } }

private lemma mixed_zero : rowAt (mixedHeap.src 0).cols 0 = ⟨2e30, 1e30, 1e20, 1e-3, 0, none, none, none, none, false, none⟩ :=
  rfl

private lemma mixed_one : rowAt (mixedHeap.src 0).cols 1 = ⟨2e30, 1e30, 1e20, 1e-3, 0.3, none, none, none, none, false, none⟩ :=
  rfl

/-- A circular source has a given separation at most once. -/
private lemma atMarker_unique {K : Consts} (h1 : 0 < r.m_1) (h2 : 0 < r.m_2) {x y : ℝ} (hx : AtMarker K r x)
    (hy : AtMarker K r y) : x = y := by
  unfold AtMarker at hx hy
  have hb := beta_pos K h1 h2
  have : beta K r.m_1 r.m_2 * (x - y) = 0 := by linarith
  rcases mul_eq_zero.1 this with h | h
  · exact absurd h hb.ne'
  · linarith

/-- An eccentric source has a given separation at most once. -/
private lemma onMarker_unique {K : Consts} (hE : EccentricSource r) {x y : ℝ} (h0 : 0 ≤ x) (hxy : x < y)
    (hx : OnMarker K r x) (hy : OnMarker K r y) : False := by
  obtain ⟨-, e, -, -, he, h1⟩ := hx
  obtain ⟨-, e', -, -, he', h2⟩ := hy
  have hb := beta_pos K hE.m_1 hE.m_2
  have hc := c01_pos (K := K) hE
  rw [history_unique hE h0 he (history_mono he' hxy.le), ← h2] at h1
  have hm1 : x ∈ Set.Icc 0 y := ⟨h0, hxy.le⟩
  have hm2 : y ∈ Set.Icc 0 y := ⟨h0.trans hxy.le, le_rfl⟩
  have hanti := he'.solves.antitone hb hc hm1 hm2 hxy
  exact absurd h1 (C02_get_a_strictMono hc (he'.solves.bound y hm2).1.le hanti (he'.solves.bound x hm1).2).ne'

/-- A time, as `C109_orbit` asks for it. -/
example : ∃ x > (0 : ℝ), ∃ h', evolve_sources exactWorld 0 (.scalar x) mixedHeap = (.ok (), h') ∧
    (rowAt (h'.src 0).cols 1).merged = false ∧ 0 < (rowAt (h'.src 0).cols 1).ecc ∧
    (rowAt (h'.src 0).cols 1).ecc < 0.3 := by
  have hE : EccentricSource (rowAt (mixedHeap.src 0).cols 1) := by
    rw [mixed_one]
    exact ⟨by norm_num, by norm_num, by norm_num, by norm_num, by norm_num⟩
  have hb := beta_pos exactWorld.K hE.m_1 hE.m_2
  have hc := c01_pos (K := exactWorld.K) hE
  have hlater : NotMarkedLate exactWorld.K (rowAt (mixedHeap.src 0).cols 1)
      (t_exact (c01 exactWorld.K (rowAt (mixedHeap.src 0).cols 1)) (beta exactWorld.K (rowAt (mixedHeap.src 0).cols 1).m_1
        (rowAt (mixedHeap.src 0).cols 1).m_2) (rowAt (mixedHeap.src 0).cols 1).ecc) :=
    C109_on_time hE (by rw [mixed_one]; norm_num) (by rw [mixed_one]; simp) _
  have hr : Rect (mixedHeap.src 0).cols := by constructor <;> simp [mixedHeap, Cols.n_sources]
  have hmt : TimeLeft exactWorld.K (rowAt (mixedHeap.src 0).cols 1) (tmRow exactWorld.K (rowAt (mixedHeap.src 0).cols 1)) :=
    timeLeft_row.2 rfl
  have hpos := t_exact_pos hb hc hE.ecc_pos hE.ecc_lt
  have htm : tmRow exactWorld.K (rowAt (mixedHeap.src 0).cols 1) =
      t_exact (c01 exactWorld.K (rowAt (mixedHeap.src 0).cols 1)) (beta exactWorld.K (rowAt (mixedHeap.src 0).cols 1).m_1
        (rowAt (mixedHeap.src 0).cols 1).m_2) (rowAt (mixedHeap.src 0).cols 1).ecc := by
    have := hmt
    simp only [TimeLeft, show (rowAt (mixedHeap.src 0).cols 1).t_merge = none from rfl] at this
    rw [mergerTimeOf_iff, show (rowAt (mixedHeap.src 0).cols 1).merged = false from rfl] at this
    rw [this, if_neg (by simp)]
    unfold tMerge1 snr.tEcc t_val
    rw [if_neg (not_lt.2 hE.ecc_pos.le), if_neg hE.ecc_pos.ne', if_neg (by rw [mixed_one]; norm_num),
      if_neg (by rw [mixed_one]; norm_num), if_pos rfl]
    rfl
  rw [← htm] at hpos hlater
  have key : ∀ x : ℝ, 0 < x → x < tmRow exactWorld.K (rowAt (mixedHeap.src 0).cols 1) →
      ¬ OnMarker exactWorld.K (rowAt (mixedHeap.src 0).cols 1) x →
      ∃ x > (0 : ℝ), ∃ h', evolve_sources exactWorld 0 (.scalar x) mixedHeap = (.ok (), h') ∧
        (rowAt (h'.src 0).cols 1).merged = false ∧ 0 < (rowAt (h'.src 0).cols 1).ecc ∧
        (rowAt (h'.src 0).cols 1).ecc < 0.3 := by
    intro x x0 xt hx
    obtain ⟨e, he⟩ := hlater _ x hmt x0.le xt.le xt
    obtain ⟨h', h1, h2, h3, -⟩ := C109_orbit (T := fun _ => x) exactOdeint_solves hr (t := .scalar x) (fun _ _ => rfl)
      (by simp [mixedHeap, Cols.n_sources]) hE x0.le hmt xt he hx
    refine ⟨x, x0, h', h1, h2, ?_, ?_⟩
    · rw [h3]
      exact (he.solves.bound x ⟨x0.le, le_rfl⟩).1
    · rw [h3]
      have := he.solves.antitone hb hc ⟨le_rfl, x0.le⟩ ⟨x0.le, le_rfl⟩ x0
      rw [he.start] at this
      exact this
  by_cases hx : OnMarker exactWorld.K (rowAt (mixedHeap.src 0).cols 1) (tmRow exactWorld.K (rowAt (mixedHeap.src 0).cols 1) / 2)
  · exact key (tmRow exactWorld.K (rowAt (mixedHeap.src 0).cols 1) / 3) (by linarith) (by linarith) fun hy =>
      onMarker_unique hE (by linarith) (by linarith) hy hx
  · exact key (tmRow exactWorld.K (rowAt (mixedHeap.src 0).cols 1) / 2) (by linarith) (by linarith) hx

/-- A heap with a source whose eccentricity is above 0.9999. -/
noncomputable def extremeHeap : Heap := { Example.start with
  src := fun _ => { blank with cols :=
    ⟨[2e30], [1e30], [1e20], [1e-3], [0.99999], none, none, none, none, [false], none⟩ } }

private lemma extreme_zero : rowAt (extremeHeap.src 0).cols 0 =
    ⟨2e30, 1e30, 1e20, 1e-3, 0.99999, none, none, none, none, false, none⟩ := rfl

/-- This source is marked too late, for every integrator. -/
example (W : World) : ∃ T h', 0 < T ∧ evolve_sources W 0 (.scalar T) extremeHeap = (.ok (), h') ∧
    (rowAt (h'.src 0).cols 0).merged = false ∧ ¬ ∃ e, History W.K (rowAt (extremeHeap.src 0).cols 0) T e := by
  refine C109_late ?_ ?_ ?_ ?_ ?_ ?_
  · constructor <;> simp [extremeHeap, Cols.n_sources]
  · simp [extremeHeap, Cols.n_sources]
  · rw [extreme_zero]
    exact ⟨by norm_num, by norm_num, by norm_num, by norm_num, by norm_num⟩
  · rw [extreme_zero]; norm_num
  · rw [extreme_zero]; simp
  · rw [extreme_zero]

/-- These sources evolved in two steps; the length of the first is one second, two seconds or three seconds. -/
example : ∃ x : ℝ, 0 < x ∧ evolveAll exactWorld 0 [.scalar x, .array [5, 1e30]] mixedHeap =
    evolve_sources exactWorld 0 (.array [x + 5, x + 1e30]) mixedHeap := by
  have hE : EccentricSource (rowAt (mixedHeap.src 0).cols 1) := by
    rw [mixed_one]
    exact ⟨by norm_num, by norm_num, by norm_num, by norm_num, by norm_num⟩
  obtain ⟨x, hx, h1, h2⟩ : ∃ x : ℝ, 0 < x ∧ ¬ AtMarker exactWorld.K (rowAt (mixedHeap.src 0).cols 0) x ∧
      ¬ OnMarker exactWorld.K (rowAt (mixedHeap.src 0).cols 1) x := by
    by_contra hcon
    push Not at hcon
    have hA : ∀ x y : ℝ, AtMarker exactWorld.K (rowAt (mixedHeap.src 0).cols 0) x →
        AtMarker exactWorld.K (rowAt (mixedHeap.src 0).cols 0) y → x = y := fun x y =>
      atMarker_unique (by rw [mixed_zero]; norm_num) (by rw [mixed_zero]; norm_num)
    have hO : ∀ x y : ℝ, 0 ≤ x → x < y → OnMarker exactWorld.K (rowAt (mixedHeap.src 0).cols 1) x →
        OnMarker exactWorld.K (rowAt (mixedHeap.src 0).cols 1) y → False := fun x y => onMarker_unique hE
    by_cases a1 : AtMarker exactWorld.K (rowAt (mixedHeap.src 0).cols 0) 1
    · have o2 := hcon 2 (by norm_num) fun a => by have := hA _ _ a1 a; norm_num at this
      have o3 := hcon 3 (by norm_num) fun a => by have := hA _ _ a1 a; norm_num at this
      exact hO 2 3 (by norm_num) (by norm_num) o2 o3
    · have o1 := hcon 1 one_pos a1
      by_cases a2 : AtMarker exactWorld.K (rowAt (mixedHeap.src 0).cols 0) 2
      · have o3 := hcon 3 (by norm_num) fun a => by have := hA _ _ a2 a; norm_num at this
        exact hO 1 3 (by norm_num) (by norm_num) o1 o3
      · exact hO 1 2 (by norm_num) (by norm_num) o1 (hcon 2 (by norm_num) a2)
  refine ⟨x, hx, (C109_steps (Ts := [fun _ => x, fun i => if i = 0 then 5 else 1e30]) exactOdeint_solves (by simp) ?_ ?_ ?_ ?_
    ?_).1⟩
  · constructor <;> simp [mixedHeap, Cols.n_sources]
  · refine .cons (fun _ _ => rfl) (.cons ⟨rfl, fun i hi => ?_⟩ .nil)
    obtain rfl | rfl : i = 0 ∨ i = 1 := by
      have : i < 2 := hi
      omega
    · rfl
    · rfl
  · intro T hT i _
    simp only [List.mem_cons, List.not_mem_nil, or_false] at hT
    rcases hT with rfl | rfl
    · exact hx.le
    · simp only
      split_ifs <;> norm_num
  · intro i hi
    obtain rfl | rfl : i = 0 ∨ i = 1 := by
      have : i < 2 := hi
      omega
    · refine .inl ⟨?_, fun _ k hk0 hk => ?_⟩
      · rw [mixed_zero]
        exact ⟨by norm_num, by norm_num, by norm_num, rfl, by simp⟩
      · obtain rfl : k = 1 := by simp at hk; omega
        simpa [total] using h1
    · refine .inr ⟨hE, C109_on_time hE ?_ ?_ _, fun k hk0 hk => ?_⟩
      · rw [mixed_one]; norm_num
      · rw [mixed_one]; simp
      · obtain rfl : k = 1 := by simp at hk; omega
        simpa [total] using h2
  · refine ⟨rfl, fun i hi => ?_⟩
    obtain rfl | rfl : i = 0 ∨ i = 1 := by
      have : i < 2 := hi
      omega
    · simp [total]
    · simp [total]

end Legwork.Props
