import Verif.Lemmas.SourceMask
import Verif.Lemmas.SourceCalc
import Verif.Spec.SnrOf

/-!
# The SNR methods, source by source
-/

namespace Legwork.source

open Legwork.Spec Legwork.snr
open PyM hiding bind

/-! ### Successful steps -/

theorem bind_ok_iff {α β : Type} {m : M α} {f : α → M β} {h h'' : Heap} {b : β} :
    (m >>= f) h = (.ok b, h'') ↔ ∃ a h', m h = (.ok a, h') ∧ f a h' = (.ok b, h'') := by
  constructor
  · exact bind_eq_ok
  · rintro ⟨a, h', h1, h2⟩
    rw [bind_ok h1, h2]

theorem lift_ok_iff {α : Type} {e : Except PyErr α} {h h' : Heap} {a : α} :
    (PyM.lift e : M α) h = (.ok a, h') ↔ e = .ok a ∧ h' = h := by
  constructor
  · exact lift_eq_ok
  · rintro ⟨h1, rfl⟩
    rw [lift_run, h1]

theorem getSrc_ok_iff {s : ℕ} {h h' : Heap} {x : Src} : getSrc s h = (.ok x, h') ↔ x = h.src s ∧ h' = h := by
  unfold getSrc
  simp only [Prod.mk.injEq, Except.ok.injEq]
  constructor <;> rintro ⟨rfl, rfl⟩ <;> exact ⟨rfl, rfl⟩

/-- The settings of a source object. -/
def HasSettings (x : Src) (S : Settings) : Prop :=
  x.ecc_tol = some S.ecc_tol ∧ x.harmonics_required = some S.harmonics_required ∧ x.n_proc = S.n_proc

theorem getSettings_ok_iff {s : ℕ} {h h' : Heap} {S : Settings} :
    getSettings s h = (.ok S, h') ↔ HasSettings (h.src s) S ∧ h' = h := by
  rw [getSettings_run]
  unfold HasSettings
  rcases (h.src s).ecc_tol with _ | e
  · simp
  rcases (h.src s).harmonics_required with _ | q
  · simp
  simp only [Prod.mk.injEq, Except.ok.injEq, Option.some.injEq]
  constructor
  · rintro ⟨rfl, rfl⟩
    exact ⟨⟨rfl, rfl, rfl⟩, rfl⟩
  · rintro ⟨⟨rfl, rfl, h3⟩, rfl⟩
    rw [h3]
    exact ⟨rfl, rfl⟩

/-! ### One source -/

/-- The SNR of one source by one of the two methods. -/
noncomputable def one1 (S : Settings) (circ : One → Except PyErr (Option ℝ))
    (ecc : ℕ → One → Except PyErr (Option ℝ × ℕ)) (r : One) : Except PyErr (Option ℝ × ℕ) :=
  open Classical in
  if r.ecc ≤ S.ecc_tol then do
    let v ← circ r
    pure (v, 2)
  else groups1 (S.harmonics_required r.ecc) (fun H => ecc H r) harmonic_groups (some 0, 2)

theorem dispatch1_eq (S : Settings) (circ : One → Except PyErr (Option ℝ))
    (ecc : ℕ → One → Except PyErr (Option ℝ × ℕ)) (x : One × Bool) :
    dispatch1 S circ ecc x = if live x then one1 S circ ecc x.1 else pure (some 0, 2) := rfl

/-- As stationary. -/
noncomputable def statOne (C : Ctx) (S : Settings) : One → Except PyErr (Option ℝ × ℕ) :=
  one1 S (fun r => circ1 C r.circ) fun H r => ecc1 C H r.eccentric

/-- As evolving. -/
noncomputable def evolOne (W : World) (C : Ctx) (S : Settings) (n : ℕ) : One → Except PyErr (Option ℝ × ℕ) :=
  one1 S (fun r => circE1 C n r.evolvingCirc (circTime C.K r))
    fun H r => eccE1 C W.odeint H n r.evolving (tEcc C.K r.m_1 r.m_2 r.f_orb r.ecc true)

theorem in_group_iff {n : ℤ} {g : ℕ × ℕ} : in_group n g = true ↔ (g.1 : ℤ) < n ∧ n ≤ g.2 := by
  unfold in_group
  simp

theorem harmonicLimit_unique {need : ℤ} {H H' : ℕ} (h : HarmonicLimit need H) (h' : HarmonicLimit need H') : H = H' := by
  unfold HarmonicLimit at h h'
  omega

theorem groups1_limit {need : ℤ} {run : ℕ → Except PyErr (Option ℝ × ℕ)} {v : Option ℝ × ℕ} :
    (∀ H, HarmonicLimit need H → groups1 need run harmonic_groups v = run H) ∧
    ((¬ ∃ H, HarmonicLimit need H) → groups1 need run harmonic_groups v = pure v) := by
  unfold groups1 harmonic_groups
  simp only [List.foldlM_cons, List.foldlM_nil, in_group_iff]
  have hpure : ∀ x : Except PyErr (Option ℝ × ℕ), (x >>= fun v => pure v) = x := fun x => by
    rcases x with _ | _ <;> rfl
  constructor
  · intro H hH
    rcases hH with ⟨h1, h2, rfl⟩ | ⟨h1, h2, rfl⟩ | ⟨h1, h2, rfl⟩ | ⟨h1, h2, rfl⟩
    · rw [if_pos (by constructor <;> push_cast <;> omega)]
      simp only [if_neg (show ¬ (((10 : ℕ) : ℤ) < need ∧ need ≤ ((100 : ℕ) : ℤ)) by push_cast; omega),
        if_neg (show ¬ (((100 : ℕ) : ℤ) < need ∧ need ≤ ((1000 : ℕ) : ℤ)) by push_cast; omega),
        if_neg (show ¬ (((1000 : ℕ) : ℤ) < need ∧ need ≤ ((10000 : ℕ) : ℤ)) by push_cast; omega), pure_bind, hpure]
    · simp only [if_neg (show ¬ (((1 : ℕ) : ℤ) < need ∧ need ≤ ((10 : ℕ) : ℤ)) by push_cast; omega), pure_bind]
      rw [if_pos (by constructor <;> push_cast <;> omega)]
      simp only [if_neg (show ¬ (((100 : ℕ) : ℤ) < need ∧ need ≤ ((1000 : ℕ) : ℤ)) by push_cast; omega),
        if_neg (show ¬ (((1000 : ℕ) : ℤ) < need ∧ need ≤ ((10000 : ℕ) : ℤ)) by push_cast; omega), pure_bind, hpure]
    · simp only [if_neg (show ¬ (((1 : ℕ) : ℤ) < need ∧ need ≤ ((10 : ℕ) : ℤ)) by push_cast; omega),
        if_neg (show ¬ (((10 : ℕ) : ℤ) < need ∧ need ≤ ((100 : ℕ) : ℤ)) by push_cast; omega), pure_bind]
      rw [if_pos (by constructor <;> push_cast <;> omega)]
      simp only [if_neg (show ¬ (((1000 : ℕ) : ℤ) < need ∧ need ≤ ((10000 : ℕ) : ℤ)) by push_cast; omega), pure_bind, hpure]
    · simp only [if_neg (show ¬ (((1 : ℕ) : ℤ) < need ∧ need ≤ ((10 : ℕ) : ℤ)) by push_cast; omega),
        if_neg (show ¬ (((10 : ℕ) : ℤ) < need ∧ need ≤ ((100 : ℕ) : ℤ)) by push_cast; omega),
        if_neg (show ¬ (((100 : ℕ) : ℤ) < need ∧ need ≤ ((1000 : ℕ) : ℤ)) by push_cast; omega), pure_bind]
      rw [if_pos (by constructor <;> push_cast <;> omega), hpure]
  · intro hno
    have h1 : ¬ (((1 : ℕ) : ℤ) < need ∧ need ≤ ((10 : ℕ) : ℤ)) := fun h => hno ⟨10, Or.inl ⟨h.1, h.2, rfl⟩⟩
    have h2 : ¬ (((10 : ℕ) : ℤ) < need ∧ need ≤ ((100 : ℕ) : ℤ)) := fun h => hno ⟨100, Or.inr (Or.inl ⟨h.1, h.2, rfl⟩)⟩
    have h3 : ¬ (((100 : ℕ) : ℤ) < need ∧ need ≤ ((1000 : ℕ) : ℤ)) :=
      fun h => hno ⟨1000, Or.inr (Or.inr (Or.inl ⟨h.1, h.2, rfl⟩))⟩
    have h4 : ¬ (((1000 : ℕ) : ℤ) < need ∧ need ≤ ((10000 : ℕ) : ℤ)) :=
      fun h => hno ⟨10000, Or.inr (Or.inr (Or.inr ⟨h.1, h.2, rfl⟩))⟩
    simp only [if_neg h1, if_neg h2, if_neg h3, if_neg h4, pure_bind]

theorem harmonicLimit_pos {need : ℤ} {H : ℕ} (h : HarmonicLimit need H) : 0 < H := by
  unfold HarmonicLimit at h
  omega

theorem one1_spec {S : Settings} {circ : One → Except PyErr (Option ℝ)} {ecc : ℕ → One → Except PyErr (Option ℝ × ℕ)}
    {r : One} {p : Option ℝ × ℕ} : one1 S circ ecc r = .ok p ↔
      (r.ecc ≤ S.ecc_tol → circ r = .ok p.1 ∧ p.2 = 2) ∧ (S.ecc_tol < r.ecc →
        (∀ H, HarmonicLimit (S.harmonics_required r.ecc) H → ecc H r = .ok p) ∧
        ((¬ ∃ H, HarmonicLimit (S.harmonics_required r.ecc) H) → p.1 = some 0 ∧ p.2 = 2)) := by
  obtain ⟨v, m⟩ := p
  unfold one1
  split_ifs with he
  · simp only [he, not_lt.2 he, true_imp_iff, false_imp_iff, and_true]
    rw [except_bind_ok]
    constructor
    · rintro ⟨a, h1, h2⟩
      cases h2
      exact ⟨h1, rfl⟩
    · rintro ⟨h1, rfl⟩
      exact ⟨v, h1, rfl⟩
  · simp only [he, not_le.1 he, true_imp_iff, false_imp_iff, true_and]
    obtain ⟨g1, g2⟩ := groups1_limit (need := S.harmonics_required r.ecc) (run := fun H => ecc H r) (v := (some 0, 2))
    by_cases hH : ∃ H, HarmonicLimit (S.harmonics_required r.ecc) H
    · obtain ⟨H, hH⟩ := hH
      rw [g1 H hH]
      constructor
      · intro h
        exact ⟨fun H' hH' => by rw [harmonicLimit_unique hH' hH]; exact h, fun h' => absurd ⟨H, hH⟩ h'⟩
      · intro h
        exact h.1 H hH
    · rw [g2 hH, pure_ok, Prod.mk.injEq]
      constructor
      · rintro ⟨rfl, rfl⟩
        exact ⟨fun H hH' => absurd ⟨H, hH'⟩ hH, fun _ => ⟨rfl, rfl⟩⟩
      · intro h
        obtain ⟨h1, h2⟩ := h.2 hH
        exact ⟨h1.symm, h2.symm⟩

theorem pairOut_single {p : Option ℝ × ℕ} {ps : List (Option ℝ × ℕ)} (h : pairOut ps = .withMax [p.1] [p.2]) : ps = [p] := by
  unfold pairOut at h
  injection h with h1 h2
  rcases ps with _ | ⟨q, _ | ⟨_, _⟩⟩
  · simp at h1
  · simp only [List.map_cons, List.map_nil, List.cons.injEq, and_true] at h1 h2
    rw [Prod.ext h1 h2]
  · simp at h1

theorem statOne_iff {C : Ctx} {S : Settings} {r : One} {p : Option ℝ × ℕ} :
    statOne C S r = .ok p ↔ StationarySnr C S.ecc_tol S.harmonics_required r p.1 p.2 := by
  unfold statOne StationarySnr
  rw [one1_spec, snr_circ_stationary_iff, mapM_singleton_ok]
  refine and_congr_right fun _ => imp_congr_right fun _ => and_congr_left fun _ => ?_
  refine forall_congr' fun H => imp_congr_right fun hH => ?_
  rw [snr_ecc_stationary_iff (harmonicLimit_pos hH)]
  constructor
  · intro h
    exact ⟨[p], mapM_singleton_ok.2 h, rfl⟩
  · rintro ⟨ps, h1, h2⟩
    rw [pairOut_single h2] at h1
    exact mapM_singleton_ok.1 h1

theorem evolOne_iff {W : World} {C : Ctx} {S : Settings} {n : ℕ} (hn : n ≠ 0) {r : One} {p : Option ℝ × ℕ} :
    evolOne W C S n r = .ok p ↔ EvolvingSnr C W.odeint n S.ecc_tol S.harmonics_required r p.1 p.2 := by
  unfold evolOne EvolvingSnr
  rw [one1_spec]
  refine and_congr (imp_congr_right fun _ => and_congr_left fun _ => ?_)
    (imp_congr_right fun _ => and_congr_left fun _ => ?_)
  · unfold circTime
    rcases r.t_merge with _ | t
    · rw [Option.map_none, snr_circ_evolving_none hn, mapM_singleton_ok]
    · rw [Option.map_some, snr_circ_evolving_some hn (by simp), List.zip_cons_cons, List.zip_nil_right, mapM_singleton_ok]
  · refine forall_congr' fun H => imp_congr_right fun hH => ?_
    rw [snr_ecc_evolving_none (harmonicLimit_pos hH) hn (by simp)]
    constructor
    · intro h
      exact ⟨[p], mapM_singleton_ok.2 h, rfl⟩
    · rintro ⟨ps, h1, h2⟩
      rw [pairOut_single h2] at h1
      exact mapM_singleton_ok.1 h1

/-! ### Recording -/

/-- The harmonics recorded, zeros if none yet. -/
def harmNow (h : Heap) (s : ℕ) : List ℕ :=
  match (h.src s).max_snr_harmonic with
  | some r => h.harms r
  | none => List.replicate (h.src s).cols.n_sources 0

/-- The SNRs recorded, zeros if none yet. -/
def snrNow (h : Heap) (s : ℕ) : List (Option ℝ) :=
  match (h.src s).snr with
  | some r => h.snrs r
  | none => List.replicate (h.src s).cols.n_sources (some 0)

theorem ensure_harm_run (s : ℕ) (h : Heap) : ∃ r h', ensure_harm s h = (.ok r, h') ∧ h'.harms r = harmNow h s ∧
    (h'.src s).max_snr_harmonic = some r ∧ (h'.src s).snr = (h.src s).snr ∧ (h'.src s).cols = (h.src s).cols ∧
    h'.snrs = h.snrs := by
  unfold ensure_harm harmNow
  rw [bind_run]
  simp only [getSrc]
  rcases hr : (h.src s).max_snr_harmonic with _ | r
  · refine ⟨h.next, _, store_harm_run _ _ _, ?_, ?_, ?_, ?_, rfl⟩
    · simp [Heap.setSrc, Heap.bump, Heap.setHarm]
    · simp [Heap.setSrc]
    · simp [Heap.setSrc]
    · simp [Heap.setSrc]
  · exact ⟨r, h, rfl, rfl, hr, rfl, rfl, rfl⟩

theorem ensure_snr_run (s : ℕ) (h : Heap) : ∃ r h', ensure_snr s h = (.ok r, h') ∧ h'.snrs r = snrNow h s ∧
    (h'.src s).snr = some r ∧ (h'.src s).max_snr_harmonic = (h.src s).max_snr_harmonic ∧
    (h'.src s).cols = (h.src s).cols ∧ h'.harms = h.harms := by
  unfold ensure_snr snrNow
  rw [bind_run]
  simp only [getSrc]
  rcases hr : (h.src s).snr with _ | r
  · refine ⟨h.next, _, store_snr_run _ _ _, ?_, ?_, ?_, ?_, rfl⟩
    · simp [Heap.setSrc, Heap.bump, Heap.setSnr]
    · simp [Heap.setSrc]
    · simp [Heap.setSrc]
    · simp [Heap.setSrc]
  · exact ⟨r, h, rfl, rfl, hr, rfl, rfl, rfl⟩

theorem overwrite_ok_iff {α : Type} {mask : List Bool} {xs ys zs : List α} : overwrite mask xs ys = .ok zs ↔
    mask.length = ys.length ∧ mask.length = xs.length ∧ zs = np.assign mask xs (np.select mask ys) := by
  unfold overwrite index
  by_cases h1 : mask.length = ys.length
  · rw [if_pos h1, pure_bind]
    by_cases h2 : mask.length = xs.length
    · rw [if_pos h2, pure_ok]
      exact ⟨fun h => ⟨h1, h2, h.symm⟩, fun h => h.2.2.symm⟩
    · rw [if_neg h2]
      constructor
      · intro h; cases h
      · intro h; exact absurd h.2.1 h2
  · rw [if_neg h1]
    constructor
    · intro h; cases h
    · intro h; exact absurd h.1 h1

/-- Recording results succeeds when all sizes agree, and then writes the masked entries. -/
theorem record_snr_cases {s : ℕ} {insp : List Bool} {res : SnrState} {h : Heap} :
    (∃ h', record_snr s insp res h = (.ok (), h') ∧ (h'.src s).max_snr_harmonic.isSome ∧ (h'.src s).snr.isSome ∧
      harmNow h' s = np.assign insp (harmNow h s) (np.select insp res.2) ∧
      snrNow h' s = np.assign insp (snrNow h s) (np.select insp res.1) ∧
      insp.length = res.2.length ∧ insp.length = (harmNow h s).length ∧ insp.length = res.1.length ∧
      insp.length = (snrNow h s).length) ∨
    (∃ e h', record_snr s insp res h = (.error e, h')) ∧ ¬ (insp.length = res.2.length ∧
      insp.length = (harmNow h s).length ∧ insp.length = res.1.length ∧ insp.length = (snrNow h s).length) := by
  obtain ⟨r, h₁, he, hv, hm, hs, hc, hsn⟩ := ensure_harm_run s h
  unfold record_snr
  rw [bind_ok he, bind_run]
  simp only [get_run]
  rw [bind_run, lift_run, hv]
  rcases ho : overwrite insp (harmNow h s) res.2 with e | zs
  · refine Or.inr ⟨⟨e, h₁, rfl⟩, fun hall => ?_⟩
    have := overwrite_ok_iff.2 ⟨hall.1, hall.2.1, rfl⟩
    rw [ho] at this
    cases this
  · obtain ⟨l1, l2, rfl⟩ := overwrite_ok_iff.1 ho
    simp only
    rw [bind_run]
    simp only [modify_run]
    set h₂ := h₁.setHarm r (np.assign insp (harmNow h s) (np.select insp res.2)) with hh₂
    obtain ⟨q, h₃, he', hv', hm', hs', hc', hsn'⟩ := ensure_snr_run s h₂
    have hnow : snrNow h₂ s = snrNow h s := by
      unfold snrNow
      change (match (h₁.src s).snr with
        | some r => h₁.snrs r
        | none => List.replicate (h₁.src s).cols.n_sources (some 0)) = _
      rw [hs, hc, hsn]
    rw [bind_ok he', bind_run]
    simp only [get_run]
    rw [bind_run, lift_run, hv', hnow]
    rcases ho' : overwrite insp (snrNow h s) res.1 with e | zs
    · refine Or.inr ⟨⟨e, h₃, rfl⟩, fun hall => ?_⟩
      have := overwrite_ok_iff.2 ⟨hall.2.2.1, hall.2.2.2, rfl⟩
      rw [ho'] at this
      cases this
    · obtain ⟨l3, l4, rfl⟩ := overwrite_ok_iff.1 ho'
      simp only
      have hmh : (h₃.src s).max_snr_harmonic = some r := hs'.trans hm
      refine Or.inl ⟨_, rfl, ?_, ?_, ?_, ?_, l1, l2, l3, l4⟩
      · change (h₃.src s).max_snr_harmonic.isSome
        rw [hmh]; rfl
      · change (h₃.src s).snr.isSome
        rw [hm']; rfl
      · unfold harmNow
        simp only [Heap.setSnr]
        rw [hmh]
        simp only
        rw [hsn', hh₂]
        simp [Heap.setHarm]
        rfl
      · unfold snrNow
        simp only [Heap.setSnr]
        rw [hm']
        simp [Function.update_self]

/-! ### The two methods -/

/-- The SNR of one selected source; others are left out. -/
def orZero (one : One → Except PyErr (Option ℝ × ℕ)) (x : One × Bool) : Except PyErr (Option ℝ × ℕ) :=
  if live x then one x.1 else pure (some 0, 2)

theorem SnrCall.cols {h h' : Heap} (hh : SnrCall h h') (s : ℕ) : (h'.src s).cols = (h.src s).cols := by
  obtain ⟨c, r, r', he⟩ := hh.src s
  rw [he]

theorem match_params_cols {W : World} {s : ℕ} {a f : SnrArgs} {r : Bool} {h h₁ : Heap}
    (hm : match_params W s a r h = (.ok f, h₁)) : (h₁.src s).cols = (h.src s).cols := by
  have := (match_params_snrCall W s a r h).cols s
  rwa [hm] at this

theorem match_params_n_proc {W : World} {s : ℕ} {a f : SnrArgs} {r : Bool} {h h₁ : Heap}
    (hm : match_params W s a r h = (.ok f, h₁)) : (h₁.src s).n_proc = (h.src s).n_proc := by
  obtain ⟨c, q, q', he⟩ := (match_params_snrCall W s a r h).src s
  rw [hm] at he
  simp only at he
  rw [he]

theorem index_ok_iff {α : Type} {mask : List Bool} {xs ys : List α} :
    index mask xs = .ok ys ↔ mask.length = xs.length ∧ ys = np.select mask xs := by
  unfold index
  split_ifs with h
  · rw [pure_ok]
    exact ⟨fun h' => ⟨h, h'.symm⟩, fun h' => h'.2.symm⟩
  · constructor
    · intro h'; cases h'
    · intro h'; exact absurd h'.1 h

theorem unzipPairs_fst_length {ps : List (Option ℝ × ℕ)} : (unzipPairs ps).1.length = ps.length := by
  unfold unzipPairs
  simp

theorem unzipPairs_snd_length {ps : List (Option ℝ × ℕ)} : (unzipPairs ps).2.length = ps.length := by
  unfold unzipPairs
  simp

theorem get_snr_stationary_iff {W : World} {s : ℕ} {a : SnrArgs} {ws : Option (List Bool)} {h h' : Heap}
    {v : List (Option ℝ)} (hr : Rect (h.src s).cols) (hw : FitsMask (h.src s).cols ws) :
    get_snr_stationary W s a ws h = (.ok v, h') ↔ ∃ f h₁ S C ps, match_params W s a true h = (.ok f, h₁) ∧
      HasSettings (h₁.src s) S ∧ ctxOf W (h₁.src s) f = .ok C ∧
      (items (h.src s).cols (which (h.src s).cols.n_sources ws)).mapM (orZero (statOne C S)) = .ok ps ∧
      record_snr s ((items (h.src s).cols (which (h.src s).cols.n_sources ws)).map live) (unzipPairs ps) h₁ = (.ok (), h') ∧
      v = np.select (which (h.src s).cols.n_sources ws) (ps.map Prod.fst) := by
  have hwl := which_length hw
  unfold get_snr_stationary
  simp only [bind_ok_iff, getSrc_ok_iff, getSettings_ok_iff, lift_ok_iff]
  constructor
  · rintro ⟨f, h₁, hm, x, h₂, ⟨ex, e₂⟩, S, h₃, ⟨hS, e₃⟩, C, h₄, ⟨hC, e₄⟩, res, h₅, ⟨hc, e₅⟩, u, h₆, hrec, hi, e₆⟩
    subst ex e₂ e₃ e₄ e₅ e₆
    rw [match_params_cols hm] at hc hi
    obtain ⟨ps, hps, rfl⟩ := (calc_stationary_iff hr hwl).1 hc
    exact ⟨f, _, S, C, ps, hm, hS, hC, hps, hrec, (index_ok_iff.1 hi).2⟩
  · rintro ⟨f, h₁, S, C, ps, hm, hS, hC, hps, hrec, rfl⟩
    refine ⟨f, h₁, hm, _, _, ⟨rfl, rfl⟩, S, _, ⟨hS, rfl⟩, C, _, ⟨hC, rfl⟩,
      ((items (h.src s).cols (which (h.src s).cols.n_sources ws)).map live, unzipPairs ps), _, ⟨?_, rfl⟩, (), h', hrec, ?_, rfl⟩
    · rw [match_params_cols hm]
      exact (calc_stationary_iff hr hwl).2 ⟨ps, hps, rfl⟩
    · rw [match_params_cols hm]
      refine index_ok_iff.2 ⟨?_, rfl⟩
      rw [unzipPairs_fst_length, mapM_length hps, items_length hwl, hwl]

theorem get_snr_evolving_iff {W : World} {s : ℕ} {a : SnrArgs} {n : ℕ} {ws : Option (List Bool)} {h h' : Heap}
    {v : List (Option ℝ)} (hn : n ≠ 0) (hs : CompleteSchedule W (h.src s)) (hr : Rect (h.src s).cols)
    (hw : FitsMask (h.src s).cols ws) :
    get_snr_evolving W s a n ws h = (.ok v, h') ↔ ∃ f h₁ S C ps, match_params W s a true h = (.ok f, h₁) ∧
      HasSettings (h₁.src s) S ∧ ctxOf W (h₁.src s) f = .ok C ∧
      (items (h.src s).cols (which (h.src s).cols.n_sources ws)).mapM (orZero (evolOne W C S n)) = .ok ps ∧
      record_snr s ((items (h.src s).cols (which (h.src s).cols.n_sources ws)).map live) (unzipPairs ps) h₁ = (.ok (), h') ∧
      v = np.select (which (h.src s).cols.n_sources ws) (ps.map Prod.fst) := by
  have hwl := which_length hw
  unfold get_snr_evolving
  simp only [bind_ok_iff, getSrc_ok_iff, getSettings_ok_iff, lift_ok_iff]
  constructor
  · rintro ⟨f, h₁, hm, x, h₂, ⟨ex, e₂⟩, S, h₃, ⟨hS, e₃⟩, C, h₄, ⟨hC, e₄⟩, res, h₅, ⟨hc, e₅⟩, u, h₆, hrec, hi, e₆⟩
    subst ex e₂ e₃ e₄ e₅ e₆
    rw [match_params_cols hm] at hc hi
    have hs' : S.n_proc > 1 → ∀ m, ∀ i < m, i ∈ W.schedule m := by
      rw [← hS.2.2, match_params_n_proc hm]
      exact hs
    obtain ⟨ps, hps, rfl⟩ := (calc_evolving_iff hr hwl hn hs').1 hc
    exact ⟨f, _, S, C, ps, hm, hS, hC, hps, hrec, (index_ok_iff.1 hi).2⟩
  · rintro ⟨f, h₁, S, C, ps, hm, hS, hC, hps, hrec, rfl⟩
    have hs' : S.n_proc > 1 → ∀ m, ∀ i < m, i ∈ W.schedule m := by
      rw [← hS.2.2, match_params_n_proc hm]
      exact hs
    refine ⟨f, h₁, hm, _, _, ⟨rfl, rfl⟩, S, _, ⟨hS, rfl⟩, C, _, ⟨hC, rfl⟩,
      ((items (h.src s).cols (which (h.src s).cols.n_sources ws)).map live, unzipPairs ps), _, ⟨?_, rfl⟩, (), h', hrec, ?_, rfl⟩
    · rw [match_params_cols hm]
      exact (calc_evolving_iff hr hwl hn hs').2 ⟨ps, hps, rfl⟩
    · rw [match_params_cols hm]
      refine index_ok_iff.2 ⟨?_, rfl⟩
      rw [unzipPairs_fst_length, mapM_length hps, items_length hwl, hwl]

end Legwork.source
