import Verif.Lemmas.Verbose
import Verif.Model.Iterate
import Verif.Props.SourceSnr

/-!
# What is printed about a collection (C104)
-/

namespace Legwork.Props

open Legwork.source Legwork.Spec Legwork.snr
open PyM hiding bind

variable {W : World} {s n r : ℕ} {a : SnrArgs} {ws : Which} {k k' : Console}

/-- **C104** (printing is all it does). `verbose=True` changes no result, no exception and no object, for every class and
for the two halves; only a python list as `which_sources` must be excluded (see `C104_list`). -/
theorem C104_only_prints (W : World) (s n : ℕ) (a : SnrArgs) (verbose : Bool) (ws : Which) (k : Console) :
    ((verbose = true → ∀ m, ws ≠ .list m) → (get_snr_v W s a n verbose ws k).1 = (get_snr W s a n ws.mask k.heap).1 ∧
      (get_snr_v W s a n verbose ws k).2.heap = (get_snr W s a n ws.mask k.heap).2) ∧
    ((get_snr_stationary_v W s a verbose ws k).1 = (get_snr_stationary W s a ws.mask k.heap).1 ∧
      (get_snr_stationary_v W s a verbose ws k).2.heap = (get_snr_stationary W s a ws.mask k.heap).2) ∧
    (get_snr_evolving_v W s a n verbose ws k).1 = (get_snr_evolving W s a n ws.mask k.heap).1 ∧
      (get_snr_evolving_v W s a n verbose ws k).2.heap = (get_snr_evolving W s a n ws.mask k.heap).2 :=
  ⟨fun hv => get_snr_v_erases hv k, get_snr_stationary_v_erases W s a verbose ws k, get_snr_evolving_v_erases W s a n verbose ws k⟩

/-- **C104** (silence). Without `verbose` nothing is printed, whether or not the call raises. -/
theorem C104_silent (W : World) (s n : ℕ) (a : SnrArgs) (ws : Which) (k : Console) :
    (get_snr_v W s a n false ws k).2.printed = k.printed ∧ (get_snr_stationary_v W s a false ws k).2.printed = k.printed ∧
    (get_snr_evolving_v W s a n false ws k).2.printed = k.printed :=
  ⟨get_snr_v_silent W s a n ws k, get_snr_stationary_v_silent W s a ws k, get_snr_evolving_v_silent W s a n ws k⟩

/-- **C104** (the halves). `get_snr_stationary` and `get_snr_evolving` print how many of the selected sources that have not
merged are circular and how many are eccentric. -/
theorem C104_halves {vs : List (Option ℝ)} (hr : Rect (k.heap.src s).cols) (hw : FitsMask (k.heap.src s).cols ws.mask) :
    (get_snr_stationary_v W s a true ws k = (.ok vs, k') → ∃ tol, (k.heap.src s).ecc_tol = some tol ∧
      k'.printed = k.printed ++ detailLines (k.heap.src s).cols "stationary" tol (Inspiralling ws.mask)) ∧
    (get_snr_evolving_v W s a n true ws k = (.ok vs, k') → ∃ tol, (k.heap.src s).ecc_tol = some tol ∧
      k'.printed = k.printed ++ detailLines (k.heap.src s).cols "evolving" tol (Inspiralling ws.mask)) :=
  ⟨get_snr_stationary_v_prints hr hw, get_snr_evolving_v_prints hr hw⟩

/-- **C104** (subclasses). `get_snr` of the classes `Stationary` and `Evolving` prints these lines for all sources. -/
theorem C104_classes (hr : Rect (k.heap.src s).cols) (hrun : get_snr_v W s a n true ws k = (.ok r, k')) :
    ((k.heap.src s).cls = .Stationary → ∃ tol, (k.heap.src s).ecc_tol = some tol ∧
      k'.printed = k.printed ++ detailLines (k.heap.src s).cols "stationary" tol (fun _ one => one.merged = false)) ∧
    ((k.heap.src s).cls = .Evolving → ∃ tol, (k.heap.src s).ecc_tol = some tol ∧
      k'.printed = k.printed ++ detailLines (k.heap.src s).cols "evolving" tol (fun _ one => one.merged = false)) := by
  unfold get_snr_v at hrun
  obtain ⟨src, k₁, g1, hrun⟩ := bind_eq_ok hrun
  cases g1
  have hno : FitsMask (k.heap.src s).cols Which.none.mask := fun m hm => by cases hm
  have hins : ∀ kind tol, detailLines (k.heap.src s).cols kind tol (Inspiralling Which.none.mask) =
      detailLines (k.heap.src s).cols kind tol (fun _ one => one.merged = false) := fun kind tol =>
    detail_congr fun i _ => ⟨fun h => h.2, fun h => ⟨fun m hm => (by cases hm), h⟩⟩
  refine ⟨fun hc => ?_, fun hc => ?_⟩
  · rw [hc] at hrun
    change Stationary_get_snr_v W s a true k = _ at hrun
    unfold Stationary_get_snr_v at hrun
    obtain ⟨vs, k₂, g2, g3⟩ := bind_eq_ok hrun
    obtain ⟨tol, htol, hp⟩ := get_snr_stationary_v_prints hr hno g2
    exact ⟨tol, htol, by rw [(quiet_ok g3).2, hp, hins]⟩
  · rw [hc] at hrun
    change Evolving_get_snr_v W s a n true k = _ at hrun
    unfold Evolving_get_snr_v at hrun
    obtain ⟨vs, k₂, g2, g3⟩ := bind_eq_ok hrun
    obtain ⟨tol, htol, hp⟩ := get_snr_evolving_v_prints hr hno g2
    exact ⟨tol, htol, by rw [(quiet_ok g3).2, hp, hins]⟩

/-- Which sources the two masks of `get_snr` stand for. -/
private theorem mask_meaning {c : Cols} {w : Option (List Bool)} (hw : FitsMask c w) (K : Consts) (T tol : ℝ) (b : Bool)
    {i : ℕ} (hi : i < c.n_sources) :
    Chosen (some ((items c (which c.n_sources w)).map fun x => (stat1 K T tol x.1 == b) && live x)) i ↔
      Inspiralling w i (rowAt c i) ∧ ((rowAt c i).StationaryOver K T tol ↔ b = true) := by
  refine chosen_map hw (P := fun i r => Inspiralling w i r ∧ (r.StationaryOver K T tol ↔ b = true)) (fun i b' hb => ?_) hi
  unfold live Inspiralling stat1
  rw [← hb]
  rcases b with _ | _
  · by_cases hs : (rowAt c i).StationaryOver K T tol <;> simp [hs]
  · by_cases hs : (rowAt c i).StationaryOver K T tol <;> simp [hs]

set_option maxHeartbeats 1000000 in
/-- **C104.** A successful `get_snr(verbose=True)` on a plain `Source` prints exactly these lines: how many sources are
selected, how many of the collection have merged, and of the selected ones that have not, how many are stationary over the
observation time, how many of these circular and how many eccentric, and likewise those that evolve. Lines about no source
are left out. -/
theorem C104_printed (hcls : (k.heap.src s).cls = .Source ∨ (k.heap.src s).cls = .VerificationBinaries) (hn : n ≠ 0)
    (hs : CompleteSchedule W (k.heap.src s)) (hr : Rect (k.heap.src s).cols) (hl : ∀ m, ws ≠ .list m)
    (hw : FitsMask (k.heap.src s).cols ws.mask) (hrun : get_snr_v W s a n true ws k = (.ok r, k')) :
    ∃ p T tol, (k'.heap.src s).sc_params = some p ∧ MaskTime (k'.heap.par p).dict .none T ∧
      (k.heap.src s).ecc_tol = some tol ∧
      k'.printed = k.printed ++ snrLines W.K (k.heap.src s).cols ws.mask T (k.heap.src s).stat_tol tol := by
  have hrun' : Source_get_snr_v W s a n true ws k = (.ok r, k') := by
    unfold get_snr_v at hrun
    obtain ⟨src, k₁, g1, hrun⟩ := bind_eq_ok hrun
    cases g1
    rcases hcls with hc | hc <;> · rw [hc] at hrun; exact hrun
  have herase := Source_get_snr_v_erases (W := W) (s := s) (a := a) (n := n) (fun _ : true = true => hl) k
  rw [hrun'] at herase
  have hsrun : Source_get_snr W s a n ws.mask k.heap = (.ok r, k'.heap) :=
    Prod.ext herase.1.symm herase.2.symm
  obtain ⟨f, h₁, T, S, hR, -, hcase⟩ := Source_get_snr_values hn hs hr hw hsrun _ rfl
  obtain ⟨p, hp1, hT1⟩ := hR.time
  -- the observation time is in the parameters afterwards
  have hfinal : (k'.heap.src s).sc_params = some p ∧ MaskTime (k'.heap.par p).dict .none T := by
    obtain ⟨p', f₀, -, hp', -, hff, hag⟩ := match_params_agrees hR.matched
    rw [hp1] at hp'
    cases hp'
    obtain ⟨ht, -⟩ := agrees_iff.1 hag
    rcases hcase with ⟨-, ho, -⟩ | ⟨-, f', h₂, C, ps, hcalc, ho, -⟩
    · refine ⟨by rw [ho.sc_params]; exact hp1, ?_⟩
      rw [ho.par]
      rcases hT1 with ⟨-, hT1⟩ | ⟨-, hT1⟩
      · exact Or.inr ⟨rfl, _, ht, hT1⟩
      · exact Or.inr ⟨rfl, hT1⟩
    · obtain ⟨p₂, i, cp, L, aR, cn, kw, T', hp₂, -, -, -, -, -, -, hT', hC⟩ := callCtx hcalc.matched hcalc.ctx ho
      have hsc := match_params_scOnly hcalc.matched
      obtain ⟨p₃, f₃, hp₃, hp₃', -⟩ := match_params_agrees hcalc.matched
      have : p₂ = p := by
        rw [ho.sc_params, hp₃'] at hp₂
        rw [hp1] at hp₃
        cases hp₂
        cases hp₃
        rfl
      subst this
      refine ⟨hp₂, Or.inr ⟨rfl, _, hT', Or.inl ?_⟩⟩
      have := hcalc.time
      rw [hC] at this
      exact congrArg _ this
  refine ⟨p, T, S.ecc_tol, hfinal.1, hfinal.2, ((match_params_scOnly hR.matched).hasSettings.1 hR.settings).1, ?_⟩
  -- step by step
  unfold Source_get_snr_v at hrun'
  obtain ⟨f', k₁, g1, hrun'⟩ := bind_eq_ok hrun'
  obtain ⟨src, k₂, g2, hrun'⟩ := bind_eq_ok hrun'
  obtain ⟨_u, k₃, g3, hrun'⟩ := bind_eq_ok hrun'
  obtain ⟨stat, k₄, g4, hrun'⟩ := bind_eq_ok hrun'
  obtain ⟨sm, k₅, g5, hrun'⟩ := bind_eq_ok hrun'
  obtain ⟨evo, k₆, g6, hrun'⟩ := bind_eq_ok hrun'
  obtain ⟨em, k₇, g7, hrun'⟩ := bind_eq_ok hrun'
  obtain ⟨x, k₈, g8, hrun'⟩ := bind_eq_ok hrun'
  obtain ⟨y, k₉, g9, g10⟩ := bind_eq_ok hrun'
  obtain ⟨m1, p1⟩ := quiet_ok g1
  rw [hR.matched] at m1
  obtain ⟨e1, e2⟩ := Prod.mk.inj m1
  cases e1
  obtain ⟨m2, p2⟩ := quiet_ok g2
  obtain ⟨rfl, b2⟩ := getSrc_ok_iff.1 m2
  have hc1 : (k₁.heap.src s).cols = (k.heap.src s).cols := by rw [← e2]; exact match_params_cols hR.matched
  have hstol : (k₁.heap.src s).stat_tol = (k.heap.src s).stat_tol := by
    obtain ⟨_, _, he⟩ := (match_params_scOnly hR.matched).src s
    rw [← e2, he]
  rw [hc1] at g3 g5 g7 g8
  have hwl := which_length hw
  obtain ⟨m3, p3⟩ := announce_prints hl hr hw g3
  obtain ⟨m4, p4⟩ := quiet_ok g4
  obtain ⟨m5, e5⟩ := liftV_ok g5
  obtain ⟨m6, p6⟩ := quiet_ok g6
  obtain ⟨m7, e7⟩ := liftV_ok g7
  rw [get_source_mask_run] at m4 m6
  obtain ⟨m4, q4⟩ := Prod.mk.inj m4
  obtain ⟨m6, q6⟩ := Prod.mk.inj m6
  have heap3 : k₃.heap = h₁ := by rw [m3, b2, e2]
  have heap4 : k₄.heap = h₁ := by rw [← q4, heap3]
  have heap6 : k₆.heap = h₁ := by rw [← q6, e5, heap4]
  rw [heap3] at m4
  rw [e5, heap4] at m6
  rw [← e2] at hc1 hstol
  have hr1 : Rect (h₁.src s).cols := by rw [hc1]; exact hr
  have hSe : (h₁.src s).ecc_tol.isSome := by rw [hR.settings.1]; rfl
  have hSq : (h₁.src s).harmonics_required.isSome := by rw [hR.settings.2.1]; rfl
  obtain ⟨T₁, hT₁, rfl⟩ := (maskOf_stationary hr1 hSe hSq hp1).1 m4
  obtain ⟨T₂, hT₂, rfl⟩ := (maskOf_stationary hr1 hSe hSq hp1).1 m6
  cases maskTime_unique hT1 hT₁
  cases maskTime_unique hT1 hT₂
  rw [hc1, reduce3_ok hr hwl, hstol] at m5 m7
  cases m5
  cases m7
  have hlen : (items (k.heap.src s).cols (which (k.heap.src s).cols.n_sources ws.mask)).length = (k.heap.src s).cols.n_sources :=
    items_length hwl
  -- the two halves
  have hfit : ∀ b, FitsMask (k.heap.src s).cols (some ((items (k.heap.src s).cols (which (k.heap.src s).cols.n_sources ws.mask)).map
      fun x => (stat1 W.K T (k.heap.src s).stat_tol x.1 == b) && live x)) := by
    intro b m hm
    cases hm
    rw [List.length_map, hlen]
  have hmean : ∀ b, ∀ i < (k.heap.src s).cols.n_sources, Inspiralling (some ((items (k.heap.src s).cols
      (which (k.heap.src s).cols.n_sources ws.mask)).map fun x => (stat1 W.K T (k.heap.src s).stat_tol x.1 == b) && live x)) i
        (rowAt (k.heap.src s).cols i) ↔ Inspiralling ws.mask i (rowAt (k.heap.src s).cols i) ∧
          ((rowAt (k.heap.src s).cols i).StationaryOver W.K T (k.heap.src s).stat_tol ↔ b = true) := by
    intro b i hi
    conv_lhs => rw [Inspiralling, mask_meaning hw _ _ _ _ hi]
    unfold Inspiralling
    tauto
  have hcount : ∀ b, ((items (k.heap.src s).cols (which (k.heap.src s).cols.n_sources ws.mask)).map
      fun x => (stat1 W.K T (k.heap.src s).stat_tol x.1 == b) && live x).count true = howMany (k.heap.src s).cols
        (fun i r => Inspiralling ws.mask i r ∧ (r.StationaryOver W.K T (k.heap.src s).stat_tol ↔ b = true)) := by
    intro b
    rw [count_howMany (by rw [List.length_map, hlen])]
    refine howMany_congr fun i hi => ?_
    rw [← mask_meaning hw W.K T _ b hi]
    unfold Chosen
    simp
  have hany : ∀ (m : List Bool), m.any id = false → m.count true = 0 := by
    intro m hm
    by_contra hc
    rw [any_count.2 hc] at hm
    cases hm
  have heap7 : k₇.heap = h₁ := by rw [e7, heap6]
  obtain ⟨p8, l8⟩ := snr_part_v_prints (lines := detailLines (k.heap.src s).cols "stationary" S.ecc_tol
      (fun i r => Inspiralling ws.mask i r ∧ (r.StationaryOver W.K T (k.heap.src s).stat_tol ↔ true = true)))
    (by simp [hlen]) (fun _ k₀ vs hk₀ hv => by
      obtain ⟨tol, htol, hp⟩ := get_snr_stationary_v_prints (ws := .array _) (by rw [hk₀, heap7]; exact hr1)
        (by rw [hk₀, heap7, hc1]; exact hfit true) hv
      rw [hk₀, heap7, hR.settings.1] at htol
      cases htol
      rw [hp, hk₀, heap7, hc1]
      exact congrArg _ (detail_congr (hmean true)))
    (fun hm => detail_nil (by rw [← hcount true]; exact hany _ hm)) g8
  have hc8 : (k₈.heap.src s).cols = (k.heap.src s).cols ∧ (k₈.heap.src s).ecc_tol = some S.ecc_tol := by
    have herase8 := snr_part_v_erases (verbose := true) (kind := "stationary")
      (mask := (items (k.heap.src s).cols (which (k.heap.src s).cols.n_sources ws.mask)).map
        fun x => (stat1 W.K T (k.heap.src s).stat_tol x.1 == true) && live x)
      (x := List.replicate (k.heap.src s).cols.n_sources (some 0))
      (get_snr_stationary_v_erases W s f true (.array ((items (k.heap.src s).cols (which (k.heap.src s).cols.n_sources ws.mask)).map
        fun x => (stat1 W.K T (k.heap.src s).stat_tol x.1 == true) && live x))) k₇
    rw [g8] at herase8
    have hsc := snr_part_snrCall (m := (items (k.heap.src s).cols (which (k.heap.src s).cols.n_sources ws.mask)).map
        fun x => (stat1 W.K T (k.heap.src s).stat_tol x.1 == true) && live x)
      (x := List.replicate (k.heap.src s).cols.n_sources (some 0)) (h := k₇.heap)
      (get_snr_stationary_snrCall W s f (some ((items (k.heap.src s).cols (which (k.heap.src s).cols.n_sources ws.mask)).map
        fun x => (stat1 W.K T (k.heap.src s).stat_tol x.1 == true) && live x)) k₇.heap)
    change SnrCall k₇.heap (snr_part _ (get_snr_stationary W s f (Which.array _).mask) _ k₇.heap).2 at hsc
    rw [← herase8.2] at hsc
    refine ⟨by rw [hsc.cols s, heap7, hc1], ?_⟩
    obtain ⟨_, _, _, he⟩ := hsc.src s
    simp only at he
    rw [he, heap7]
    exact hR.settings.1
  obtain ⟨p9, -⟩ := snr_part_v_prints (lines := detailLines (k.heap.src s).cols "evolving" S.ecc_tol
      (fun i r => Inspiralling ws.mask i r ∧ (r.StationaryOver W.K T (k.heap.src s).stat_tol ↔ false = true)))
    (by rw [l8]; simp [hlen]) (fun _ k₀ vs hk₀ hv => by
      obtain ⟨tol, htol, hp⟩ := get_snr_evolving_v_prints (ws := .array _) (by rw [hk₀, hc8.1]; exact hr)
        (by rw [hk₀, hc8.1]; exact hfit false) hv
      rw [hk₀, hc8.2] at htol
      cases htol
      rw [hp, hk₀, hc8.1]
      exact congrArg _ (detail_congr (hmean false)))
    (fun hm => detail_nil (by rw [← hcount false]; exact hany _ hm)) g9
  rw [(quiet_ok g10).2, p9, p8, e7, p6, e5, p4, p3, p2, p1, hcount, hcount]
  unfold snrLines
  simp [List.append_assoc]

/-- **C104** (the numbers add up). The selected sources are the selected merged ones, the stationary and the evolving ones
together, and each of these the circular and the eccentric ones. So without a selection the numbers printed add up. With
one, they need not: the merged sources counted are those of the whole collection. -/
theorem C104_adds_up (K : Consts) (c : Cols) (w : Option (List Bool)) (T stat_tol ecc_tol : ℝ) :
    (howMany c fun i _ => Chosen w i) = (howMany c fun i r => Chosen w i ∧ r.merged = true) +
      (howMany c fun i r => Inspiralling w i r ∧ r.StationaryOver K T stat_tol) +
      (howMany c fun i r => Inspiralling w i r ∧ ¬ r.StationaryOver K T stat_tol) ∧
    (∀ P, howMany c P = (howMany c fun i r => P i r ∧ r.ecc ≤ ecc_tol) + howMany c fun i r => P i r ∧ ecc_tol < r.ecc) ∧
    (w = none → (howMany c fun i r => Chosen w i ∧ r.merged = true) = howMany c fun _ r => r.merged = true) ∧
    (∀ i < c.n_sources, ¬ Chosen w i → (rowAt c i).merged = true →
      (howMany c fun i r => Chosen w i ∧ r.merged = true) < howMany c fun _ r => r.merged = true) := by
  classical
  have split : ∀ P Q : ℕ → One → Prop, howMany c P = (howMany c fun i r => P i r ∧ Q i r) + howMany c fun i r => P i r ∧ ¬ Q i r := by
    intro P Q
    unfold howMany
    induction List.range c.n_sources with
    | nil => rfl
    | cons i l ih =>
      by_cases hP : P i (rowAt c i) <;> by_cases hQ : Q i (rowAt c i) <;> simp [hP, hQ] at ih ⊢ <;> omega
  refine ⟨?_, fun P => ?_, fun hw => ?_, fun i hi hch hm => ?_⟩
  · rw [split (fun i _ => Chosen w i) (fun _ r => r.merged = true),
      split (fun i r => Chosen w i ∧ ¬ r.merged = true) (fun _ r => r.StationaryOver K T stat_tol), ← add_assoc]
    unfold Inspiralling
    simp only [Bool.not_eq_true]
  · rw [split P (fun _ r => r.ecc ≤ ecc_tol)]
    simp only [not_le]
  · refine howMany_congr fun i _ => ?_
    subst hw
    exact ⟨fun h => h.2, fun h => ⟨fun m hm => (by cases hm), h⟩⟩
  · rw [split (fun _ r => r.merged = true) (fun i _ => Chosen w i)]
    have h1 : howMany c (fun i r => r.merged = true ∧ Chosen w i) = howMany c (fun i r => Chosen w i ∧ r.merged = true) :=
      howMany_congr fun i _ => and_comm
    have h2 : 0 < howMany c (fun i r => r.merged = true ∧ ¬ Chosen w i) := by
      unfold howMany
      rw [List.length_pos_iff_exists_mem]
      exact ⟨i, List.mem_filter.2 ⟨List.mem_range.2 hi, by simp [hm, hch]⟩⟩
    omega

/-- **C104** (the exception). A python list as `which_sources` works like an array, but with `verbose=True` it is a
`TypeError`. Nothing has been printed then, and the settings of the call are stored already. -/
theorem C104_list (m : List Bool) (hcls : (k.heap.src s).cls = .Source ∨ (k.heap.src s).cls = .VerificationBinaries)
    {f : SnrArgs} {h₁ : Heap} (hm : match_params W s a false k.heap = (.ok f, h₁)) :
    get_snr_v W s a n true (.list m) k = (.error .TypeError, { k with heap := h₁ }) ∧
    get_snr_v W s a n false (.list m) k = get_snr_v W s a n false (.array m) k := by
  have hu : ∀ v w, get_snr_v W s a n v w k = Source_get_snr_v W s a n v w k := by
    intro v w
    unfold get_snr_v
    change (match (k.heap.src s).cls with
      | .Stationary => Stationary_get_snr_v W s a v
      | .Evolving => Evolving_get_snr_v W s a n v
      | _ => Source_get_snr_v W s a n v w) k = _
    rcases hcls with hc | hc <;> rw [hc]
  rw [hu, hu, hu]
  refine ⟨?_, rfl⟩
  unfold Source_get_snr_v
  rw [bind_ok (a := f) (h' := { k with heap := h₁ }) (by unfold quiet; rw [hm])]
  rfl

/-- **C104** (`repr`). The text that stands for a collection names its class and tells how many sources it has; printing it
changes nothing. -/
theorem C104_repr {h h' : Heap} {t t' : String} (ht : source.repr s h = (.ok t, h')) {h₀ h₀' : Heap} {s' : ℕ}
    (ht' : source.repr s' h₀ = (.ok t', h₀')) :
    h' = h ∧ (t = t' ↔ (h.src s).cls = (h₀.src s').cls ∧
      ((h.src s).cls = .VerificationBinaries ∨ (h.src s).cols.n_sources = (h₀.src s').cols.n_sources)) := by
  have hinj : ∀ {n m : ℕ} {p q : String}, p ++ toString n ++ q = p ++ toString m ++ q → n = m := by
    intro n m p q he
    have he := congrArg String.toList he
    simp only [String.toList_append, List.append_cancel_left_eq, List.append_cancel_right_eq] at he
    change n.repr.toList = m.repr.toList at he
    rw [Nat.toList_repr, Nat.toList_repr] at he
    rw [← Nat.ofDigitChars_ten_toDigits (n := n), he, Nat.ofDigitChars_ten_toDigits]
  unfold source.repr at ht ht'
  simp only [bind_run, getSrc, pure_run, Prod.mk.injEq, Except.ok.injEq] at ht ht'
  obtain ⟨rfl, rfl⟩ := ht
  obtain ⟨rfl, rfl⟩ := ht'
  refine ⟨rfl, fun he => ?_, fun ⟨h1, h2⟩ => ?_⟩
  · cases h1 : (h.src s).cls <;> cases h2 : (h₀.src s').cls <;> rw [h1, h2] at he <;>
      first
      | exact ⟨rfl, Or.inl rfl⟩
      | exact ⟨rfl, Or.inr (hinj he)⟩
      | (exfalso
         have he := congrArg String.toList he
         simp [String.toList_append] at he)
  · rw [← h1]
    rcases h2 with h2 | h2
    · rw [h2]
    · rw [h2]

/-! ### The hypotheses are met -/

/-- A verbose run on the example collection, of one of its two sources. -/
noncomputable example : ∃ r k', get_snr_v Example.world 0 {} 100 true (.array [true, false]) ⟨Example.heap, []⟩ = (.ok r, k') ∧
    k'.printed.take 2 = ["Calculating SNR for 1 sources", "\t0 sources have already merged"] ∧ 4 ≤ k'.printed.length := by
  have hc : (Example.heap.src 0).cols = Example.cols := by rw [Example.heap_src]; rfl
  have hw : FitsMask (Example.heap.src 0).cols (some [true, false]) := by
    intro m hm; cases hm; rw [Example.heap_src]; rfl
  obtain ⟨r, h', hrun⟩ := example_get_snr _ hw
  have herase := (C104_only_prints Example.world 0 100 {} true (.array [true, false]) ⟨Example.heap, []⟩).1 (fun _ m hm => by cases hm)
  change _ = (get_snr Example.world 0 {} 100 (some [true, false]) Example.heap).1 ∧ _ at herase
  rw [hrun] at herase
  obtain ⟨k', hk⟩ : ∃ k', get_snr_v Example.world 0 {} 100 true (.array [true, false]) ⟨Example.heap, []⟩ = (.ok r, k') :=
    ⟨_, Prod.ext herase.1 rfl⟩
  obtain ⟨p, T, tol, -, -, -, hp⟩ := C104_printed (Or.inl (by rw [Example.heap_src]; rfl)) (by norm_num) example_schedule
    example_rect (fun m hm => by cases hm) hw hk
  refine ⟨r, k', hk, ?_⟩
  have hn : Example.cols.n_sources = 2 := rfl
  have h1 : (howMany Example.cols fun i _ => Chosen (some [true, false]) i) = 1 := by
    unfold howMany Chosen
    rw [hn]
    simp [List.range_succ, List.filter_cons]
  have h2 : (howMany Example.cols fun _ r => r.merged = true) = 0 := by
    unfold howMany
    rw [hn]
    have e0 : (rowAt Example.cols 0).merged = false := rfl
    have e1 : (rowAt Example.cols 1).merged = false := rfl
    simp [List.range_succ, List.filter_cons, e0, e1]
  have hlive : howMany Example.cols (Inspiralling (some [true, false])) = 1 := by
    unfold howMany Inspiralling Chosen
    rw [hn]
    have e0 : (rowAt Example.cols 0).merged = false := rfl
    simp [List.range_succ, List.filter_cons, e0]
  change k'.printed = [] ++ snrLines _ (Example.heap.src 0).cols (some [true, false]) T (Example.heap.src 0).stat_tol tol at hp
  rw [hc, List.nil_append] at hp
  have hsum := (C104_adds_up Example.world.K Example.cols (some [true, false]) T (Example.heap.src 0).stat_tol tol)
  have hm0 : (howMany Example.cols fun i r => Chosen (some [true, false]) i ∧ r.merged = true) = 0 := by
    unfold howMany
    rw [hn]
    have e0 : (rowAt Example.cols 0).merged = false := rfl
    have e1 : (rowAt Example.cols 1).merged = false := rfl
    simp [List.range_succ, List.filter_cons, e0, e1]
  rw [hp]
  unfold snrLines
  rw [h1, h2]
  refine ⟨rfl, ?_⟩
  have hs1 := hsum.1
  rw [h1, hm0] at hs1
  have hd1 := hsum.2.1 (fun i r => Inspiralling (some [true, false]) i r ∧ r.StationaryOver Example.world.K T (Example.heap.src 0).stat_tol)
  have hd2 := hsum.2.1 (fun i r => Inspiralling (some [true, false]) i r ∧ ¬ r.StationaryOver Example.world.K T (Example.heap.src 0).stat_tol)
  have hlen : ∀ n a b, n ≠ 0 → (lineIf n a b).length = 1 := fun n a b h => by unfold lineIf; rw [if_neg h]; rfl
  unfold detailLines
  simp only [List.length_append, List.length_cons, List.length_nil]
  rcases Nat.eq_zero_or_pos (howMany Example.cols fun i r => Inspiralling (some [true, false]) i r ∧
      r.StationaryOver Example.world.K T (Example.heap.src 0).stat_tol) with hz | hz
  · rw [hz] at hs1
    have := hlen _ "\t" " sources are evolving" (by omega : (howMany Example.cols fun i r => Inspiralling (some [true, false]) i r ∧
      ¬ r.StationaryOver Example.world.K T (Example.heap.src 0).stat_tol) ≠ 0)
    rcases Nat.eq_zero_or_pos (howMany Example.cols fun i r => (Inspiralling (some [true, false]) i r ∧
      ¬ r.StationaryOver Example.world.K T (Example.heap.src 0).stat_tol) ∧ r.ecc ≤ tol) with hy | hy
    · have := hlen _ "\t\t" (" sources are " ++ "evolving" ++ " and eccentric") (by omega : (howMany Example.cols fun i r =>
        (Inspiralling (some [true, false]) i r ∧ ¬ r.StationaryOver Example.world.K T (Example.heap.src 0).stat_tol) ∧ tol < r.ecc) ≠ 0)
      omega
    · have := hlen _ "\t\t" (" sources are " ++ "evolving" ++ " and circular") hy.ne'
      omega
  · have := hlen _ "\t" " sources are stationary" hz.ne'
    rcases Nat.eq_zero_or_pos (howMany Example.cols fun i r => (Inspiralling (some [true, false]) i r ∧
      r.StationaryOver Example.world.K T (Example.heap.src 0).stat_tol) ∧ r.ecc ≤ tol) with hy | hy
    · have := hlen _ "\t\t" (" sources are " ++ "stationary" ++ " and eccentric") (by omega : (howMany Example.cols fun i r =>
        (Inspiralling (some [true, false]) i r ∧ r.StationaryOver Example.world.K T (Example.heap.src 0).stat_tol) ∧ tol < r.ecc) ≠ 0)
      omega
    · have := hlen _ "\t\t" (" sources are " ++ "stationary" ++ " and circular") hy.ne'
      omega

/-- The same run with a list of booleans raises. -/
noncomputable example : (get_snr_v Example.world 0 {} 100 true (.list [true, false]) ⟨Example.heap, []⟩).1 = .error .TypeError := by
  have hw : FitsMask (Example.heap.src 0).cols (some [true, false]) := by
    intro m hm; cases hm; rw [Example.heap_src]; rfl
  obtain ⟨r, h', hrun⟩ := example_get_snr _ hw
  have hcls : (Example.heap.src 0).cls = .Source := by rw [Example.heap_src]; rfl
  rw [get_snr_run, hcls] at hrun
  change Source_get_snr _ _ _ _ _ _ = _ at hrun
  unfold Source_get_snr at hrun
  obtain ⟨f, h₁, hm, -⟩ := bind_eq_ok hrun
  rw [(C104_list (n := 100) (k := ⟨Example.heap, []⟩) [true, false] (Or.inl hcls) hm).1]

/-- The text of the example collection. -/
noncomputable example : (source.repr 0 Example.heap).1 = .ok "<Source: 2 sources>" := by
  unfold source.repr
  simp only [bind_run, getSrc, pure_run, Example.heap_src]
  rfl

end Legwork.Props
