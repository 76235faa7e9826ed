import Verif.Lemmas.Keeps
import Verif.Lemmas.Away
import Verif.Lemmas.Grows
import Verif.Props.SourceCopies
import Verif.Props.SourceSnr
import Verif.Spec.Arrays

/-!
# The arrays of SNRs a program holds (C67)

`get_snr` returns the very array stored as `snr`. The claim that such an array keeps its values is false as it stands:
the next SNR calculation on the same source writes into it before it is replaced (`C67_not_kept`). What holds is that
nothing else ever writes into it, and nothing at all once it has been replaced.
-/

namespace Legwork.Props

open Legwork.source Legwork.Spec Legwork.snr
open PyM hiding bind

variable {W : World} {s n r r₀ : ℕ} {h h' h'' : Heap} {a : SnrArgs} {ws : Option (List Bool)}

theorem calls_keep {v : List (Option ℝ)} {q : ℕ → Prop} {ok : Heap → Op → Prop} (hk : Keep True v r q h)
    (hok : ∀ h op, Keep True v r q h → ok h op → ∀ s, op.snrOf = some s → q s ∨ (h.src s).snr ≠ some r)
    (hc : Calls W ok h h') : Keep True v r q h' := by
  induction hc with
  | none => exact hk
  | call op hc hop ih =>
    rename_i h₁
    have hk' : Keep True v r (fun s => q s ∨ op.snrOf = some s) h₁ := by
      refine ⟨ih.1, ih.2.1, fun s hs => ?_⟩
      rcases hs with hs | hs
      · exact ih.2.2 s hs
      · rcases hok h₁ op ih hop s hs with h1 | h1
        · exact ih.2.2 s h1
        · exact h1
    have := keeps_run (W := W) op (P := True) (v := v) (r := r) (q := fun s => q s ∨ op.snrOf = some s)
      (fun s hs _ => Or.inr hs) h₁ hk'
    exact ⟨this.1, this.2.1, fun s hs => this.2.2 s (Or.inl hs)⟩

/-- **C67.** As long as no SNR is calculated for the source that has the array as its `snr`, the array keeps its values,
whatever else is done, with this source or others. -/
theorem C67_kept {ok : Heap → Op → Prop} (hr : Reachable W ok h) (hs : (h.src s).snr = some r)
    (hc : Calls W (SparesSnr r) h h') : h'.snrs r = h.snrs r := by
  have hlt := (((Reachable.inv hr).addr s).1 r hs).1
  have := calls_keep (W := W) (v := h.snrs r) (q := fun _ => False) ⟨hlt, fun _ => rfl, fun _ hs => hs.elim⟩
    (fun h op _ hop s hs => Or.inr (hop s hs)) hc
  exact this.2.1 trivial

/-- A new array is stored at a new address. -/
theorem get_snr_fresh (hrun : get_snr W s a n ws h = (.ok r, h')) : h.next ≤ r ∧ (h'.src s).snr = some r := by
  have key : ∀ {m : M (List (Option ℝ))}, Grows m → (m >>= fun x => store_snr s x) h = (.ok r, h') →
      h.next ≤ r ∧ (h'.src s).snr = some r := by
    intro m hm hb
    obtain ⟨x, h₁, h1, h2⟩ := bind_eq_ok hb
    have := hm h
    rw [h1] at this
    rw [store_snr_run] at h2
    cases h2
    exact ⟨this, by simp [Heap.setSrc]⟩
  rw [get_snr_run] at hrun
  have full : Source_get_snr W s a n ws h = (.ok r, h') → h.next ≤ r ∧ (h'.src s).snr = some r := by
    intro hrun
    obtain ⟨f, h₁, stat, sm, evo, em, x, h₂, y, h₃, hm, hstat, hsm, hevo, hem, hx, hy, hst⟩ := Source_get_snr_ok hrun
    have g1 := (match_params_scOnly hm).next
    have g2 := grows_snr_part (grows_get_snr_stationary W s f (some sm)) (m := sm)
      (x := List.replicate (h₁.src s).cols.n_sources (some 0)) h₁
    rw [hx] at g2
    have g3 := grows_snr_part (grows_get_snr_evolving W s f n (some em)) (m := em) (x := x) h₂
    rw [hy] at g3
    rw [store_snr_run] at hst
    cases hst
    exact ⟨g1.trans (g2.trans g3), by simp [Heap.setSrc]⟩
  rcases hc : (h.src s).cls with _ | _ | _ | _ <;> rw [hc] at hrun
  · exact full hrun
  · exact key (grows_get_snr_stationary W s _ _) hrun
  · exact key (grows_get_snr_evolving W s _ _ _) hrun
  · exact full hrun

/-- **C67** (superseded arrays). When `get_snr` has replaced the array, no sequence of calls changes it any more. -/
theorem C67_superseded {ok : Heap → Op → Prop} (hr : Reachable W ok h) (hs : (h.src s).snr = some r₀)
    (hrun : get_snr W s a n ws h = (.ok r, h')) (hc : Calls W AnyCall h' h'') :
    r ≠ r₀ ∧ h''.snrs r₀ = h'.snrs r₀ := by
  obtain ⟨hlt, hun⟩ := ((Reachable.inv hr).addr s).1 r₀ hs
  obtain ⟨hge, hnew⟩ := get_snr_fresh hrun
  have hk : Keep False (h.snrs r₀) r₀ (fun s' => s' ≠ s) h :=
    ⟨hlt, fun hf => hf.elim, fun s' hs' h1 => hs' (hun s' h1)⟩
  have hk' := keeps_get_snr (W := W) (s := s) (P := False) (fun hf => hf.elim) a n ws h hk
  rw [hrun] at hk'
  have hk'' : Keep True (h'.snrs r₀) r₀ (fun _ => True) h' := by
    refine ⟨hk'.1, fun _ => rfl, fun s' _ h1 => ?_⟩
    by_cases he : s' = s
    · subst he
      rw [hnew] at h1
      cases h1
      omega
    · exact hk'.2.2 s' he h1
  exact ⟨by omega, (calls_keep hk'' (fun _ _ _ _ _ _ => Or.inl trivial) hc).2.1 trivial⟩

/-- **C67** (what does happen). A successful `get_snr` on a source that already has an array `r₀` returns another array
`r`, but first writes the new SNR of every selected source that has not merged into `r₀`. -/
theorem C67_overwritten {ok : Heap → Op → Prop} (hcls : (h.src s).cls = .Source ∨ (h.src s).cls = .VerificationBinaries)
    (hn : n ≠ 0) (hsch : CompleteSchedule W (h.src s)) (hrect : Rect (h.src s).cols) (hw : FitsMask (h.src s).cols ws)
    (hr : Reachable W ok h) (hs : (h.src s).snr = some r₀) (hrun : get_snr W s a n ws h = (.ok r, h')) :
    ∀ (i : ℕ) (one : One), (rows (h.src s).cols)[i]? = some one →
      (one.merged = false → Chosen ws i → (h'.snrs r₀)[i]? = (h'.snrs r)[i]?) ∧
      (one.merged = true ∨ ¬ Chosen ws i → (h'.snrs r₀)[i]? = (h.snrs r₀)[i]?) := by
  have hlt := (((Reachable.inv hr).addr s).1 r₀ hs).1
  have hrun' : Source_get_snr W s a n ws h = (.ok r, h') := by
    rw [get_snr_run] at hrun
    rcases hcls with hc | hc <;> · rw [hc] at hrun; exact hrun
  obtain ⟨f, h₁, T, S, hR, hsnr, hcase⟩ := Source_get_snr_values hn hsch hrect hw hrun' _ rfl
  intro i one hi
  obtain ⟨b, hb, hbc⟩ := item_at hw hi
  have hil := items_length (c := (h.src s).cols) (which_length hw)
  rcases hcase with ⟨hany, ho, hv, -, hold⟩ | ⟨hany, f', h₂, C, ps, hcalc, ho, hv, hsome, hharm, hold⟩
  · refine ⟨fun hm hc => ?_, fun _ => by rw [hold r₀ hlt]⟩
    rw [List.any_eq_false] at hany
    exact absurd (live_iff.2 ⟨hbc.2 hc, hm⟩) (hany _ (List.mem_of_getElem? hb))
  · have hpl := mapM_length hcalc.values
    have hsl : (items (h.src s).cols (which (h.src s).cols.n_sources ws)).length = (h.snrs r₀).length := by
      rw [hcalc.snr_length, (match_params_scOnly hR.matched).snrNow, snrNow_of hs]
    rw [hold r₀ hs hlt, assign_select (by simp [hsl]) (by simp [hpl]), hv]
    refine ⟨fun hm hc => ?_, fun hm => ?_⟩
    · rw [if_pos]
      rw [List.getElem?_map, hb]
      simp [live_iff.2 ⟨hbc.2 hc, hm⟩]
    · rw [if_neg]
      rw [List.getElem?_map, hb]
      simp only [Option.map_some, Option.some.injEq]
      intro hl
      obtain ⟨h1, h2⟩ := live_iff.1 hl
      rcases hm with hm | hm
      · rw [h2] at hm
        cases hm
      · exact hm (hbc.1 h1)

/-- **C67** (`get_snr_stationary`). The array `snr` stays the same object, and the SNR of every selected source that has
not merged is written into it. -/
theorem C67_overwritten_stationary {vs : List (Option ℝ)} (hrect : Rect (h.src s).cols) (hw : FitsMask (h.src s).cols ws)
    (hs : (h.src s).snr = some r) (hrun : get_snr_stationary W s a ws h = (.ok vs, h')) :
    (h'.src s).snr = some r ∧ ∀ (i : ℕ) (one : One), (rows (h.src s).cols)[i]? = some one →
      (one.merged = false → Chosen ws i → ∃ v harm C tol q, (h'.snrs r)[i]? = some v ∧ CallCtx W h' s C ∧
        (h'.src s).ecc_tol = some tol ∧ (h'.src s).harmonics_required = some q ∧ StationarySnr C tol q one v harm) ∧
      (one.merged = true ∨ ¬ Chosen ws i → (h'.snrs r)[i]? = (h.snrs r)[i]?) := by
  have hst := C36_get_snr_stationary hrect hw hrun
  obtain ⟨f, h₁, S, C, ps, hm, -, -, -, hrec, -⟩ := (get_snr_stationary_iff hrect hw).1 hrun
  have hs' := record_snr_address hrec (by rw [(match_params_scOnly hm).snr]; exact hs)
  have e : storedSnr h s = h.snrs r := snrNow_of hs
  have e' : storedSnr h' s = h'.snrs r := snrNow_of hs'
  refine ⟨hs', fun i one hi => ⟨fun hm hc => ?_, fun hm => by rw [← e, ← e']; exact (hst.others i one hi hm).1⟩⟩
  obtain ⟨v, harm, h1, -, C, tol, q, h2⟩ := hst.stored i one hi hm hc
  exact ⟨v, harm, C, tol, q, by rw [← e']; exact h1, h2⟩

/-- **C67** (`get_snr_evolving`). Likewise. -/
theorem C67_overwritten_evolving {vs : List (Option ℝ)} (hn : n ≠ 0) (hsch : CompleteSchedule W (h.src s))
    (hrect : Rect (h.src s).cols) (hw : FitsMask (h.src s).cols ws) (hs : (h.src s).snr = some r)
    (hrun : get_snr_evolving W s a n ws h = (.ok vs, h')) :
    (h'.src s).snr = some r ∧ ∀ (i : ℕ) (one : One), (rows (h.src s).cols)[i]? = some one →
      (one.merged = false → Chosen ws i → ∃ v harm C tol q, (h'.snrs r)[i]? = some v ∧ CallCtx W h' s C ∧
        (h'.src s).ecc_tol = some tol ∧ (h'.src s).harmonics_required = some q ∧
        EvolvingSnr C W.odeint n tol q one v harm) ∧
      (one.merged = true ∨ ¬ Chosen ws i → (h'.snrs r)[i]? = (h.snrs r)[i]?) := by
  have hst := C36_get_snr_evolving hn hsch hrect hw hrun
  obtain ⟨f, h₁, S, C, ps, hm, -, -, -, hrec, -⟩ := (get_snr_evolving_iff hn hsch hrect hw).1 hrun
  have hs' := record_snr_address hrec (by rw [(match_params_scOnly hm).snr]; exact hs)
  have e : storedSnr h s = h.snrs r := snrNow_of hs
  have e' : storedSnr h' s = h'.snrs r := snrNow_of hs'
  refine ⟨hs', fun i one hi => ⟨fun hm hc => ?_, fun hm => by rw [← e, ← e']; exact (hst.others i one hi hm).1⟩⟩
  obtain ⟨v, harm, h1, -, C, tol, q, h2⟩ := hst.stored i one hi hm hc
  exact ⟨v, harm, C, tol, q, by rw [← e']; exact h1, h2⟩

/-! ### The claim itself fails -/

/-- The interpolated curve of the example is constant. -/
theorem example_sc (n : ℕ) {f : ℝ} (h1 : 1e-7 ≤ f) (h2 : f ≤ 2) :
    Example.sc n f = ((1e-40 * ((n : ℝ) + 1) : ℝ) : WithTop ℝ) := by
  have hc := curve_ok (Example.curve_params n)
  rcases scGrid_locate (x := f) (by rw [scGrid_zero]; exact h1) (by rw [scGrid_last]; exact h2) with
    ⟨i, hi, rfl⟩ | ⟨i, hi, h3, h4⟩
  · exact Example.sc_grid n hi
  · rw [hc.chord i hi f h3 h4 _ _ (Example.sc_grid n (by omega)) (Example.sc_grid n (by omega))]
    simp

/-- A source that is ready for SNR calculations stays so. -/
theorem Ready.get_snr (hh : Ready W h s) (hcls : (h.src s).cls = .Source ∨ (h.src s).cls = .VerificationBinaries) (hn : n ≠ 0)
    (hsch : CompleteSchedule W (h.src s)) (hw : FitsMask (h.src s).cols ws)
    (hrun : source.get_snr W s {} n ws h = (.ok r, h')) : Ready W h' s ∧ SnrOnly h h' := by
  have hrun' : Source_get_snr W s {} n ws h = (.ok r, h') := by
    rw [get_snr_run] at hrun
    rcases hcls with hc | hc <;> · rw [hc] at hrun; exact hrun
  obtain ⟨f₀, C₀, S₀, p₀, T₀, c₀, hm1, -, hm3, -⟩ := ready hh
  obtain ⟨hsnr, hcols, hlen, -⟩ := C36_get_snr hcls hn hsch hh.rect hw hrun
  obtain ⟨f, h₁, T, S, hR, -, hcase⟩ := Source_get_snr_values hn hsch hh.rect hw hrun' _ rfl
  have hm := hR.matched
  rw [hm1] at hm
  cases hm
  have hsl : (storedSnr h' s).length = (h.src s).cols.n_sources := by
    change (snrNow h' s).length = _
    rw [snrNow_of hsnr, hlen]
  have key : SnrOnly h h' ∧ (storedHarm h' s).length = (h.src s).cols.n_sources := by
    rcases hcase with ⟨-, ho, -, hh', -⟩ | ⟨-, f', h₂, C, ps, hcalc, ho, -, -, hh', -⟩
    · exact ⟨ho, (congrArg List.length hh').trans hh.harm_length⟩
    · have hm := hcalc.matched
      rw [hm3] at hm
      cases hm
      refine ⟨ho, (congrArg List.length hh').trans ?_⟩
      rw [np.assign_length]
      exact hh.harm_length
  obtain ⟨ho, hhl⟩ := key
  obtain ⟨x, y, he⟩ := ho.src s
  obtain ⟨hr, ⟨b1, b2, b3⟩, ⟨p, T', c, q1, q2, q3, q4, q5⟩, -, -⟩ := hh
  refine ⟨⟨by rw [hcols]; exact hr, ⟨by rw [he]; exact b1, by rw [he]; exact b2, by rw [he]; exact b3⟩,
    ⟨p, T', c, by rw [he]; exact q1, by rw [ho.par]; exact q2, by rw [ho.par]; exact q3, by rw [ho.par]; exact q4,
      by rw [he]; exact q5⟩, by rw [hcols]; exact hsl, by rw [hcols]; exact hhl⟩, ho⟩

theorem example_tol_nonneg : 0 ≤ Example.eccTol := (C33_pos (by norm_num) Example.find_eccTol).le

/-- Any SNR of the first source of the example, as a stationary source, is positive. -/
theorem example_snr_pos {C : Ctx} {tol : ℝ} {q : ℝ → ℤ} {v : Option ℝ} {harm : ℕ}
    (hC : CallCtx Example.world h 0 C) (hg : (h.src 0).g = some fun n e => utils.peters_g n e)
    (hsc : (h.src 0).sc = some (Example.sc 0)) (hT : ∀ p, (h.src 0).sc_params = some p → (h.par p).dict.get? "t_obs" = some (.time 1e8))
    (htol : 0 ≤ tol) (hv : StationarySnr C tol q (rowAt Example.cols 0) v harm) : ∃ x : ℝ, v = some x ∧ 0 < x := by
  obtain ⟨p, i, cp, L, aR, cn, kw, T, hp, -, -, -, -, -, -, ht, rfl⟩ := hC
  rw [hT p hp] at ht
  cases ht
  obtain ⟨h1, -⟩ := hv.1 htol
  rw [snr_circ_stationary_eq _ _ (N := Example.sc 0) (μ := fun _ => 1) ?_ ?_] at h1
  · simp only [List.map_cons, List.map_nil, Except.ok.injEq, List.cons.injEq, and_true] at h1
    have hpos : 0 < circ2 ⟨Example.world.K, Example.world.env, kw, (h.src 0).g, (h.src 0).sc, 1e8⟩ (Example.sc 0) 1
        (rowAt Example.cols 0).circ := by
      unfold circ2
      have hf : 2 * (rowAt Example.cols 0).circ.f_orb = 2e-3 := by
        change 2 * (1e-3 : ℝ) = 2e-3
        norm_num
      rw [hf, example_sc 0 (by norm_num) (by norm_num)]
      change 0 < _ / _
      have : 0 < strain.h_0_val Example.world.K (h.src 0).g (rowAt Example.cols 0).circ.m_c (rowAt Example.cols 0).circ.dist
          (rowAt Example.cols 0).circ.f_orb 0 2 := by
        unfold strain.h_0_val
        have hg' : strain.g_vals (h.src 0).g 2 0 = 1 := by
          rw [hg]
          unfold strain.g_vals
          simp only
          rw [C05_circular (by norm_num)]
          norm_num
        have hm : 0 < (rowAt Example.cols 0).circ.m_c := by
          change 0 < utils.chirp_mass 2e30 1e30
          unfold utils.chirp_mass
          positivity
        have hd : 0 < (rowAt Example.cols 0).circ.dist := by
          change (0 : ℝ) < 1e20
          norm_num
        have hfo : 0 < (rowAt Example.cols 0).circ.f_orb := by
          change (0 : ℝ) < 1e-3
          norm_num
        have := Example.world.K.G_pos
        have := Example.world.K.c_pos
        have hpi := Real.pi_pos
        rw [hg']
        positivity
      have h8 : (0 : ℝ) < 1e8 := by norm_num
      positivity
    refine ⟨_, h1.symm.trans (sqrt?_nonneg hpos.le), Real.sqrt_pos.2 hpos⟩
  · intro x _
    unfold noise
    simp only [hsc]
    rfl
  · intro x hx
    rw [List.mem_singleton] at hx
    subst hx
    rfl

/-- **C67** (the claim fails). A `get_snr` call that selects no source returns an array of zeros. The next
`get_snr_stationary` call turns an entry of that array into a positive SNR. -/
theorem C67_not_kept : ∃ (W : World) (h h' h'' : Heap) (r : ℕ) (vs : List (Option ℝ)) (x : ℝ), Reachable W AnyCall h ∧
    source.get_snr W 0 {} 100 (some [false, false]) h = (.ok r, h') ∧ h'.snrs r = [some 0, some 0] ∧
    get_snr_stationary W 0 {} (some [true, false]) h' = (.ok vs, h'') ∧ 0 < x ∧ (h''.snrs r)[0]? = some (some x) := by
  have hcols : (Example.heap.src 0).cols = Example.cols := by rw [Example.heap_src]; rfl
  have hcls : (Example.heap.src 0).cls = .Source := by rw [Example.heap_src]; rfl
  have hw : ∀ b c, FitsMask (Example.heap.src 0).cols (some [b, c]) := by
    intro b c m hm; cases hm; rw [hcols]; rfl
  obtain ⟨r, h', hrun⟩ := example_get_snr _ (hw false false)
  obtain ⟨hsnr, hc', hlen, hval⟩ := C36_get_snr (Or.inl hcls) (by norm_num) example_schedule example_rect (hw false false) hrun
  obtain ⟨hready, ho⟩ := example_ready.get_snr (Or.inl hcls) (by norm_num) example_schedule (hw false false) hrun
  obtain ⟨x, y, he⟩ := ho.src 0
  have hzero : h'.snrs r = [some 0, some 0] := by
    rw [hcols] at hlen hval
    have hno : ∀ i, ¬ Chosen (some [false, false]) i := by
      intro i hi
      have := hi _ rfl
      rcases i with _ | _ | i <;> simp at this
    have h0 := (hval 0 (rowAt Example.cols 0) rfl).1 (Or.inr (hno 0))
    have h1 := (hval 1 (rowAt Example.cols 1) rfl).1 (Or.inr (hno 1))
    change (h'.snrs r).length = 2 at hlen
    match hl : h'.snrs r with
    | [a, b] =>
      rw [hl] at h0 h1
      cases h0
      cases h1
      rfl
    | [] => rw [hl] at hlen; cases hlen
    | [_] => rw [hl] at hlen; cases hlen
    | _ :: _ :: _ :: _ => rw [hl] at hlen; simp at hlen
  have hw' : FitsMask (h'.src 0).cols (some [true, false]) := by rw [hc']; exact hw true false
  have hrun2 : ∃ vs h'', get_snr_stationary Example.world 0 {} (some [true, false]) h' = (.ok vs, h'') ∧ SnrOnly h' h'' := by
    obtain ⟨f, C, S, p, T, c, -, hm2, -, hctx, hset, hp, hft, hT, hsc⟩ := ready hready
    have hil := items_length (c := (h'.src 0).cols) (which_length hw')
    obtain ⟨ps, hps⟩ : ∃ ps, (items (h'.src 0).cols (which (h'.src 0).cols.n_sources (some [true, false]))).mapM
        (orZero (statOne C S)) = .ok ps := by
      refine mapM_exists fun x hx => ?_
      unfold orZero
      split_ifs
      · exact statOne_exists hsc S (item_angles hready.rect hx)
      · exact ⟨_, rfl⟩
    obtain ⟨v, h'', hv, ho', -⟩ := snr_stationary_exists hready.rect hw' rfl hm2 hset hctx hps (hil.trans hready.harm_length.symm)
      (hil.trans hready.snr_length.symm)
    exact ⟨v, h'', hv, ho'⟩
  obtain ⟨vs, h'', hrun2, ho'⟩ := hrun2
  obtain ⟨-, hov⟩ := C67_overwritten_stationary hready.rect hw' hsnr hrun2
  obtain ⟨v, harm, C, tol, q, hv, hC, htol, -, hst⟩ := (hov 0 (rowAt Example.cols 0) (by rw [hc', hcols]; rfl)).1 rfl
    (by intro m hm; cases hm; rfl)
  have hoo := ho.trans ho'
  obtain ⟨x', y', he'⟩ := hoo.src 0
  rw [Example.heap_src] at he'
  have htol' : tol = Example.eccTol := by
    rw [he'] at htol
    exact (Option.some.inj htol).symm
  obtain ⟨z, rfl, hz⟩ := example_snr_pos (h := h'') hC (by rw [he']; rfl) (by rw [he']; rfl)
    (fun p hp => by
      rw [he'] at hp
      cases hp
      rw [hoo.par, Example.heap_par]
      rfl) (by rw [htol']; exact example_tol_nonneg) hst
  exact ⟨Example.world, Example.heap, h', h'', r, vs, z, Example.reachable trivial, hrun, hzero, hrun2, hz, hv⟩

/-- The heap of the example after a `get_snr` call. -/
theorem example_after (ws : Option (List Bool)) (hw : FitsMask (Example.heap.src 0).cols ws) :
    ∃ r h', get_snr Example.world 0 {} 100 ws Example.heap = (.ok r, h') ∧ Reachable Example.world AnyCall h' ∧
      (h'.src 0).snr = some r ∧ Ready Example.world h' 0 ∧ (h'.src 0).cls = .Source ∧
      CompleteSchedule Example.world (h'.src 0) ∧ (h'.src 0).cols = Example.cols := by
  have hcls : (Example.heap.src 0).cls = .Source := by rw [Example.heap_src]; rfl
  obtain ⟨r, h', hrun⟩ := example_get_snr ws hw
  obtain ⟨hsnr, hc, -⟩ := C36_get_snr (Or.inl hcls) (by norm_num) example_schedule example_rect hw hrun
  obtain ⟨hready, ho⟩ := example_ready.get_snr (Or.inl hcls) (by norm_num) example_schedule hw hrun
  have hreach := Reachable.call (.getSnr 0 {} 100 ws) (Example.reachable (ok := AnyCall) trivial) trivial
  have he : (Op.run Example.world (.getSnr 0 {} 100 ws) Example.heap).2 = h' := by
    change ((get_snr Example.world 0 {} 100 ws >>= fun _ => pure ()) Example.heap).2 = h'
    rw [PyM.bind_run, hrun]
    rfl
  rw [he] at hreach
  obtain ⟨x, y, hsrc⟩ := ho.src 0
  refine ⟨r, h', hrun, hreach, hsnr, hready, by rw [hsrc]; exact hcls, CompleteSchedule.of_n_proc (ho.n_proc 0) example_schedule, ?_⟩
  rw [hc, Example.heap_src]
  rfl

/-- The array keeps its values when the sources are then evolved and copied. -/
noncomputable example (t : EvolTime) : ∃ r h', get_snr Example.world 0 {} 100 none Example.heap = (.ok r, h') ∧
    (Op.run Example.world (.copy 0) (Op.run Example.world (.evolve 0 t) h').2).2.snrs r = h'.snrs r := by
  obtain ⟨r, h', hrun, hreach, hsnr, -⟩ := example_after none (fun m hm => by cases hm)
  exact ⟨r, h', hrun, C67_kept hreach hsnr (.call (.copy 0) (.call (.evolve 0 t) .none (fun _ hs => by cases hs))
    (fun _ hs => by cases hs))⟩

/-- Two calls: the first array gets the second result, and then stays. -/
noncomputable example : ∃ r₀ h' r h'', get_snr Example.world 0 {} 100 none Example.heap = (.ok r₀, h') ∧
    get_snr Example.world 0 {} 100 (some [true, false]) h' = (.ok r, h'') ∧ (h''.snrs r₀)[0]? = (h''.snrs r)[0]? ∧
    (h''.snrs r₀)[1]? = (h'.snrs r₀)[1]? ∧
    (Op.run Example.world (.getSnr 0 {} 100 none) h'').2.snrs r₀ = h''.snrs r₀ := by
  obtain ⟨r₀, h', hrun, hreach, hsnr, hready, hcls, hsch, hcols⟩ := example_after none (fun m hm => by cases hm)
  have hw : FitsMask (h'.src 0).cols (some [true, false]) := by
    intro m hm; cases hm; rw [hcols]; rfl
  obtain ⟨r, h'', hrun'⟩ := C36_succeeds (n := 100) (by norm_num) hsch hw hready
  have hov := C67_overwritten (Or.inl hcls) (by norm_num) hsch hready.rect hw hreach hsnr hrun'
  refine ⟨r₀, h', r, h'', hrun, hrun', (hov 0 (rowAt Example.cols 0) (by rw [hcols]; rfl)).1 rfl fun m hm => by cases hm; rfl,
    (hov 1 (rowAt Example.cols 1) (by rw [hcols]; rfl)).2 (Or.inr fun hch => ?_),
    (C67_superseded hreach hsnr hrun' (.call (.getSnr 0 {} 100 none) .none trivial)).2⟩
  have := hch _ rfl
  simp at this

end Legwork.Props
