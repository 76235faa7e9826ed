import Verif.Spec.Visualisation
import Verif.Lemmas.SourceMask

/-!
# What the plotting code does
-/

namespace Legwork.visualisation

open Legwork.source Legwork.Spec
open PyM hiding bind

/-- Calls added on axes. -/
def emit (ax : ℕ) (ds : List Draw) (v : Canvas) : Canvas :=
  { v with marks := v.marks ++ ds.map fun d => ⟨ax, v.rc, d⟩ }

theorem emit_nil (ax : ℕ) (v : Canvas) : emit ax [] v = v := by simp [emit]

theorem emit_emit (ax : ℕ) (a b : List Draw) (v : Canvas) : emit ax b (emit ax a v) = emit ax (a ++ b) v := by
  simp [emit, List.append_assoc]

/-- Code that makes certain calls. -/
def Emits (ax : ℕ) (m : C Unit) (ds : List Draw) : Prop := ∀ v, m v = (.ok (), emit ax ds v)

theorem Emits.draw (ax : ℕ) (d : Draw) : Emits ax (draw ax d) [d] := fun _ => rfl

theorem Emits.pure (ax : ℕ) : Emits ax (Pure.pure ()) [] := fun v => by rw [emit_nil]; rfl

theorem Emits.bind {ax : ℕ} {m k : C Unit} {a b : List Draw} (hm : Emits ax m a) (hk : Emits ax k b) :
    Emits ax (m >>= fun _ => k) (a ++ b) := by
  intro v
  rw [bind_ok (hm v), hk, emit_emit]

theorem Emits.if_some {α : Type} {ax : ℕ} {x : Option α} {f : α → C Unit} {g : α → Draw}
    (hf : ∀ a, Emits ax (f a) [g a]) : Emits ax (if_some x f) (x.toList.map g) := by
  rcases x with _ | a
  · exact Emits.pure ax
  · exact hf a

theorem Emits.ite {ax : ℕ} {b : Bool} {m k : C Unit} {x y : List Draw} (hm : Emits ax m x) (hk : Emits ax k y) :
    Emits ax (if b then m else k) (if b then x else y) := by
  rcases b with _ | _
  · exact hk
  · exact hm

theorem Emits.run {α : Type} {ax : ℕ} {m : C Unit} {ds : List Draw} (hm : Emits ax m ds) (k : Unit → C α) (v : Canvas) :
    (m >>= k) v = k () (emit ax ds v) := bind_ok (hm v)

/-! ### Style -/

theorem rc_update_lookup (rc : String → Val) (d : Kwargs) (hd : (d.map Prod.fst).Nodup) (key : String) :
    rc_update rc d key = (List.lookup key d).getD (rc key) := by
  unfold rc_update
  induction d generalizing rc with
  | nil => rfl
  | cons kv d ih =>
    obtain ⟨k, x⟩ := kv
    simp only [List.map_cons, List.nodup_cons] at hd
    rw [List.foldl_cons, ih _ hd.2, List.lookup_cons]
    by_cases hk : key = k
    · subst hk
      have : List.lookup key d = none := by
        rw [List.lookup_eq_none_iff]
        intro p hp
        have : p.1 ≠ key := fun h => hd.1 (h ▸ List.mem_map_of_mem hp)
        simpa using this.symm
      rw [this]
      simp
    · have : (key == k) = false := by simpa using hk
      rw [this]
      simp [Function.update_of_ne hk]

theorem style_eq (rc : String → Val) : rc_update rc style_params = styled rc := by
  funext key
  exact rc_update_lookup rc _ (by decide) key

theorem styled_styled (rc : String → Val) : styled (styled rc) = styled rc := by
  funext key
  unfold styled
  cases List.lookup key style_params <;> rfl

theorem style_run {α : Type} (m : C α) (v : Canvas) :
    legwork_plot_style m v = ((m { v with rc := styled v.rc }).1, { (m { v with rc := styled v.rc }).2 with rc := v.rc }) := by
  unfold legwork_plot_style
  simp only [style_eq]

/-! ### What is left alone -/

/-- Code that keeps the settings and figures and only adds to the axes `ax`, also when it fails. -/
def Within (ax : ℕ) (rc : String → Val) {α : Type} (m : C α) : Prop :=
  ∀ v, v.rc = rc → (m v).2.rc = rc ∧ (m v).2.next = v.next ∧
    ∃ new, (m v).2.marks = v.marks ++ new ∧ ∀ x ∈ new, x.ax = ax ∧ x.rc = rc

section
variable {α β : Type} {ax : ℕ} {rc : String → Val}

theorem Within.pure (a : α) : Within ax rc (Pure.pure a) := fun _ h => ⟨h, rfl, [], by simp, by simp⟩

theorem Within.lift (e : Except PyErr α) : Within ax rc (PyM.lift e) := fun _ h => ⟨h, rfl, [], by simp, by simp⟩

theorem Within.get : Within ax rc (PyM.get : C Canvas) := fun _ h => ⟨h, rfl, [], by simp, by simp⟩

theorem Within.message (l t : String) : Within ax rc (message l t) := fun _ h => ⟨h, rfl, [], by simp [visualisation.message], by simp⟩

theorem Within.if_true {b : Bool} {m : C Unit} (hm : Within ax rc m) : Within ax rc (if_true b m) := by
  rcases b with _ | _
  · exact Within.pure ()
  · exact hm

theorem Within.show (b : Bool) : Within ax rc (if_show b) := by
  intro v h
  rcases b with _ | _
  · exact ⟨h, rfl, [], by simp [if_show, visualisation.if_true], by simp⟩
  · exact ⟨h, rfl, [], by simp [if_show, visualisation.if_true, plt_show], by simp⟩

theorem Within.draw (d : Draw) : Within ax rc (draw ax d) := by
  intro v h
  exact ⟨h, rfl, [⟨ax, v.rc, d⟩], rfl, by simp [h]⟩

theorem Within.bind {m : C α} {k : α → C β} (hm : Within ax rc m) (hk : ∀ a, Within ax rc (k a)) :
    Within ax rc (m >>= k) := by
  intro v h
  obtain ⟨h1, h2, new, h3, h4⟩ := hm v h
  rcases hv : m v with ⟨e | a, v'⟩
  · rw [bind_error hv]
    rw [hv] at h1 h2 h3
    exact ⟨h1, h2, new, h3, h4⟩
  · rw [bind_ok hv]
    rw [hv] at h1 h2 h3
    obtain ⟨k1, k2, new', k3, k4⟩ := hk a v' h1
    refine ⟨k1, k2.trans h2, new ++ new', ?_, ?_⟩
    · rw [k3, h3, List.append_assoc]
    · intro x hx
      rcases List.mem_append.1 hx with hx | hx
      · exact h4 x hx
      · exact k4 x hx

theorem Within.if_some {x : Option β} {f : β → C Unit} (hf : ∀ b, Within ax rc (f b)) : Within ax rc (if_some x f) := by
  rcases x with _ | b
  · exact Within.pure ()
  · exact hf b

theorem Within.ite {p : Prop} [Decidable p] {m k : C α} (hm : Within ax rc m) (hk : Within ax rc k) :
    Within ax rc (if p then m else k) := by
  split
  · exact hm
  · exact hk

theorem Within.style {m : C α} (hs : styled rc = rc) (hm : Within ax rc m) : Within ax rc (legwork_plot_style m) := by
  intro v h
  rw [style_run, h, hs]
  obtain ⟨h1, h2, new, h3, h4⟩ := hm { v with rc := rc } rfl
  exact ⟨rfl, h2, new, h3, h4⟩

end

theorem axes_run (fig ax : Option ℕ) (v : Canvas) :
    axes fig ax v = (.ok (axesFor fig ax v), { v with next := figuresAfter fig ax v }) := by
  unfold axes axesFor figuresAfter
  rcases fig with _ | fig <;> rcases ax with _ | ax <;> rfl

/-- Code that takes axes and then draws on them. -/
theorem plots_on {fig ax : Option ℕ} {k : ℕ × ℕ → C (ℕ × ℕ)} {v : Canvas}
    (hk : ∀ f a, Within a (styled v.rc) (k (f, a))) (hout : ∀ f a v out, (k (f, a) v).1 = .ok out → out = (f, a)) :
    PlotsOn fig ax v (legwork_plot_style (axes fig ax >>= k) v).1 (legwork_plot_style (axes fig ax >>= k) v).2 := by
  rw [style_run, bind_ok (axes_run _ _ _)]
  obtain ⟨f, a, hfa⟩ : ∃ f a, axesFor fig ax v = (f, a) := ⟨_, _, rfl⟩
  have hfa' : axesFor fig ax { v with rc := styled v.rc } = (f, a) := by
    rw [← hfa]
    rcases fig with _ | _ <;> rcases ax with _ | _ <;> rfl
  have hn : figuresAfter fig ax { v with rc := styled v.rc } = figuresAfter fig ax v := by
    rcases fig with _ | _ <;> rcases ax with _ | _ <;> rfl
  rw [hfa', hn]
  obtain ⟨h1, h2, new, h3, h4⟩ := hk f a { v with rc := styled v.rc, next := figuresAfter fig ax v } rfl
  refine ⟨rfl, h2, fun out ho => ?_, new, h3, ?_⟩
  · rw [hfa]
    exact hout f a _ out ho
  · rw [hfa]
    exact h4

theorem out_of_bind {α : Type} {m : C α} {k : α → C (ℕ × ℕ)} {p : ℕ × ℕ}
    (hk : ∀ a v out, (k a v).1 = .ok out → out = p) : ∀ v out, ((m >>= k) v).1 = .ok out → out = p := by
  intro v out ho
  rcases hv : m v with ⟨e | a, v'⟩
  · rw [bind_error hv] at ho
    cases ho
  · rw [bind_ok hv] at ho
    exact hk a v' out ho

theorem out_of_pure {p : ℕ × ℕ} : ∀ v out, ((pure p : C (ℕ × ℕ)) v).1 = .ok out → out = p := by
  intro v out ho
  cases ho
  rfl

theorem Within.draw_1D {ax : ℕ} {rc : String → Val} (a : Args1) : Within ax rc (draw_1D ax a) := by
  unfold visualisation.draw_1D
  exact .ite (.draw _) (.ite (.draw _) (.ite (.draw _) (.pure _)))

theorem Within.draw_2D {ax : ℕ} {rc : String → Val} (a : Args2) : Within ax rc (draw_2D ax a) := by
  unfold visualisation.draw_2D
  exact .ite (.ite (.lift _) (.bind (.draw _) fun _ => .bind (.if_true (.draw _)) fun _ => .if_true (.draw _)))
    (.ite (.draw _) (.pure _))

theorem plot_1D_dist_on (a : Args1) (v : Canvas) : PlotsOn a.fig a.ax v (plot_1D_dist a v).1 (plot_1D_dist a v).2 := by
  unfold plot_1D_dist
  refine plots_on (fun f x => ?_) (fun f x => ?_)
  · exact .bind (.draw_1D a) fun _ => .bind (.if_some fun _ => .draw _) fun _ => .bind (.if_some fun _ => .draw _) fun _ =>
      .bind (.if_some fun _ => .draw _) fun _ => .bind (.if_some fun _ => .draw _) fun _ => .bind (.show _) fun _ => .pure _
  · exact out_of_bind fun _ => out_of_bind fun _ => out_of_bind fun _ => out_of_bind fun _ => out_of_bind fun _ =>
      out_of_bind fun _ => out_of_pure

theorem plot_2D_dist_on (a : Args2) (v : Canvas) : PlotsOn a.fig a.ax v (plot_2D_dist a v).1 (plot_2D_dist a v).2 := by
  unfold plot_2D_dist
  refine plots_on (fun f x => ?_) (fun f x => ?_)
  · exact .bind (.draw_2D a) fun _ => .bind (.if_some fun _ => .draw _) fun _ => .bind (.if_some fun _ => .draw _) fun _ =>
      .bind (.if_some fun _ => .draw _) fun _ => .bind (.if_some fun _ => .draw _) fun _ => .bind (.show _) fun _ => .pure _
  · exact out_of_bind fun _ => out_of_bind fun _ => out_of_bind fun _ => out_of_bind fun _ => out_of_bind fun _ =>
      out_of_bind fun _ => out_of_pure

theorem plot_sensitivity_curve_on (W : World) (a : ScVis) (fig ax : Option ℕ) (b : Bool) (d : Dict) (v : Canvas) :
    PlotsOn fig ax v (plot_sensitivity_curve W a fig ax b d v).1 (plot_sensitivity_curve W a fig ax b d v).2 := by
  unfold plot_sensitivity_curve
  refine plots_on (fun f x => ?_) (fun f x => ?_)
  · refine .bind (.lift _) fun _ => .bind (.draw _) fun _ => .bind (.if_true (.draw _)) fun _ => .bind (.draw _) fun _ =>
      .bind (.draw _) fun _ => .bind ?_ fun _ => .bind (.show _) fun _ => .pure _
    unfold flush
    split
    · exact .lift _
    · exact .draw _
  · exact out_of_bind fun _ => out_of_bind fun _ => out_of_bind fun _ => out_of_bind fun _ => out_of_bind fun _ =>
      out_of_bind fun _ => out_of_bind fun _ => out_of_pure

/-- A plotting function on given axes, called while LEGWORK's style is in force. -/
theorem within_of_plots {f a : ℕ} {rc : String → Val} (hs : styled rc = rc) {m : C (ℕ × ℕ)}
    (hm : ∀ v, PlotsOn (some f) (some a) v (m v).1 (m v).2) : Within a rc m := by
  intro v h
  obtain ⟨h1, h2, -, new, h3, h4⟩ := hm v
  refine ⟨h1.trans h, h2, new, h3, fun x hx => ⟨(h4 x hx).1, ?_⟩⟩
  rw [(h4 x hx).2, h, hs]

/-- A plotting function that goes on drawing on the axes it got from another one. -/
theorem plots_on_of {fig ax : Option ℕ} {m : C (ℕ × ℕ)} {k : ℕ × ℕ → C (ℕ × ℕ)} {v : Canvas}
    (hm : ∀ v, PlotsOn fig ax v (m v).1 (m v).2) (hk : ∀ f a, Within a (styled v.rc) (k (f, a)))
    (hout : ∀ f a v out, (k (f, a) v).1 = .ok out → out = (f, a)) :
    PlotsOn fig ax v (legwork_plot_style (m >>= k) v).1 (legwork_plot_style (m >>= k) v).2 := by
  rw [style_run]
  obtain ⟨h1, h2, h3, new, h4, h5⟩ := hm { v with rc := styled v.rc }
  have e1 : axesFor fig ax { v with rc := styled v.rc } = axesFor fig ax v := by
    rcases fig with _ | _ <;> rcases ax with _ | _ <;> rfl
  have e2 : figuresAfter fig ax { v with rc := styled v.rc } = figuresAfter fig ax v := by
    rcases fig with _ | _ <;> rcases ax with _ | _ <;> rfl
  rw [e1] at h3 h5
  rw [e2] at h2
  simp only [styled_styled] at h5
  rcases hv : m { v with rc := styled v.rc } with ⟨e | p, v'⟩
  · rw [bind_error hv]
    rw [hv] at h1 h2 h4
    exact ⟨rfl, h2, fun _ h => (by cases h), new, h4, h5⟩
  · rw [bind_ok hv]
    rw [hv] at h1 h2 h3 h4
    have hp := h3 p rfl
    obtain ⟨f, a, rfl⟩ : ∃ f a, p = (f, a) := ⟨_, _, rfl⟩
    obtain ⟨k1, k2, new', k3, k4⟩ := hk f a v' h1
    refine ⟨rfl, k2.trans h2, fun out ho => ?_, new ++ new', ?_, ?_⟩
    · rw [hout f a v' out ho]
      exact hp
    · change (k (f, a) v').2.marks = _
      rw [k3]
      change v'.marks ++ new' = _
      rw [h4, List.append_assoc]
    · intro x hx
      rcases List.mem_append.1 hx with hx | hx
      · exact h5 x hx
      · obtain ⟨j1, j2⟩ := k4 x hx
        refine ⟨?_, j2⟩
        rw [← hp]
        exact j1

theorem pure_on (f a : ℕ) (v : Canvas) :
    PlotsOn (some f) (some a) v ((pure (f, a) : C (ℕ × ℕ)) v).1 ((pure (f, a) : C (ℕ × ℕ)) v).2 :=
  ⟨rfl, rfl, fun _ h => (by cases h; rfl), [], by simp, by simp⟩

theorem _root_.Legwork.Spec.PlotsOn.of_none {fig ax : Option ℕ} (h : fig = none ∨ ax = none) {v v' : Canvas} {r : Except PyErr (ℕ × ℕ)}
    (hp : PlotsOn none none v r v') : PlotsOn fig ax v r v' := by
  obtain ⟨h1, h2, h3, h4⟩ := hp
  rcases fig with _ | _ <;> rcases ax with _ | _
  all_goals first | exact ⟨h1, h2, h3, h4⟩ | simp at h

theorem axes_with_curve_on (W : World) (d : Dict) (vis : ScVis) (fig ax : Option ℕ) (v : Canvas) :
    PlotsOn fig ax v (axes_with_curve W d vis fig ax v).1 (axes_with_curve W d vis fig ax v).2 := by
  have hc := plot_sensitivity_curve_on W vis none none false d v
  rcases fig with _ | f <;> rcases ax with _ | a
  · exact hc.of_none (by simp)
  · exact hc.of_none (by simp)
  · exact hc.of_none (by simp)
  · exact pure_on f a v

theorem plot_2D_within {f a : ℕ} {rc : String → Val} (hs : styled rc = rc) (k : Style2) (x y : List Num)
    (w : Option (List ℝ)) : Within a rc (plot_2D_dist (k.args x y w f a)) :=
  within_of_plots (f := f) hs fun v => plot_2D_dist_on (k.args x y w f a) v

theorem plot_2D_out {f a : ℕ} (k : Style2) (x y : List Num) (w : Option (List ℝ)) (v : Canvas) (out : ℕ × ℕ)
    (h : (plot_2D_dist (k.args x y w f a) v).1 = .ok out) : out = (f, a) :=
  (plot_2D_dist_on (k.args x y w f a) v).result out h

theorem bind_within_of {α β : Type} {ax : ℕ} {rc : String → Val} {m : C α} {k : α → C β} (P : α → Prop)
    (hm : Within ax rc m) (hP : ∀ v a, (m v).1 = .ok a → P a) (hk : ∀ a, P a → Within ax rc (k a)) :
    Within ax rc (m >>= k) := by
  intro v h
  rcases hv : m v with ⟨e | a, v'⟩
  · obtain ⟨h1, h2, new, h3, h4⟩ := hm v h
    rw [bind_error hv]
    rw [hv] at h1 h2 h3
    exact ⟨h1, h2, new, h3, h4⟩
  · have hpa := hP v a (by rw [hv])
    obtain ⟨h1, h2, new, h3, h4⟩ := hm v h
    rw [bind_ok hv]
    rw [hv] at h1 h2 h3
    obtain ⟨k1, k2, new', k3, k4⟩ := hk a hpa v' h1
    refine ⟨k1, k2.trans h2, new ++ new', ?_, ?_⟩
    · rw [k3, h3, List.append_assoc]
    · intro x hx
      rcases List.mem_append.1 hx with hx | hx
      · exact h4 x hx
      · exact k4 x hx

theorem overlay_within {W : World} {gy : ℕ → List Mark → Num × Num} {d : Dict} {vis : ScVis} {k : Style2} {f a : ℕ}
    {fs : List ℝ} {snr : List (Option ℝ)} {ws : Option (List ℝ)} {m : List Bool} {rc : String → Val} (hs : styled rc = rc) :
    Within a rc (overlay W gy d vis k f a fs snr ws m) ∧
    ∀ v out, (overlay W gy d vis k f a fs snr ws m v).1 = .ok out → out = (f, a) := by
  unfold overlay
  constructor
  · refine .bind (.lift _) fun _ => .bind (.lift _) fun _ => .bind (.lift _) fun _ => .bind .get fun _ =>
      .bind (.lift _) fun _ => bind_within_of (fun p => p = (f, a)) (plot_2D_within hs k _ _ _)
        (fun v p hp => plot_2D_out k _ _ _ v p hp) ?_
    rintro _ rfl
    exact .bind (.draw _) fun _ => .pure _
  · refine out_of_bind fun _ => out_of_bind fun _ => out_of_bind fun _ => out_of_bind fun _ => out_of_bind fun _ => ?_
    intro v out ho
    rename_i x1 x2 x3 x4 x5
    rcases hv : plot_2D_dist (k.args (x1.map num) x3 x5 f a) v with ⟨e | p, v'⟩
    · rw [bind_error hv] at ho
      cases ho
    · rw [bind_ok hv] at ho
      have hp := plot_2D_out k _ _ _ v p (by rw [hv])
      subst hp
      cases ho
      rfl

theorem plot_sources_on_sc_on (W : World) (gy : ℕ → List Mark → Num × Num) (fs : List ℝ) (snr : List (Option ℝ))
    (ws : Option (List ℝ)) (cut : ℝ) (d : Dict) (fig ax : Option ℕ) (b : Bool) (vis : ScVis) (k : Style2) (v : Canvas) :
    PlotsOn fig ax v (plot_sources_on_sc W gy fs snr ws cut d fig ax b vis k v).1
      (plot_sources_on_sc W gy fs snr ws cut d fig ax b vis k v).2 := by
  unfold plot_sources_on_sc
  refine plots_on_of (axes_with_curve_on W d vis fig ax) (fun f a => ?_) (fun f a v out ho => ?_)
  · have ho := @overlay_within W gy d vis k f a fs snr ws (above cut snr) (styled v.rc) (styled_styled _)
    refine .ite (bind_within_of (fun p => p = (f, a)) ho.1 ho.2 ?_) (.bind (.message _ _) fun _ => .pure _)
    rintro _ rfl
    exact .bind (.show _) fun _ => .pure _
  · simp only at ho
    split at ho
    · rcases hv : overlay W gy d vis k f a fs snr ws (above cut snr) v with ⟨e | p, v'⟩
      · rw [bind_error hv] at ho
        cases ho
      · have hp := (@overlay_within W gy d vis k f a fs snr ws (above cut snr) (styled v.rc) (styled_styled _)).2 v p
          (by rw [hv])
        rw [bind_ok hv] at ho
        subst hp
        exact out_of_bind (fun _ => out_of_pure) _ _ ho
    · exact out_of_bind (fun _ => out_of_pure) _ _ ho

/-! ### What is drawn -/

/-- The calls made by `plot_2D_dist`. -/
noncomputable def draws2 (a : Args2) : List Draw :=
  (if a.disttype = "scatter" then
      [.scatter a.x a.y (sizes a.weights a.scatter_s) a.color (Kwargs.update [] a.kwargs)] ++
        ((if (expand a.log_scale).1 then [.set_xscale "log"] else []) ++
         (if (expand a.log_scale).2 then [.set_yscale "log"] else []))
    else if a.disttype = "kde" then
      [.kdeplot2 a.x a.y a.weights a.color (expand a.log_scale) (Kwargs.update
        [("gridsize", .num 200), ("legend", .bool true), ("levels", .num 10), ("thresh", .num 0.02)] a.kwargs)]
    else []) ++
  (a.xlabel.toList.map .set_xlabel ++ (a.ylabel.toList.map .set_ylabel ++
    (a.xlim.toList.map (fun l => .set_xlim l.1 l.2) ++ a.ylim.toList.map fun l => .set_ylim l.1 l.2)))

/-- No option is passed twice. -/
def NoClash (disttype : String) (kwargs : Kwargs) : Prop := disttype = "scatter" → kwargs.has "s" = false

theorem has_set (d : Kwargs) (k key : String) (x : Val) : (d.set k x).has key = (d.has key || decide (k = key)) := by
  unfold Kwargs.set Kwargs.has
  by_cases hk : d.any fun kv => kv.1 = k
  · rw [if_pos hk, List.any_map]
    have e : (fun kv : String × Val => decide (kv.1 = key)) ∘ (fun kv => if kv.1 = k then (k, x) else kv) =
        fun kv => decide (kv.1 = key) := by
      funext kv
      simp only [Function.comp]
      split_ifs with h
      · simp [h]
      · rfl
    rw [e]
    by_cases hkey : k = key
    · subst hkey
      simp [hk]
    · simp [hkey]
  · rw [if_neg hk, List.any_append]
    simp

theorem has_update (d kw : Kwargs) (key : String) : (d.update kw).has key = (d.has key || kw.has key) := by
  unfold Kwargs.update
  induction kw generalizing d with
  | nil => simp [Kwargs.has]
  | cons kv kw ih =>
    rw [List.foldl_cons, ih, has_set]
    simp [Kwargs.has, Bool.or_assoc]

theorem Emits.if_true {ax : ℕ} {b : Bool} {m : C Unit} {x : List Draw} (hm : Emits ax m x) :
    Emits ax (if_true b m) (if b then x else []) := by
  rcases b with _ | _
  · exact Emits.pure ax
  · exact hm

theorem draw_2D_emits {ax : ℕ} {a : Args2} (hs : NoClash a.disttype a.kwargs) :
    Emits ax (draw_2D ax a) (if a.disttype = "scatter" then
      [.scatter a.x a.y (sizes a.weights a.scatter_s) a.color (Kwargs.update [] a.kwargs)] ++
        ((if (expand a.log_scale).1 then [.set_xscale "log"] else []) ++
         (if (expand a.log_scale).2 then [.set_yscale "log"] else []))
    else if a.disttype = "kde" then
      [.kdeplot2 a.x a.y a.weights a.color (expand a.log_scale) (Kwargs.update
        [("gridsize", .num 200), ("legend", .bool true), ("levels", .num 10), ("thresh", .num 0.02)] a.kwargs)]
    else []) := by
  unfold draw_2D
  simp only
  by_cases h1 : a.disttype = "scatter"
  · rw [if_pos h1, if_pos h1, if_neg]
    · exact .bind (.draw _ _) (.bind (.if_true (.draw _ _)) (.if_true (.draw _ _)))
    · rw [has_update, hs h1]
      simp [Kwargs.has]
  · rw [if_neg h1, if_neg h1]
    by_cases h2 : a.disttype = "kde"
    · rw [if_pos h2, if_pos h2]
      exact .draw _ _
    · rw [if_neg h2, if_neg h2]
      exact .pure _

/-- The canvas after calls made in LEGWORK's style on given or new axes, and after showing it if requested. -/
def after (fig ax : Option ℕ) (ds : List Draw) (b : Bool) (v : Canvas) : Canvas :=
  { v with next := figuresAfter fig ax v
           marks := v.marks ++ ds.map fun d => ⟨(axesFor fig ax v).2, styled v.rc, d⟩
           shows := if b then v.shows ++ [v.marks.length + ds.length] else v.shows }

theorem emits_run {fig ax : Option ℕ} {k : ℕ × ℕ → C (ℕ × ℕ)} {ds : List Draw} {b : Bool} (v : Canvas)
    (hk : ∀ f a v, k (f, a) v = (if_show b >>= fun _ => pure (f, a)) (emit a ds v)) :
    legwork_plot_style (axes fig ax >>= k) v = (.ok (axesFor fig ax v), after fig ax ds b v) := by
  rw [style_run, bind_ok (axes_run _ _ _)]
  have e1 : axesFor fig ax { v with rc := styled v.rc } = axesFor fig ax v := by
    rcases fig with _ | _ <;> rcases ax with _ | _ <;> rfl
  have e2 : figuresAfter fig ax { v with rc := styled v.rc } = figuresAfter fig ax v := by
    rcases fig with _ | _ <;> rcases ax with _ | _ <;> rfl
  obtain ⟨f, a, hfa⟩ : ∃ f a, axesFor fig ax v = (f, a) := ⟨_, _, rfl⟩
  unfold after
  rw [e1, e2, hfa, hk]
  rcases b with _ | _
  · rfl
  · simp [if_show, if_true, plt_show, emit, bind_run]

theorem plot_2D_run {a : Args2} (hs : NoClash a.disttype a.kwargs) (v : Canvas) :
    plot_2D_dist a v = (.ok (axesFor a.fig a.ax v), after a.fig a.ax (draws2 a) a.show_ v) := by
  unfold plot_2D_dist
  refine emits_run v fun f ax v => ?_
  simp only
  rw [(draw_2D_emits hs).run, Emits.run (.if_some fun s => .draw ax (.set_xlabel s)),
    Emits.run (.if_some fun s => .draw ax (.set_ylabel s)), Emits.run (.if_some fun l : Num × Num => .draw ax (.set_xlim l.1 l.2)),
    Emits.run (.if_some fun l : Num × Num => .draw ax (.set_ylim l.1 l.2)), emit_emit, emit_emit, emit_emit, emit_emit]
  rfl

/-- The calls made by `plot_1D_dist`. -/
noncomputable def draws1 (a : Args1) : List Draw :=
  (if a.disttype = "hist" then
      [.hist (if a.log_scale then a.x.map fun x => nlog10 (value a.unit x) else a.x) a.weights a.color
        ((defaults1 a.disttype).update a.kwargs)]
    else if a.disttype = "kde" then [.kdeplot a.x a.weights a.color a.log_scale ((defaults1 a.disttype).update a.kwargs)]
    else if a.disttype = "ecdf" then [.ecdfplot a.x a.weights a.color a.log_scale ((defaults1 a.disttype).update a.kwargs)]
    else []) ++
  (a.xlabel.toList.map .set_xlabel ++ (a.ylabel.toList.map .set_ylabel ++
    (a.xlim.toList.map (xlim_1D a) ++ a.ylim.toList.map fun l => .set_ylim l.1 l.2)))

theorem draw_1D_emits {ax : ℕ} {a : Args1} : Emits ax (draw_1D ax a) (if a.disttype = "hist" then
      [.hist (if a.log_scale then a.x.map fun x => nlog10 (value a.unit x) else a.x) a.weights a.color
        ((defaults1 a.disttype).update a.kwargs)]
    else if a.disttype = "kde" then [.kdeplot a.x a.weights a.color a.log_scale ((defaults1 a.disttype).update a.kwargs)]
    else if a.disttype = "ecdf" then [.ecdfplot a.x a.weights a.color a.log_scale ((defaults1 a.disttype).update a.kwargs)]
    else []) := by
  unfold draw_1D
  simp only
  split_ifs
  all_goals first | exact .draw _ _ | exact .pure _

theorem plot_1D_run (a : Args1) (v : Canvas) :
    plot_1D_dist a v = (.ok (axesFor a.fig a.ax v), after a.fig a.ax (draws1 a) a.show_ v) := by
  unfold plot_1D_dist
  refine emits_run v fun f ax v => ?_
  simp only
  rw [draw_1D_emits.run, Emits.run (.if_some fun s => .draw ax (.set_xlabel s)),
    Emits.run (.if_some fun s => .draw ax (.set_ylabel s)), Emits.run (.if_some fun l => .draw ax (xlim_1D a l)),
    Emits.run (.if_some fun l : Num × Num => .draw ax (.set_ylim l.1 l.2)), emit_emit, emit_emit, emit_emit, emit_emit]
  rfl

/-- The calls made by `plot_sensitivity_curve`. -/
noncomputable def drawsCurve (a : ScVis) (f : ℝ) (fs : List ℝ) (y : List Num) : List Draw :=
  [.loglog ((f :: fs).map num) y a.color a.label] ++
  ((if a.fill then [.fill_between ((f :: fs).map num) (y.map fun _ => num 0) y a.color] else []) ++
  ([.set_xlabel "Frequency [$\\rm Hz$]"] ++
  ([.set_ylabel (if a.y_quantity.getD "ASD" = "ASD" then "ASD $[\\rm Hz^{-1/2}]$" else "Characteristic Strain")] ++
   [.set_xlim (num (fs.foldl min f)) (num (fs.foldl max f))])))

theorem plot_sensitivity_curve_run {W : World} {a : ScVis} {fig ax : Option ℕ} {b : Bool} {d : Dict} {f : ℝ}
    {fs : List ℝ} {y : List Num} (hf : a.frequency_range.getD default_range = f :: fs)
    (hy : noise_amplitude W (a.y_quantity.getD "ASD") (f :: fs) d = .ok y) (v : Canvas) :
    plot_sensitivity_curve W a fig ax b d v = (.ok (axesFor fig ax v), after fig ax (drawsCurve a f fs y) b v) := by
  unfold plot_sensitivity_curve
  refine emits_run v fun fg ax v => ?_
  simp only [hf]
  rw [bind_ok (show (PyM.lift (noise_amplitude W (a.y_quantity.getD "ASD") (f :: fs) d) : C _) v = (.ok y, v) by rw [hy]; rfl)]
  rw [(Emits.draw _ _).run, (Emits.if_true (.draw _ _)).run, (Emits.draw _ _).run, (Emits.draw _ _).run]
  unfold flush
  rw [(Emits.draw _ _).run]
  simp only [emit_emit, List.append_assoc]
  rfl

/-! ### Sources above the cutoff -/

theorem above_length (cut : ℝ) (snr : List (Option ℝ)) : (above cut snr).length = snr.length := by simp [above]

theorem select_cons {α : Type} (b : Bool) (m : List Bool) (x : α) (xs : List α) :
    np.select (b :: m) (x :: xs) = if b then x :: np.select m xs else np.select m xs := by
  cases b <;> rfl

theorem detected_cons {α : Type} (cut : ℝ) (x : α) (xs : List α) (ρ : ℝ) (snr : List (Option ℝ)) :
    detected cut (x :: xs) (some ρ :: snr) = if cut < ρ then (x, ρ) :: detected cut xs snr else detected cut xs snr := by
  unfold detected
  rw [List.zip_cons_cons, List.filterMap_cons]
  by_cases h : cut < ρ <;> simp [h]

theorem detected_nan {α : Type} (cut : ℝ) (x : α) (xs : List α) (snr : List (Option ℝ)) :
    detected cut (x :: xs) (none :: snr) = detected cut xs snr := rfl

theorem above_cons (cut ρ : ℝ) (snr : List (Option ℝ)) : above cut (some ρ :: snr) = decide (cut < ρ) :: above cut snr := rfl

theorem above_nan (cut : ℝ) (snr : List (Option ℝ)) : above cut (none :: snr) = false :: above cut snr := rfl

theorem select_above {α : Type} (cut : ℝ) (xs : List α) (snr : List (Option ℝ)) :
    np.select (above cut snr) xs = (detected cut xs snr).map Prod.fst := by
  induction xs generalizing snr with
  | nil => simp [np.select, detected]
  | cons x xs ih =>
    rcases snr with _ | ⟨ρ, snr⟩
    · rfl
    · rcases ρ with _ | ρ
      · rw [above_nan, detected_nan, select_cons, ← ih]
        rfl
      · rw [above_cons, detected_cons, select_cons, ih]
        by_cases h : cut < ρ <;> simp [h]

theorem select_above_self {α : Type} (cut : ℝ) {xs : List α} {snr : List (Option ℝ)} (hl : xs.length = snr.length) :
    np.select (above cut snr) snr = (detected cut xs snr).map fun x => some x.2 := by
  induction xs generalizing snr with
  | nil => rcases snr with _ | _ <;> simp [np.select, detected] at hl ⊢
  | cons x xs ih =>
    rcases snr with _ | ⟨ρ, snr⟩
    · simp at hl
    · have ih := ih (snr := snr) (by simpa using hl)
      rcases ρ with _ | ρ
      · rw [above_nan, detected_nan, select_cons, ← ih]
        rfl
      · rw [above_cons, detected_cons, select_cons, ih]
        by_cases h : cut < ρ <;> simp [h]

theorem above_any (cut : ℝ) (snr : List (Option ℝ)) :
    (above cut snr).any id = true ↔ ∃ ρ : ℝ, some ρ ∈ snr ∧ cut < ρ := by
  unfold above
  rw [List.any_map, List.any_eq_true]
  constructor
  · rintro ⟨x, hx, hb⟩
    rcases x with _ | ρ
    · simp at hb
    · exact ⟨ρ, hx, by simpa using hb⟩
  · rintro ⟨ρ, hx, hb⟩
    exact ⟨some ρ, hx, by simpa using hb⟩

theorem nsqrt_real {x : ℝ} (hx : 0 ≤ x) : nsqrt (psdNum x) = num (Real.sqrt x) := by
  have e : psdNum x = some (x : EReal) := rfl
  rw [e]
  unfold nsqrt num
  have h1 : (x : EReal) ≠ ⊤ := EReal.coe_ne_top x
  have h2 : ¬ (x : EReal) < 0 := by
    rw [not_lt]
    exact_mod_cast hx
  simp only [h1, h2, if_false, EReal.toReal_coe]

theorem nsqrt_num {x : ℝ} (hx : 0 ≤ x) : nsqrt (num x) = num (Real.sqrt x) := nsqrt_real hx

theorem nsqrt_top : nsqrt (psdNum ⊤) = some ⊤ := by
  have e : psdNum ⊤ = some (⊤ : EReal) := rfl
  rw [e]
  simp [nsqrt]

theorem nmul_num (x y : ℝ) : nmul (num x) (num y) = num (x * y) := by
  unfold nmul num
  simp

theorem nmul_top {x : ℝ} (hx : 0 < x) : nmul (num x) (some ⊤) = some ⊤ := by
  unfold nmul num
  have h : x ≠ 0 := hx.ne'
  simp [h, EReal.coe_mul_top_of_pos hx]

theorem top_nmul {x : ℝ} (hx : 0 < x) : nmul (some ⊤) (num x) = some ⊤ := by
  unfold nmul num
  have h : x ≠ 0 := hx.ne'
  simp [h, EReal.top_mul_coe_of_pos hx]

theorem heights_ok {W : World} {d : Dict} {b : Bool} {pts : List (ℝ × ℝ)} {y : List Num} 
    (h : heights W d b (pts.map Prod.fst) (pts.map fun x => some x.2) = .ok y) :
    List.Forall₂ (fun p y => HeightOf W d (b = true) p.1 p.2 y) pts y := by
  unfold heights at h
  obtain ⟨PSD, h1, h2⟩ := except_bind_ok.1 h
  have h3 := Except.ok.inj h2
  clear h h2
  subst h3
  induction pts generalizing PSD with
  | nil =>
    rw [List.map_nil, mapM_nil_ok] at h1
    subst h1
    cases b <;> simp
  | cons p pts ih =>
    rw [List.map_cons, mapM_cons_ok] at h1
    obtain ⟨S, PSD, hS, h1, rfl⟩ := h1
    have ih := ih PSD h1
    rcases b with _ | _
    · simp only [List.map_cons, List.zipWith_cons_cons] at ih ⊢
      refine List.Forall₂.cons ?_ ih
      refine ⟨S, hS, fun x hx h0 => ⟨fun _ => ?_, fun h => by simp at h⟩, fun hx hρ _ => ?_⟩
      · rw [hx, nsqrt_real h0]
        exact nmul_num _ _
      · rw [hx, nsqrt_top]
        exact nmul_top hρ
    · simp only [List.map_cons, List.zipWith_cons_cons] at ih ⊢
      refine List.Forall₂.cons ?_ ih
      refine ⟨S, hS, fun x hx h0 => ⟨fun h => absurd trivial h, fun _ hf => ?_⟩, fun hx hρ hf => ?_⟩
      · rw [hx, nsqrt_real h0, nsqrt_num hf]
        change nmul (nmul (num p.2) _) _ = _
        rw [nmul_num, nmul_num]
        rfl
      · rw [hx, nsqrt_top, nsqrt_num (hf trivial).le]
        change nmul (nmul (num p.2) _) _ = _
        rw [nmul_top hρ, top_nmul (Real.sqrt_pos.2 (hf trivial))]

theorem plot_2D_clash {a : Args2} (h1 : a.disttype = "scatter") (h2 : a.kwargs.has "s" = true) (v : Canvas) :
    (plot_2D_dist a v).1 = .error .TypeError := by
  unfold plot_2D_dist
  rw [style_run, bind_ok (axes_run _ _ _)]
  have hd : ∀ ax v, draw_2D ax a v = (.error .TypeError, v) := by
    intro ax v
    unfold draw_2D
    simp only
    rw [if_pos h1, if_pos]
    · rfl
    · rw [has_update, h2]
      simp
  simp only
  rw [bind_error (hd _ _)]

theorem index_above {α : Type} (cut : ℝ) {xs : List α} {snr : List (Option ℝ)} (hl : xs.length = snr.length) :
    index (above cut snr) xs = .ok ((detected cut xs snr).map Prod.fst) := by
  unfold index
  rw [if_pos (by rw [above_length, hl]), select_above]
  rfl

theorem index_above_self {α : Type} (cut : ℝ) {xs : List α} {snr : List (Option ℝ)} (hl : xs.length = snr.length) :
    index (above cut snr) snr = .ok ((detected cut xs snr).map fun x => some x.2) := by
  unfold index
  rw [if_pos (by rw [above_length]), select_above_self cut hl]
  rfl

/-- Weights of the sources above the cutoff. -/
noncomputable def detectedWeights (cut : ℝ) (ws : Option (List ℝ)) (snr : List (Option ℝ)) : Option (List ℝ) :=
  ws.map fun ws => (detected cut ws snr).map Prod.fst

theorem index_weights_above {cut : ℝ} {ws : Option (List ℝ)} {snr : List (Option ℝ)}
    (hw : ∀ x, ws = some x → x.length = snr.length) :
    index_weights (above cut snr) ws = .ok (detectedWeights cut ws snr) := by
  rcases ws with _ | ws
  · rfl
  · simp only [index_weights]
    rw [index_above cut (hw ws rfl)]
    rfl

section
variable {W : World} {gy : ℕ → List Mark → Num × Num} {d : Dict} {vis : ScVis} {k : Style2} {f a : ℕ} {cut : ℝ}
  {fs : List ℝ} {snr : List (Option ℝ)} {ws : Option (List ℝ)}

theorem overlay_run (hl : fs.length = snr.length) (hw : ∀ x, ws = some x → x.length = snr.length) {y : List Num}
    (hy : heights W d (decide (vis.y_quantity = some "h_c")) ((detected cut fs snr).map Prod.fst)
      ((detected cut fs snr).map fun x => some x.2) = .ok y) (hc : NoClash k.disttype k.kwargs) {v : Canvas}
    (hv : styled v.rc = v.rc) :
    overlay W gy d vis k f a fs snr ws (above cut snr) v = (.ok (f, a), emit a
      (draws2 (k.args ((detected cut fs snr).map fun x => num x.1) y (detectedWeights cut ws snr) f a) ++
        [.set_ylim (gy a v.marks).1 (gy a v.marks).2]) v) := by
  unfold overlay
  rw [index_above cut hl, index_above_self cut hl, index_weights_above hw]
  have hl' : ∀ {α β : Type} (x : α) (g : α → C β) (v : Canvas), ((PyM.lift (.ok x) : C α) >>= g) v = g x v := fun _ _ _ => rfl
  rw [hl', hl', hy, hl', bind_ok (PyM.get_run v)]
  simp only
  rw [hl', List.map_map]
  have h2 := plot_2D_run (a := k.args (List.map (num ∘ Prod.fst) (detected cut fs snr)) y (detectedWeights cut ws snr) f a) hc v
  rw [bind_ok h2]
  change (Except.ok (f, a), emit a [_] (after (some f) (some a) _ false v)) = _
  have h3 : ∀ ds, after (some f) (some a) ds false v = emit a ds v := by
    intro ds
    unfold after emit
    simp only [hv]
    rfl
  rw [h3, emit_emit]
  rfl

theorem overlay_ok (hl : fs.length = snr.length) (hw : ∀ x, ws = some x → x.length = snr.length) {v : Canvas} {out : ℕ × ℕ}
    (h : (overlay W gy d vis k f a fs snr ws (above cut snr) v).1 = .ok out) :
    (∃ y, heights W d (decide (vis.y_quantity = some "h_c")) ((detected cut fs snr).map Prod.fst)
      ((detected cut fs snr).map fun x => some x.2) = .ok y) ∧ NoClash k.disttype k.kwargs := by
  unfold overlay at h
  rw [index_above cut hl, index_above_self cut hl, index_weights_above hw] at h
  have hl' : ∀ {α β : Type} (x : α) (g : α → C β) (v : Canvas), ((PyM.lift (.ok x) : C α) >>= g) v = g x v := fun _ _ _ => rfl
  rw [hl', hl'] at h
  rcases hy : heights W d (decide (vis.y_quantity = some "h_c")) ((detected cut fs snr).map Prod.fst)
      ((detected cut fs snr).map fun x => some x.2) with e | y
  · rw [hy] at h
    cases h
  · refine ⟨⟨y, hy⟩, fun hs => ?_⟩
    rw [hy, hl', bind_ok (PyM.get_run v)] at h
    simp only at h
    rw [hl'] at h
    rcases hb : k.kwargs.has "s"
    · rfl
    · exfalso
      have h2 := plot_2D_clash (a := k.args (List.map num (List.map Prod.fst (detected cut fs snr))) y
        (detectedWeights cut ws snr) f a) hs hb v
      rcases hv : plot_2D_dist (k.args (List.map num (List.map Prod.fst (detected cut fs snr))) y
        (detectedWeights cut ws snr) f a) v with ⟨e | p, v'⟩
      · rw [bind_error hv] at h
        cases h
      · rw [hv] at h2
        cases h2

end

/-! ### The whole overlay -/

theorem map_draw (ax : ℕ) (rc : String → Val) (ds : List Draw) {β : Type} (g : Draw → Option β) :
    (ds.map fun d => (⟨ax, rc, d⟩ : Mark)).filterMap (fun m => g m.draw) = ds.filterMap g := by
  rw [List.filterMap_map]
  rfl

theorem scatters_draws2 (a : Args2) : (draws2 a).filterMap points? =
    if a.disttype = "scatter" then [(a.x, a.y, sizes a.weights a.scatter_s)] else [] := by
  unfold draws2
  have e1 : ∀ l : Option String, (l.toList.map Draw.set_xlabel).filterMap points? = [] := by
    intro l; rcases l with _ | _ <;> rfl
  have e2 : ∀ l : Option String, (l.toList.map Draw.set_ylabel).filterMap points? = [] := by
    intro l; rcases l with _ | _ <;> rfl
  have e3 : ∀ l : Option (Num × Num), (l.toList.map fun l => Draw.set_xlim l.1 l.2).filterMap points? = [] := by
    intro l; rcases l with _ | _ <;> rfl
  have e4 : ∀ l : Option (Num × Num), (l.toList.map fun l => Draw.set_ylim l.1 l.2).filterMap points? = [] := by
    intro l; rcases l with _ | _ <;> rfl
  simp only [List.filterMap_append, e1, e2, e3, e4, List.append_nil]
  split_ifs <;> rfl

theorem curves_draws2 (a : Args2) : (draws2 a).filterMap curve? = [] := by
  unfold draws2
  have e1 : ∀ l : Option String, (l.toList.map Draw.set_xlabel).filterMap curve? = [] := by
    intro l; rcases l with _ | _ <;> rfl
  have e2 : ∀ l : Option String, (l.toList.map Draw.set_ylabel).filterMap curve? = [] := by
    intro l; rcases l with _ | _ <;> rfl
  have e3 : ∀ l : Option (Num × Num), (l.toList.map fun l => Draw.set_xlim l.1 l.2).filterMap curve? = [] := by
    intro l; rcases l with _ | _ <;> rfl
  have e4 : ∀ l : Option (Num × Num), (l.toList.map fun l => Draw.set_ylim l.1 l.2).filterMap curve? = [] := by
    intro l; rcases l with _ | _ <;> rfl
  simp only [List.filterMap_append, e1, e2, e3, e4, List.append_nil]
  split_ifs <;> rfl

theorem scatters_drawsCurve (a : ScVis) (f : ℝ) (fs : List ℝ) (y : List Num) :
    (drawsCurve a f fs y).filterMap points? = [] := by
  unfold drawsCurve
  split_ifs <;> rfl

theorem curves_drawsCurve (a : ScVis) (f : ℝ) (fs : List ℝ) (y : List Num) :
    (drawsCurve a f fs y).filterMap curve? = [((f :: fs).map num, y)] := by
  unfold drawsCurve
  split_ifs <;> rfl

/-- A drawn sensitivity curve had a noise amplitude and a range. -/
theorem plot_sensitivity_curve_ok {W : World} {a : ScVis} {fig ax : Option ℕ} {b : Bool} {d : Dict} {v : Canvas}
    {out : ℕ × ℕ} (h : (plot_sensitivity_curve W a fig ax b d v).1 = .ok out) :
    ∃ f fs y, a.frequency_range.getD default_range = f :: fs ∧
      noise_amplitude W (a.y_quantity.getD "ASD") (f :: fs) d = .ok y := by
  unfold plot_sensitivity_curve at h
  rw [style_run, bind_ok (axes_run _ _ _)] at h
  simp only at h
  rcases hy : noise_amplitude W (a.y_quantity.getD "ASD") (a.frequency_range.getD default_range) d with e | y
  · rw [hy] at h
    cases h
  · rcases hf : a.frequency_range.getD default_range with _ | ⟨f, fs⟩
    · exfalso
      rw [hf] at hy
      rw [hf, hy] at h
      have hl' : ∀ {α β : Type} (x : α) (g : α → C β) (v : Canvas), ((PyM.lift (.ok x) : C α) >>= g) v = g x v := fun _ _ _ => rfl
      rw [hl', (Emits.draw _ _).run, (Emits.if_true (.draw _ _)).run, (Emits.draw _ _).run, (Emits.draw _ _).run] at h
      cases h
    · rw [hf] at hy
      exact ⟨f, fs, y, rfl, hy⟩

open Classical in
/-- Everything drawn by a successful overlay with sources above the cutoff. -/
theorem plot_sources_run {W : World} {gy : ℕ → List Mark → Num × Num} {d : Dict} {vis : ScVis} {k : Style2} {cut : ℝ}
    {fs : List ℝ} {snr : List (Option ℝ)} {ws : Option (List ℝ)} {fig ax : Option ℕ} {b : Bool} {v v' : Canvas} {out : ℕ × ℕ}
    (hl : fs.length = snr.length) (hw : ∀ x, ws = some x → x.length = snr.length)
    (h : plot_sources_on_sc W gy fs snr ws cut d fig ax b vis k v = (.ok out, v')) :
    ∃ v₁, axes_with_curve W d vis fig ax { v with rc := styled v.rc } = (.ok out, v₁) ∧ v₁.rc = styled v.rc ∧
      if ∃ ρ : ℝ, some ρ ∈ snr ∧ cut < ρ then NoClash k.disttype k.kwargs ∧
        v'.messages = v₁.messages ∧ v'.next = v₁.next ∧
        v'.shows = (if b then v₁.shows ++ [v'.marks.length] else v₁.shows) ∧
        ∃ y, heights W d (decide (vis.y_quantity = some "h_c")) ((detected cut fs snr).map Prod.fst)
          ((detected cut fs snr).map fun x => some x.2) = .ok y ∧
        v'.marks = v₁.marks ++ List.map (fun d : Draw => (⟨out.2, styled v.rc, d⟩ : Mark))
          (draws2 (k.args ((detected cut fs snr).map fun x => num x.1) y (detectedWeights cut ws snr) out.1 out.2) ++
            [Draw.set_ylim (gy out.2 v₁.marks).1 (gy out.2 v₁.marks).2])
      else v'.marks = v₁.marks ∧ v'.next = v₁.next ∧ v'.shows = v₁.shows ∧
        v'.messages = v₁.messages ++ [("error", "There are no binaries above provided `snr_cutoff`")] := by
  unfold plot_sources_on_sc at h
  rw [style_run] at h
  have hon := axes_with_curve_on W d vis fig ax { v with rc := styled v.rc }
  rcases hv : axes_with_curve W d vis fig ax { v with rc := styled v.rc } with ⟨e | p, v₁⟩
  · rw [bind_error hv] at h
    cases h
  · rw [bind_ok hv] at h
    rw [hv] at hon
    have hrc : v₁.rc = styled v.rc := hon.settings
    obtain ⟨f, a, rfl⟩ : ∃ f a, p = (f, a) := ⟨_, _, rfl⟩
    simp only at h
    by_cases hd : ∃ ρ : ℝ, some ρ ∈ snr ∧ cut < ρ
    · rw [if_pos ((above_any cut snr).2 hd)] at h
      rcases ho : overlay W gy d vis k f a fs snr ws (above cut snr) v₁ with ⟨e | q, v₂⟩
      · rw [bind_error ho] at h
        cases h
      · obtain ⟨⟨y, hy⟩, hc⟩ := overlay_ok (v := v₁) hl hw (by rw [ho])
        have hrun := @overlay_run W gy d vis k f a cut fs snr ws hl hw y hy hc v₁ (by rw [hrc, styled_styled])
        rw [bind_ok hrun] at h
        have hout : out = (f, a) := by
          have := congrArg Prod.fst h
          simp only at this
          exact out_of_bind (fun _ => out_of_pure) _ _ this
        subst hout
        refine ⟨v₁, rfl, hrc, ?_⟩
        rw [if_pos hd]
        have h2 := congrArg Prod.snd h
        simp only at h2
        subst h2
        rcases b with _ | _
        · refine ⟨hc, rfl, rfl, rfl, y, hy, ?_⟩
          rw [← hrc]
          rfl
        · refine ⟨hc, rfl, rfl, rfl, y, hy, ?_⟩
          rw [← hrc]
          rfl
    · rw [if_neg (fun hh => hd ((above_any cut snr).1 hh))] at h
      refine ⟨v₁, ?_, hrc, ?_⟩
      · have := congrArg Prod.fst h
        simp only at this
        cases this
        rfl
      · rw [if_neg hd]
        have h2 := congrArg Prod.snd h
        simp only at h2
        subst h2
        exact ⟨rfl, rfl, rfl, rfl⟩

end Legwork.visualisation
