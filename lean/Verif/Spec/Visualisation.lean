import Verif.Model.Visualisation
import Verif.Spec.Masks
import Verif.Spec.Index
import Verif.Spec.SnrOf

/-!
# Vocabulary for plots
-/

namespace Legwork.Spec

open Legwork.source Legwork.visualisation

/-- The settings in force while LEGWORK draws: its own where it has one, otherwise those of the user. -/
def styled (rc : String → Val) (key : String) : Val := (List.lookup key style_params).getD (rc key)

/-- The figure and axes to be used: those given if both are, otherwise new ones. -/
def axesFor (fig ax : Option ℕ) (v : Canvas) : ℕ × ℕ :=
  match fig, ax with
  | some fig, some ax => (fig, ax)
  | _, _ => (v.next, v.next)

/-- The number of figures afterwards. -/
def figuresAfter (fig ax : Option ℕ) (v : Canvas) : ℕ :=
  match fig, ax with
  | some _, some _ => v.next
  | _, _ => v.next + 1

/-- What every plotting function does to matplotlib, whether or not it fails: it uses the axes given or exactly one new
figure, only adds to those axes, draws in LEGWORK's style, puts the user's settings back, and returns the figure and
axes used. -/
structure PlotsOn (fig ax : Option ℕ) (v : Canvas) (r : Except PyErr (ℕ × ℕ)) (v' : Canvas) : Prop where
  settings : v'.rc = v.rc
  figures : v'.next = figuresAfter fig ax v
  result : ∀ out, r = .ok out → out = axesFor fig ax v
  added : ∃ new, v'.marks = v.marks ++ new ∧ ∀ m ∈ new, m.ax = (axesFor fig ax v).2 ∧ m.rc = styled v.rc

/-- Points drawn by a call: abscissae, heights and sizes. -/
def points? : Draw → Option (List Num × List Num × Sizes)
  | .scatter x y s _ _ => some (x, y, s)
  | _ => none

/-- A curve drawn by a call. -/
def curve? : Draw → Option (List Num × List Num)
  | .loglog x y _ _ => some (x, y)
  | _ => none

/-- The points drawn by a sequence of calls. -/
def scatters (ms : List Mark) : List (List Num × List Num × Sizes) := ms.filterMap fun m => points? m.draw

/-- The curves drawn by a sequence of calls. -/
def curves (ms : List Mark) : List (List Num × List Num) := ms.filterMap fun m => curve? m.draw

/-- Sizes of points: the same for all, or proportional to the weights if there are any. -/
def sizesOf (s : ℝ) : Option (List ℝ) → Sizes
  | none => .one s
  | some w => .each (w.map fun x => x * s)

/-- The options used: those given, and the defaults for the others. -/
def Overrides (defaults given used : List (String × Val)) : Prop :=
  ∀ key, List.lookup key used = (List.lookup key given).or (List.lookup key defaults)

/-- The labels and limits asked for, with limits of the x axis converted by `f`, in this order. -/
def finish (f : Num → Num) (xlabel ylabel : Option String) (xlim ylim : Option (Num × Num)) : List Draw :=
  (xlabel.map Draw.set_xlabel).toList ++ (ylabel.map Draw.set_ylabel).toList ++
    (xlim.map fun l => Draw.set_xlim (f l.1) (f l.2)).toList ++ (ylim.map fun l => Draw.set_ylim l.1 l.2).toList

/-- The sensitivity curve can be drawn: the quantity is known, there are frequencies, and the PSD can be evaluated. -/
def CurveOk (W : World) (d : Dict) (vis : ScVis) : Prop :=
  (vis.y_quantity = none ∨ vis.y_quantity = some "ASD" ∨ vis.y_quantity = some "h_c") ∧
    vis.frequency_range.getD default_range ≠ [] ∧
    ∀ f ∈ vis.frequency_range.getD default_range, ∃ S, psd_of_dict W d f = .ok S

open Classical in
/-- The entries of a list that belong to sources with an SNR above the cutoff, with that SNR. -/
noncomputable def detected {α : Type} (cutoff : ℝ) (xs : List α) (snr : List (Option ℝ)) : List (α × ℝ) :=
  (xs.zip snr).filterMap fun x => match x.2 with
    | some ρ => if cutoff < ρ then some (x.1, ρ) else none
    | none => none

/-- `y` is the height of a source of frequency `f` and SNR `ρ`: `ρ` times the root of the PSD at `f`, and also times the root
of `f` for the characteristic strain; infinite where the PSD is. -/
def HeightOf (W : World) (d : Dict) (h_c : Prop) (f ρ : ℝ) (y : Num) : Prop :=
  ∃ S, psd_of_dict W d f = .ok S ∧
    (∀ x : ℝ, S = x → 0 ≤ x → (¬ h_c → y = some ((ρ * Real.sqrt x : ℝ) : EReal)) ∧
      (h_c → 0 ≤ f → y = some ((ρ * Real.sqrt x * Real.sqrt f : ℝ) : EReal))) ∧
    (S = ⊤ → 0 < ρ → (h_c → 0 < f) → y = some ⊤)

/-- `y` is the height of the sensitivity curve at `f`: the root of the PSD, or of `f` times the PSD. -/
def CurveAt (W : World) (d : Dict) (h_c : Prop) (f : ℝ) (y : Num) : Prop :=
  ∃ S, psd_of_dict W d f = .ok S ∧
    (∀ x : ℝ, S = x → 0 ≤ x → (¬ h_c → y = some ((Real.sqrt x : ℝ) : EReal)) ∧
      (h_c → 0 ≤ f → y = some ((Real.sqrt (f * x) : ℝ) : EReal))) ∧
    (S = ⊤ → (h_c → 0 < f) → y = some ⊤)

/-- The source object `s` is complete and has SNRs: its arrays have one entry per source, its parameters, with observation
time `T`, are at `p`, its SNRs at `r` and its strongest harmonics at `r'`. -/
structure PlotReady (h : Heap) (s p r r' : ℕ) (tol T : ℝ) : Prop where
  sized : Sized h s
  ecc_tol : (h.src s).ecc_tol = some tol
  required : (h.src s).harmonics_required.isSome
  params : (h.src s).sc_params = some p
  time : MaskTime (h.par p).dict .none T
  snr : (h.src s).snr = some r
  harm : (h.src s).max_snr_harmonic = some r'

open Classical in
/-- The sources `Source.plot_sources_on_sc` has to plot: stationary, above the cutoff and not merged; each with its SNR and
strongest harmonic. -/
noncomputable def plottable (K : Consts) (T stat_tol cutoff : ℝ) (c : Cols) (snr : List (Option ℝ)) (harm : List ℕ) :
    List ((One × ℕ) × ℝ) :=
  (detected cutoff ((rows c).zip harm) snr).filter fun x =>
    decide (x.1.1.StationaryOver K T stat_tol ∧ x.1.1.merged = false)

open Classical in
/-- The sources that cannot be plotted yet: evolving, above the cutoff and not merged, circular ones or eccentric ones. -/
noncomputable def unplottable (K : Consts) (T stat_tol ecc_tol cutoff : ℝ) (circular : Bool) (c : Cols)
    (snr : List (Option ℝ)) : List (One × ℝ) :=
  (detected cutoff (rows c) snr).filter fun x =>
    decide (CircularIs ecc_tol x.1 (.bool circular) ∧ ¬ x.1.StationaryOver K T stat_tol ∧ x.1.merged = false)

/-- The warning about a number of sources, if there are any. -/
def notice (n : ℕ) (kind : String) : List (String × String) :=
  if n = 0 then [] else [("warning", toString n ++ " " ++ kind ++
    " and evolving sources detected, plotting not yet implemented for evolving sources.")]

/-- The values of the variables that can be plotted, for one source with SNR `snr`. -/
noncomputable def variableOf (K : Consts) (snr : Option ℝ) (r : One) (name : String) : Option Num :=
  match name with
  | "m_1" => some (num r.m_1)
  | "m_2" => some (num r.m_2)
  | "m_c" => some (num (utils.chirp_mass r.m_1 r.m_2))
  | "ecc" => some (num r.ecc)
  | "dist" => some (num r.dist)
  | "f_orb" => some (num r.f_orb)
  | "f_GW" => some (num (2 * r.f_orb))
  | "a" => some (num (utils.get_a_from_f_orb K r.f_orb r.m_1 r.m_2))
  | "snr" => some (snr.bind num)
  | _ => none

/-- The names of variables. -/
def variableNames : List String := ["m_1", "m_2", "m_c", "ecc", "dist", "f_orb", "f_GW", "a", "snr"]

/-- A variable that can be plotted: a known name, and the SNR only once there is one. -/
def Known (snr : Option (List (Option ℝ))) (name : String) : Prop := name ∈ variableNames ∧ (name = "snr" → snr.isSome)

open Classical in
/-- The numbers of the sources to be shown: those chosen, without the merged ones if these are excluded. -/
noncomputable def shownSources (c : Cols) (ws : Option (List Bool)) (exclude_merged : Bool) : List ℕ :=
  (List.range c.n_sources).filter fun i =>
    decide (Chosen ws i ∧ (exclude_merged = true → (rowAt c i).merged = false))

/-- The value of a variable for source number `i`. -/
noncomputable def valueAt (K : Consts) (c : Cols) (snr : Option (List (Option ℝ))) (name : String) (i : ℕ) : Num :=
  (variableOf K ((snr.getD []).getD i none) (rowAt c i) name).getD none

end Legwork.Spec
