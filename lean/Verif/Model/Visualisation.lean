import Verif.Model.Source
import Mathlib.Data.EReal.Operations

/-!
# Model of `src/legwork/visualisation.py` and of the plotting methods of `Source`

A plot is the sequence of calls made to matplotlib and seaborn, each with the axes it is made on and the settings
(`rcParams`) in force. What those libraries draw for a call, and what they raise for arguments they do not like, is not
modelled; the one exception is an argument passed twice, which fails before they are called. The unit conversions
of `quantity_support`, figure sizes, line widths, transparency and suppressed warnings are left out: data are physical
values.
-/

namespace Legwork.visualisation

open Legwork.source

/-- A float: `none` is NaN. -/
abbrev Num : Type := Option EReal

/-- The value of a keyword argument or setting. -/
inductive Val
  | none
  | bool (b : Bool)
  | num (x : ℝ)
  | str (s : String)
  | pair (x y : ℝ)
  | obj (i : ℕ)

/-- Keyword arguments. -/
abbrev Kwargs : Type := List (String × Val)

/-- `d[key] = value` -/
def Kwargs.set (d : Kwargs) (key : String) (v : Val) : Kwargs :=
  if d.any fun kv => kv.1 = key then d.map fun kv => if kv.1 = key then (key, v) else kv else d ++ [(key, v)]

/-- `for key, value in kwargs.items(): d[key] = value`, e.g. visualisation.py lines 131-132. -/
def Kwargs.update (d kwargs : Kwargs) : Kwargs := kwargs.foldl (fun d kv => d.set kv.1 kv.2) d

/-- `key in kwargs` -/
def Kwargs.has (d : Kwargs) (key : String) : Bool := d.any fun kv => kv.1 = key

/-- Sizes of scatter points: one for all or one each. -/
inductive Sizes
  | one (s : ℝ)
  | each (s : List ℝ)

/-- Calls to matplotlib and seaborn. -/
inductive Draw
  | loglog (x y : List Num) (color label : Val)
  | fill_between (x lo hi : List Num) (color : Val)
  | hist (x : List Num) (weights : Option (List ℝ)) (color : Val) (opts : Kwargs)
  | kdeplot (x : List Num) (weights : Option (List ℝ)) (color : Val) (log_scale : Bool) (opts : Kwargs)
  | ecdfplot (x : List Num) (weights : Option (List ℝ)) (color : Val) (log_scale : Bool) (opts : Kwargs)
  | scatter (x y : List Num) (s : Sizes) (color : Val) (opts : Kwargs)
  | kdeplot2 (x y : List Num) (weights : Option (List ℝ)) (color : Val) (log_scale : Bool × Bool) (opts : Kwargs)
  | set_xscale (s : String)
  | set_yscale (s : String)
  | set_xlabel (s : String)
  | set_ylabel (s : String)
  | set_xlim (lo hi : Num)
  | set_ylim (lo hi : Num)

/-- A call on axes under given settings. -/
structure Mark where
  ax : ℕ
  rc : String → Val
  draw : Draw

/-- What matplotlib remembers: the number of figures made so far, the calls, the current settings, and how many calls
there were at each `plt.show()`; and the messages logged. -/
structure Canvas where
  next : ℕ
  marks : List Mark
  rc : String → Val
  shows : List ℕ
  messages : List (String × String)

/-- Code that draws. -/
abbrev C (α : Type) : Type := PyM Canvas α

/-- A call on axes. -/
def draw (ax : ℕ) (d : Draw) : C Unit := PyM.modify fun v => { v with marks := v.marks ++ [⟨ax, v.rc, d⟩] }

/-- `plt.subplots()`: a new figure and its axes, both given the same number. -/
def subplots : C (ℕ × ℕ) := fun v => (.ok (v.next, v.next), { v with next := v.next + 1 })

/-- `plt.show()` -/
def plt_show : C Unit := PyM.modify fun v => { v with shows := v.shows ++ [v.marks.length] }

/-- `logger.error` and `logger.warning`. -/
def message (level text : String) : C Unit := PyM.modify fun v => { v with messages := v.messages ++ [(level, text)] }

/-- `style_params`, visualisation.py lines 11-29. -/
def style_params : Kwargs :=
  [("font.family", .str "serif"), ("text.usetex", .bool false), ("figure.figsize", .pair 12 8),
   ("axes.titlesize", .num 24), ("legend.title_fontsize", .num 18), ("legend.fontsize", .num 16),
   ("axes.labelsize", .num 24), ("xtick.labelsize", .num 21), ("ytick.labelsize", .num 21),
   ("axes.linewidth", .num 1.1), ("xtick.major.size", .num 7), ("xtick.minor.size", .num 4),
   ("ytick.major.size", .num 7), ("ytick.minor.size", .num 4), ("xtick.minor.visible", .bool true),
   ("ytick.minor.visible", .bool true)]

/-- `rcParams.update(d)` -/
def rc_update (rc : String → Val) (d : Kwargs) : String → Val := d.foldl (fun rc kv => Function.update rc kv.1 kv.2) rc

/-- `legwork_plot_style`, visualisation.py lines 37-41. `plt.rc_context` puts back the settings it found, also when there
is an exception. -/
def legwork_plot_style {α : Type} (m : C α) : C α := fun v =>
  let r := m { v with rc := rc_update v.rc style_params }
  (r.1, { r.2 with rc := v.rc })

/-- `fig, ax = plt.subplots(...)` if either is `None`, visualisation.py lines 115-116, 248-249 and 362-363. -/
def axes (fig ax : Option ℕ) : C (ℕ × ℕ) :=
  match fig, ax with
  | some fig, some ax => pure (fig, ax)
  | _, _ => subplots

/-- `f(x)` if `x is not None`. -/
def if_some {α : Type} (x : Option α) (f : α → C Unit) : C Unit :=
  match x with
  | some x => f x
  | none => pure ()

/-- Code run if a condition holds. -/
def if_true (b : Bool) (m : C Unit) : C Unit := if b then m else pure ()

/-- `plt.show()` if requested. -/
def if_show (show_ : Bool) : C Unit := if_true show_ plt_show

/-! ### Arithmetic with infinities -/

open Classical in
/-- `np.sqrt`: NaN for negative numbers. -/
noncomputable def nsqrt : Num → Num
  | some x => if x = ⊤ then some ⊤ else if x < 0 then none else some (Real.sqrt x.toReal : ℝ)
  | none => none

open Classical in
/-- Product of floats: zero times infinity is NaN. -/
noncomputable def nmul : Num → Num → Num
  | some x, some y => if (x = 0 ∧ (y = ⊤ ∨ y = ⊥)) ∨ (y = 0 ∧ (x = ⊤ ∨ x = ⊥)) then none else some (x * y)
  | _, _ => none

open Classical in
/-- `np.log10`: minus infinity for 0 and NaN for negative numbers. -/
noncomputable def nlog10 : Num → Num
  | some x => if x = ⊤ then some ⊤ else if x < 0 then none else if x = 0 then some ⊥ else some (Real.logb 10 x.toReal : ℝ)
  | none => none

/-- A real number. -/
def num (x : ℝ) : Num := some (x : EReal)

/-- A power spectral density. -/
def psdNum (S : WithTop ℝ) : Num := some (S : WithBot (WithTop ℝ))

/-- The number a quantity has in its unit (an unscaled number has unit 1). -/
noncomputable def value (unit : ℝ) (x : Num) : Num := nmul x (num (1 / unit))

/-! ### Distributions -/

/-- Arguments of `plot_1D_dist`, visualisation.py lines 45-46, with their defaults. `unit` is the size of the unit that
`x` is expressed in. -/
structure Args1 where
  x : List Num
  unit : ℝ := 1
  weights : Option (List ℝ) := none
  disttype : String := "hist"
  log_scale : Bool := false
  fig : Option ℕ := none
  ax : Option ℕ := none
  show_ : Bool := true
  xlabel : Option String := none
  ylabel : Option String := none
  xlim : Option (Num × Num) := none
  ylim : Option (Num × Num) := none
  color : Val := .none
  kwargs : Kwargs := []

/-- The default options of each kind of plot, visualisation.py lines 118-128. -/
def defaults1 (disttype : String) : Kwargs :=
  if disttype = "hist" then [("bins", .str "fd"), ("density", .bool true)]
  else if disttype = "kde" then [("gridsize", .num 200), ("legend", .bool true)]
  else [("stat", .str "proportion"), ("legend", .bool true)]

/-- The plot itself, visualisation.py lines 134-148. -/
noncomputable def draw_1D (ax : ℕ) (a : Args1) : C Unit :=
  let opts := (defaults1 a.disttype).update a.kwargs
  if a.disttype = "hist" then
    draw ax (.hist (if a.log_scale then a.x.map fun x => nlog10 (value a.unit x) else a.x) a.weights a.color opts)
  else if a.disttype = "kde" then draw ax (.kdeplot a.x a.weights a.color a.log_scale opts)
  else if a.disttype = "ecdf" then draw ax (.ecdfplot a.x a.weights a.color a.log_scale opts)
  else pure ()

/-- The limits of the x axis, visualisation.py lines 157-161. -/
noncomputable def xlim_1D (a : Args1) (lim : Num × Num) : Draw :=
  if a.disttype = "hist" ∧ a.log_scale = true then .set_xlim (nlog10 lim.1) (nlog10 lim.2) else .set_xlim lim.1 lim.2

/-- `visualisation.plot_1D_dist`, visualisation.py lines 44-170. -/
noncomputable def plot_1D_dist (a : Args1) : C (ℕ × ℕ) := legwork_plot_style do
  let (fig, ax) ← axes a.fig a.ax
  draw_1D ax a
  if_some a.xlabel fun s => draw ax (.set_xlabel s)
  if_some a.ylabel fun s => draw ax (.set_ylabel s)
  if_some a.xlim fun lim => draw ax (xlim_1D a lim)
  if_some a.ylim fun lim => draw ax (.set_ylim lim.1 lim.2)
  if_show a.show_
  pure (fig, ax)

/-- Arguments of `plot_2D_dist`, visualisation.py lines 174-176, with their defaults. `log_scale` is a pair, or a single
value for both axes (lines 251-253). -/
structure Args2 where
  x : List Num
  y : List Num
  weights : Option (List ℝ) := none
  disttype : String := "scatter"
  fig : Option ℕ := none
  ax : Option ℕ := none
  show_ : Bool := true
  xlabel : Option String := none
  ylabel : Option String := none
  xlim : Option (Num × Num) := none
  ylim : Option (Num × Num) := none
  log_scale : Bool ⊕ Bool × Bool := .inl false
  color : Val := .none
  scatter_s : ℝ := 20
  kwargs : Kwargs := []

/-- Lines 251-253. -/
def expand : Bool ⊕ Bool × Bool → Bool × Bool
  | .inl b => (b, b)
  | .inr p => p

/-- The sizes of scatter points, visualisation.py lines 272-273. -/
noncomputable def sizes (weights : Option (List ℝ)) (scatter_s : ℝ) : Sizes :=
  match weights with
  | some w => .each (w.map fun w => w * scatter_s)
  | none => .one scatter_s

/-- The plot itself, visualisation.py lines 255-283. An option `s` meets the argument `s` in the call to `scatter`, so it is
passed twice (`TypeError`). -/
noncomputable def draw_2D (ax : ℕ) (a : Args2) : C Unit :=
  let log_scale := expand a.log_scale
  if a.disttype = "scatter" then
    let opts := Kwargs.update [] a.kwargs
    if opts.has "s" then PyM.lift (throw .TypeError)
    else do
      draw ax (.scatter a.x a.y (sizes a.weights a.scatter_s) a.color opts)
      if_true log_scale.1 (draw ax (.set_xscale "log"))
      if_true log_scale.2 (draw ax (.set_yscale "log"))
  else if a.disttype = "kde" then
    draw ax (.kdeplot2 a.x a.y a.weights a.color log_scale (Kwargs.update
      [("gridsize", .num 200), ("legend", .bool true), ("levels", .num 10), ("thresh", .num 0.02)] a.kwargs))
  else pure ()

/-- `visualisation.plot_2D_dist`, visualisation.py lines 173-302. -/
noncomputable def plot_2D_dist (a : Args2) : C (ℕ × ℕ) := legwork_plot_style do
  let (fig, ax) ← axes a.fig a.ax
  draw_2D ax a
  if_some a.xlabel fun s => draw ax (.set_xlabel s)
  if_some a.ylabel fun s => draw ax (.set_ylabel s)
  if_some a.xlim fun lim => draw ax (.set_xlim lim.1 lim.2)
  if_some a.ylim fun lim => draw ax (.set_ylim lim.1 lim.2)
  if_show a.show_
  pure (fig, ax)

/-! ### The sensitivity curve -/

/-- Arguments of `plot_sensitivity_curve`, visualisation.py lines 306-308, that can be given in `sc_vis_settings`;
`none` for those left out. -/
structure ScVis where
  frequency_range : Option (List ℝ) := none
  y_quantity : Option String := none
  color : Val := .str "#18068b"
  fill : Bool := true
  label : Val := .none

/-- `np.logspace(-5, 0, 1000) * u.Hz`, visualisation.py line 360. -/
noncomputable def default_range : List ℝ := logspace (-5) 0 1000

/-- The noise amplitude, visualisation.py lines 365-372. -/
noncomputable def noise_amplitude (W : World) (y_quantity : String) (fs : List ℝ) (kwargs : Dict) :
    Except PyErr (List Num) := do
  let PSD ← fs.mapM fun f => psd_of_dict W kwargs f
  if y_quantity = "ASD" then pure (PSD.map fun S => nsqrt (psdNum S))
  else if y_quantity = "h_c" then pure (fs.zipWith (fun f S => nsqrt (nmul (num f) (psdNum S))) PSD)
  else throw .ValueError

/-- The limits of the x axis, visualisation.py line 394. `np.min` of nothing is a `ValueError`, which comes after the curve was
drawn. -/
noncomputable def flush (ax : ℕ) : List ℝ → C Unit
  | [] => PyM.lift (throw .ValueError)
  | f :: fs => draw ax (.set_xlim (num (fs.foldl min f)) (num (fs.foldl max f)))

/-- `visualisation.plot_sensitivity_curve`, visualisation.py lines 305-399. -/
noncomputable def plot_sensitivity_curve (W : World) (a : ScVis) (fig ax : Option ℕ) (show_ : Bool) (kwargs : Dict) :
    C (ℕ × ℕ) := legwork_plot_style do
  let fs := a.frequency_range.getD default_range
  let y_quantity := a.y_quantity.getD "ASD"
  let (fig, ax) ← axes fig ax
  let y ← PyM.lift (noise_amplitude W y_quantity fs kwargs)
  draw ax (.loglog (fs.map num) y a.color a.label)
  if_true a.fill (draw ax (.fill_between (fs.map num) (y.map fun _ => num 0) y a.color))
  draw ax (.set_xlabel "Frequency [$\\rm Hz$]")
  draw ax (.set_ylabel (if y_quantity = "ASD" then "ASD $[\\rm Hz^{-1/2}]$" else "Characteristic Strain"))
  flush ax fs
  if_show show_
  pure (fig, ax)

/-! ### Sources on the sensitivity curve -/

open Classical in
/-- `snr > snr_cutoff`: false for NaN. -/
noncomputable def above (snr_cutoff : ℝ) (snr : List (Option ℝ)) : List Bool :=
  snr.map fun x => match x with
    | some x => decide (snr_cutoff < x)
    | none => false

/-- The heights, visualisation.py lines 489-499 and 504. -/
noncomputable def heights (W : World) (d : Dict) (use_h_c : Bool) (f_dom : List ℝ) (snr : List (Option ℝ)) :
    Except PyErr (List Num) := do
  let PSD ← f_dom.mapM fun f => psd_of_dict W d f
  let asd := snr.zipWith (fun x S => nmul (x.bind num) (nsqrt (psdNum S))) PSD
  let h_c := asd.zipWith (fun y f => nmul y (nsqrt (num f))) f_dom
  pure (if use_h_c then h_c else asd)

/-- `weights[mask]` unless `None`. -/
def index_weights (mask : List Bool) : Option (List ℝ) → Except PyErr (Option (List ℝ))
  | some w => some <$> index mask w
  | none => pure none

/-- The arguments of `plot_sources_on_sc` that are passed on to `plot_2D_dist`. -/
structure Style2 where
  disttype : String := "scatter"
  xlabel : Option String := none
  ylabel : Option String := none
  xlim : Option (Num × Num) := none
  ylim : Option (Num × Num) := none
  log_scale : Bool ⊕ Bool × Bool := .inl false
  color : Val := .none
  scatter_s : ℝ := 20
  kwargs : Kwargs := []

/-- The arguments of `plot_2D_dist`, visualisation.py lines 504-505. -/
def Style2.args (k : Style2) (x y : List Num) (weights : Option (List ℝ)) (fig ax : ℕ) : Args2 :=
  ⟨x, y, weights, k.disttype, some fig, some ax, false, k.xlabel, k.ylabel, k.xlim, k.ylim, k.log_scale, k.color,
   k.scatter_s, k.kwargs⟩

/-- `fig, ax = plot_sensitivity_curve(...)` if either is `None`, visualisation.py lines 477-481. -/
noncomputable def axes_with_curve (W : World) (d : Dict) (vis : ScVis) (fig ax : Option ℕ) : C (ℕ × ℕ) :=
  match fig, ax with
  | some fig, some ax => pure (fig, ax)
  | _, _ => plot_sensitivity_curve W vis none none false d

/-- The part of `plot_sources_on_sc` for sources above the cutoff, visualisation.py lines 489-506. `get_ylim` is what
matplotlib answers for axes after given calls. -/
noncomputable def overlay (W : World) (get_ylim : ℕ → List Mark → Num × Num) (d : Dict) (vis : ScVis) (k : Style2)
    (fig ax : ℕ) (f_dom : List ℝ) (snr : List (Option ℝ)) (weights : Option (List ℝ)) (detectable : List Bool) :
    C (ℕ × ℕ) := do
  let f ← PyM.lift (index detectable f_dom)
  let ρ ← PyM.lift (index detectable snr)
  let y ← PyM.lift (heights W d (decide (vis.y_quantity = some "h_c")) f ρ)
  let v ← PyM.get
  let ylims := get_ylim ax v.marks
  let w ← PyM.lift (index_weights detectable weights)
  let (fig, ax) ← plot_2D_dist (k.args (f.map num) y w fig ax)
  draw ax (.set_ylim ylims.1 ylims.2)
  pure (fig, ax)

/-- `visualisation.plot_sources_on_sc`, visualisation.py lines 402-511. The six arguments of the PSD are given as a
dictionary `d`; those left out have the same defaults here as in `power_spectral_density`. -/
noncomputable def plot_sources_on_sc (W : World) (get_ylim : ℕ → List Mark → Num × Num) (f_dom : List ℝ)
    (snr : List (Option ℝ)) (weights : Option (List ℝ)) (snr_cutoff : ℝ) (d : Dict) (fig ax : Option ℕ) (show_ : Bool)
    (vis : ScVis) (k : Style2) : C (ℕ × ℕ) := legwork_plot_style do
  let (fig, ax) ← axes_with_curve W d vis fig ax
  let detectable := above snr_cutoff snr
  if detectable.any id then do
    let (fig, ax) ← overlay W get_ylim d vis k fig ax f_dom snr weights detectable
    if_show show_
    pure (fig, ax)
  else do
    message "error" "There are no binaries above provided `snr_cutoff`"
    pure (fig, ax)

/-! ### Methods of `Source` -/

/-- Code that works on sources and draws. -/
abbrev MC (α : Type) : Type := PyM (Heap × Canvas) α

/-- Code that only works on sources. -/
def onHeap {α : Type} (m : M α) : MC α := fun s =>
  let r := m s.1
  (r.1, (r.2, s.2))

/-- Code that only draws. -/
def onCanvas {α : Type} (m : C α) : MC α := fun s =>
  let r := m s.2
  (r.1, (s.1, r.2))

/-- Subscripting `None` is a `TypeError`. -/
def subscriptable {α : Type} : Option α → Except PyErr α
  | some x => pure x
  | none => throw .TypeError

/-- The stationary sources, source.py lines 1494-1501. Keywords in `sc_params` that are not arguments of the PSD are passed
on to matplotlib, which rejects them; here all such cases are a `TypeError`. -/
noncomputable def overlay_stationary (W : World) (get_ylim : ℕ → List Mark → Num × Num) (s : ℕ) (snr_cutoff : ℝ)
    (fig ax : Option ℕ) (show_ : Bool) (label : Val) (vis : ScVis) (k : Style2) (snr : List (Option ℝ)) (stat : List Bool) :
    MC (ℕ × ℕ) := do
  let src ← onHeap (getSrc s)
  let f_orb ← PyM.lift (index stat src.cols.f_orb)
  let harm ← PyM.lift (subscriptable src.max_snr_harmonic)
  let h ← PyM.get
  let n ← PyM.lift (index stat (h.1.harms harm))
  let w ← PyM.lift (index_weights stat src.cols.weights)
  let ρ ← PyM.lift (index stat snr)
  let p ← onHeap (getSrcPar s)
  let params ← onHeap (getPar p)
  onCanvas (plot_sources_on_sc W get_ylim (List.zipWith (fun (f : ℝ) (n : ℕ) => f * (n : ℝ)) f_orb n) ρ w snr_cutoff params.dict fig ax show_
    vis { k with kwargs := ("label", label) :: k.kwargs })

/-- `if stat.any():`, source.py line 1494: without stationary sources the figure and axes stay what they were. -/
noncomputable def overlay_if (W : World) (get_ylim : ℕ → List Mark → Num × Num) (s : ℕ) (snr_cutoff : ℝ)
    (fig ax : Option ℕ) (show_ : Bool) (label : Val) (vis : ScVis) (k : Style2) (snr : List (Option ℝ)) (stat : List Bool) :
    MC (Option ℕ × Option ℕ) :=
  if stat.any id then do
    let out ← overlay_stationary W get_ylim s snr_cutoff fig ax show_ label vis k snr stat
    pure (some out.1, some out.2)
  else pure (fig, ax)

/-- How many entries of a mask are true: `len(mask[mask])`. -/
def count (mask : List Bool) : ℕ := (mask.filter id).length

/-- A warning about sources that are not plotted, source.py lines 1503-1513. -/
def warn_evolving (kind : String) (mask : List Bool) : C Unit :=
  if mask.any id then message "warning" (toString (count mask) ++ " " ++ kind ++
    " and evolving sources detected, plotting not yet implemented for evolving sources.")
  else pure ()

/-- `np.logical_and.reduce((a, b, c))`. -/
def and3 (a b c : List Bool) : Except PyErr (List Bool) := do
  let x ← logical_and a b
  logical_and x c

/-- `Source.plot_sources_on_sc`, source.py lines 1436-1515. The third mask repeats the second, as in the code. -/
noncomputable def Source_plot_sources_on_sc (W : World) (get_ylim : ℕ → List Mark → Num × Num) (s : ℕ) (snr_cutoff : ℝ)
    (fig ax : Option ℕ) (show_ : Bool) (label : Val) (vis : ScVis) (k : Style2) : MC (Option ℕ × Option ℕ) := do
  let src ← onHeap (getSrc s)
  match src.snr with
  | none => do
    onCanvas (message "error" "No SNR has been calculated yet")
    pure (none, none)
  | some r => do
    let h ← PyM.get
    let snr := h.1.snrs r
    let detectable := above snr_cutoff snr
    let inspiraling := logical_not src.cols.merged
    let stat ← onHeap (get_source_mask W s .none (.bool true) .none)
    let stat ← PyM.lift (and3 stat detectable inspiraling)
    let out ← overlay_if W get_ylim s snr_cutoff fig ax show_ label vis k snr stat
    let circ ← onHeap (get_source_mask W s (.bool true) (.bool false) .none)
    let circ_evol ← PyM.lift (and3 circ detectable inspiraling)
    onCanvas (warn_evolving "circular" circ_evol)
    let ecc ← onHeap (get_source_mask W s (.bool true) (.bool false) .none)
    let ecc_evol ← PyM.lift (and3 ecc detectable inspiraling)
    onCanvas (warn_evolving "eccentric" ecc_evol)
    pure out

/-- The values a variable has, source.py lines 1360-1363: the outer `none` for an unknown name, the inner one for an SNR that
has not been calculated. The separations are computed whichever variable is asked for. -/
noncomputable def convert (c : Cols) (a : List ℝ) (snr : Option (List (Option ℝ))) (name : String) :
    Option (Option (List Num)) :=
  if name = "m_1" then some (some (c.m_1.map num))
  else if name = "m_2" then some (some (c.m_2.map num))
  else if name = "m_c" then some (some (c.m_c.map num))
  else if name = "ecc" then some (some (c.ecc.map num))
  else if name = "dist" then some (some (c.dist.map num))
  else if name = "f_orb" then some (some (c.f_orb.map num))
  else if name = "f_GW" then some (some (c.f_orb.map fun f => num (f * 2)))
  else if name = "a" then some (some (a.map num))
  else if name = "snr" then some (snr.map fun x => x.map fun v => v.bind num)
  else none

/-- `labels`, source.py lines 1364-1366. -/
def labels (name : String) : String :=
  if name = "m_1" then "Primary Mass"
  else if name = "m_2" then "Secondary Mass"
  else if name = "m_c" then "Chirp Mass"
  else if name = "ecc" then "Eccentricity"
  else if name = "dist" then "Distance"
  else if name = "f_orb" then "Orbital Frequency"
  else if name = "f_GW" then "Gravitational Wave Frequency"
  else if name = "a" then "Semi-major axis"
  else "Signal-to-noise Ratio"

/-- `latex_labels`, source.py lines 1367-1369. -/
def latex_labels (name : String) : String :=
  if name = "m_1" then "$m_1$"
  else if name = "m_2" then "$m_2$"
  else if name = "m_c" then "$\\mathcal{M}_c$"
  else if name = "ecc" then "$e$"
  else if name = "dist" then "$D$"
  else if name = "f_orb" then "$f_{\\rm orb}$"
  else if name = "f_GW" then "$f_{\\rm GW}$"
  else if name = "a" then "$a$"
  else "$\\rho$"

/-- `name in unitless`, source.py line 1370. -/
def unitless (name : String) : Bool := name = "ecc" || name = "snr"

/-- The units of the variables: their sizes and how they are written. -/
structure Units where
  size : String → ℝ
  latex : String → String

/-- The usual label of an axis, e.g. source.py lines 1408-1412. -/
def axis_label (U : Units) (name : String) : String :=
  if unitless name then labels name ++ ", " ++ latex_labels name
  else labels name ++ ", " ++ latex_labels name ++ " [" ++ U.latex name ++ "]"

/-- The label of the x axis of a histogram of logarithms, source.py lines 1403-1408. -/
def log_label (U : Units) (name : String) : String :=
  if unitless name then labels name ++ ", $\\log_{10} ($" ++ latex_labels name ++ ")"
  else labels name ++ ", $\\log_{10} ($" ++ latex_labels name ++ " / " ++ U.latex name ++ ")"

/-- The label of the y axis of a distribution of one variable, source.py lines 1418-1422. -/
def density_label (name : String) (log_scale : Bool) : String :=
  if log_scale then "$\\mathrm{d}N/\\mathrm{d}(\\log_{10}($" ++ latex_labels name ++ "))"
  else "$\\mathrm{d}N/\\mathrm{d}$" ++ latex_labels name

/-- What is plotted: one variable, or a second one against it, with the further arguments for `plot_1D_dist` or
`plot_2D_dist`, in which the data and weights are ignored. For one variable `log_scale` must be a `bool`. -/
inductive Plot
  | one (k : Args1)
  | two (ystr : String) (k : Args2)

/-- The mask, source.py lines 1372-1376. -/
def plot_mask (c : Cols) (which_sources : Option (List Bool)) (exclude_merged_sources : Bool) : Except PyErr (List Bool) :=
  if exclude_merged_sources then logical_and (which c.n_sources which_sources) (logical_not c.merged)
  else pure (which c.n_sources which_sources)

/-- The checks of a variable, source.py lines 1378-1392: unknown names and missing SNRs are a `ValueError`. -/
def checked : Option (Option (List Num)) → Except PyErr (List Num)
  | some (some x) => pure x
  | _ => throw .ValueError

/-- The arguments of `plot_1D_dist`, source.py lines 1394-1434. -/
def args_1D (U : Units) (xstr : String) (k : Args1) (x : List Num) (weights : Option (List ℝ)) : Args1 :=
  { k with
    x := x
    unit := if unitless xstr then 1 else U.size xstr
    weights := weights
    xlabel := some (k.xlabel.getD (if k.log_scale && k.disttype = "hist" then log_label U xstr else axis_label U xstr))
    ylabel := some (k.ylabel.getD (density_label xstr k.log_scale)) }

/-- The arguments of `plot_2D_dist`, source.py lines 1394-1432. -/
def args_2D (U : Units) (xstr ystr : String) (k : Args2) (x y : List Num) (weights : Option (List ℝ)) : Args2 :=
  { k with
    x := x
    y := y
    weights := weights
    xlabel := some (k.xlabel.getD (axis_label U xstr))
    ylabel := some (k.ylabel.getD (axis_label U ystr)) }

/-- `Source.plot_source_variables`, source.py lines 1320-1434, for an object with attributes `c` and SNRs `snr`. -/
noncomputable def plot_variables (K : Consts) (U : Units) (c : Cols) (snr : Option (List (Option ℝ))) (xstr : String)
    (plot : Plot) (which_sources : Option (List Bool)) (exclude_merged_sources : Bool) : C (ℕ × ℕ) := do
  let a ← PyM.lift (Source_a K c)
  let mask ← PyM.lift (plot_mask c which_sources exclude_merged_sources)
  let x ← PyM.lift (checked (convert c a snr xstr))
  match plot with
  | .one k => do
    let w ← PyM.lift (index_weights mask c.weights)
    let x ← PyM.lift (index mask x)
    plot_1D_dist (args_1D U xstr k x w)
  | .two ystr k => do
    let y ← PyM.lift (checked (convert c a snr ystr))
    let w ← PyM.lift (index_weights mask c.weights)
    let x ← PyM.lift (index mask x)
    let y ← PyM.lift (index mask y)
    plot_2D_dist (args_2D U xstr ystr k x y w)

/-- `Source.plot_source_variables` on the heap. -/
noncomputable def plot_source_variables (K : Consts) (U : Units) (s : ℕ) (xstr : String) (plot : Plot)
    (which_sources : Option (List Bool)) (exclude_merged_sources : Bool) : MC (ℕ × ℕ) := do
  let src ← onHeap (getSrc s)
  let h ← PyM.get
  onCanvas (plot_variables K U src.cols (src.snr.map h.1.snrs) xstr plot which_sources exclude_merged_sources)

end Legwork.visualisation
