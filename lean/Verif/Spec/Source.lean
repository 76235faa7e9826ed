import Verif.Model.SourceFile

/-!
# Vocabulary for the properties of `Source`
-/

namespace Legwork.Spec

open Legwork.source

/-- The documented sensitivity curve parameters. -/
def scKeys : List String := ["instrument", "custom_psd", "t_obs", "L", "approximate_R", "confusion_noise"]

/-- A dictionary with exactly the documented keys. -/
def SixKeys (d : Dict) : Prop := ∀ key, (d.get? key).isSome ↔ key ∈ scKeys

/-- The calls a program can make on sources and their parameters. Parameters can be changed through any handle, also
one whose source has since been given other parameters. Loading a file is a call with the files there are at that time.
`setCols` is any assignment to attributes with one entry per source (such as `sources.ecc = ...`), `setPlain` any to
`stat_tol`, `n_proc` and `interpolate_sc`, which python lets a program make without running any code of LEGWORK. -/
inductive Op
  | setitem (p : ℕ) (key : String) (value : PVal)
  | update (p : ℕ) (kvs : Dict)
  | remove (p : ℕ)
  | copyParams (p : ℕ)
  | assign (s : ℕ) (params : Option Dict)
  | setSc (s : ℕ)
  | setTol (s : ℕ) (tol : ℝ)
  | setG (s : ℕ) (interpolate_g : Bool)
  | setA (s : ℕ) (a : List ℝ)
  | setCols (s : ℕ) (c : Cols)
  | setPlain (s : ℕ) (stat_tol : ℝ) (n_proc : ℕ) (interpolate_sc : Bool)
  | getSnr (s : ℕ) (args : SnrArgs) (n_step : ℕ) (which : Option (List Bool))
  | getSnrStationary (s : ℕ) (args : SnrArgs) (which : Option (List Bool))
  | getSnrEvolving (s : ℕ) (args : SnrArgs) (n_step : ℕ) (which : Option (List Bool))
  | getMask (s : ℕ) (circular stationary : Tri) (t_obs : PVal)
  | mergerTime (s : ℕ) (save : Bool) (which : Option (List Bool)) (exact : Bool)
  | evolve (s : ℕ) (t_evol : EvolTime)
  | evolveNew (s : ℕ) (t_evol : EvolTime)
  | getitem (s : ℕ) (ind : Index)
  | copy (s : ℕ)
  | init (cls : Cls) (args : InitArgs)
  | verification (vbs : Table) (rand : ℕ → ℝ)
  | load (Φ : Files) (st : Store) (cls : Cls) (name : String) (interpolate_g interpolate_sc : Option Bool) (n_proc : Option ℕ)

/-- The effect of a call. -/
noncomputable def Op.run (W : World) : Op → M Unit
  | .setitem p key value => params_setitem W p key value
  | .update p kvs => params_update W p kvs
  | .remove _ => params_remove
  | .copyParams p => do let _ ← params_copy p; pure ()
  | .assign s params => set_sc_params W s params
  | .setSc s => set_sc W s
  | .setTol s tol => set_gw_lum_tol W s tol
  | .setG s b => set_g W s b
  | .setA s a => set_a W s a
  | .setCols s c => modSrc s fun x => { x with cols := c }
  | .setPlain s tol np b => modSrc s fun x => { x with stat_tol := tol, n_proc := np, interpolate_sc := b }
  | .getSnr s a n w => do let _ ← get_snr W s a n w; pure ()
  | .getSnrStationary s a w => do let _ ← get_snr_stationary W s a w; pure ()
  | .getSnrEvolving s a n w => do let _ ← get_snr_evolving W s a n w; pure ()
  | .getMask s c st t => do let _ ← get_source_mask W s c st t; pure ()
  | .mergerTime s save w ex => do let _ ← get_merger_time W s save w ex; pure ()
  | .evolve s t => evolve_sources W s t
  | .evolveNew s t => do let _ ← evolve_sources_new W s t; pure ()
  | .getitem s ind => do let _ ← source.getitem s ind; pure ()
  | .copy s => do let _ ← source.copy s; pure ()
  | .init cls args => do let _ ← source.init W cls args; pure ()
  | .verification vbs rand => do let _ ← verification_binaries W vbs rand; pure ()
  | .load Φ st cls name ig isc np => do let _ ← from_file W Φ st cls name ig isc np; pure ()

/-- What is at an address where no source has been made yet: nothing. -/
def blank : Src where
  cls := .Source
  cols := ⟨[], [], [], [], [], none, none, none, none, [], none⟩
  stat_tol := 0
  n_proc := 1
  interpolate_sc := false

/-- Heaps a program can see: it starts without objects, makes calls satisfying `ok`, and may carry on after
exceptions. -/
inductive Reachable (W : World) (ok : Heap → Op → Prop) : Heap → Prop
  | start {h : Heap} (he : ∀ s, h.src s = blank) : Reachable W ok h
  | call {h : Heap} (op : Op) (hr : Reachable W ok h) (hok : ok h op) : Reachable W ok (op.run W h).2

/-- Any call is allowed. -/
def AnyCall : Heap → Op → Prop := fun _ _ => True

/-- `evolve_sources(create_new_class=True)` is only called on sources with interpolation switched on, and the attribute
`interpolate_sc` is not changed. -/
def Interpolating (h : Heap) : Op → Prop
  | .setPlain s _ _ b => b = (h.src s).interpolate_sc
  | .evolveNew s _ => (h.src s).interpolate_sc = true
  | _ => True

end Legwork.Spec
