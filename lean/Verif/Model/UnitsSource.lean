import Verif.Model.UnitsSnr
import Verif.Model.ScParams

/-!
# Source collections as they are written, on quantities with units

`source.py` for one source of a collection (numpy applies the operations elementwise; that a source does not depend on
the others is shown for the model on SI values). Only what units matter for is followed here: attributes, the
interpolated curve and the calculations; the rest of `source.py` is in `Verif.Model.Source`.
-/

namespace Legwork.units

open Real Val

/-- The attributes of one source, source.py lines 199-217. Angles are in radians, see `snr_circ_stationary`. -/
structure Source where
  m_1 : Val
  m_2 : Val
  ecc : ℝ
  dist : Val
  f_orb : Val
  orient : strain.Orientation := {}
  merged : Bool := false
  t_merge : Option Val := none

/-- `isinstance(v, u.quantity.Quantity)`. -/
def Val.isQuantity : Val → Bool
  | .num _ => false
  | .qty _ => true

/-- The units part of `Source.__init__`, source.py lines 139-141, 176-185 and 199-217, for one source without position.
Only the masses, the distance and the frequency must be quantities; nothing is said about their dimensions. -/
noncomputable def Source.init (K : Consts) (m_1 m_2 : Val) (ecc : ℝ) (dist : Val) (f_orb a : Option Val) :
    Except PyErr Source := do
  let f_orb ← match f_orb, a with
    | some f, _ => pure f
    | none, some a => get_f_orb_from_a K a m_1 m_2
    | none, none => throw .ValueError
  if [m_1, m_2, dist, f_orb].all Val.isQuantity then pure { m_1, m_2, ecc, dist, f_orb } else throw .AssertionError

/-- `Source.m_c`, source.py lines 494-497. -/
noncomputable def Source.m_c (x : Source) : Except PyErr Val := chirp_mass x.m_1 x.m_2

/-- `Source.a`, source.py lines 499-504. -/
noncomputable def Source.a (K : Consts) (x : Source) : Except PyErr Val := get_a_from_f_orb K x.f_orb x.m_1 x.m_2

/-- The setter of `Source.a`, source.py lines 506-511. -/
noncomputable def Source.set_a (K : Consts) (x : Source) (a : Val) : Except PyErr Source := do
  if a.isQuantity then pure { x with f_orb := ← get_f_orb_from_a K a x.m_1 x.m_2 } else throw .AssertionError

/-- The observation time `"auto"`, source.py lines 720-721, 983-984 and 1114-1115. -/
noncomputable def auto_time (instrument : String) : Val := if instrument = "LISA" then qty ⟨4, yr⟩ else qty ⟨5, yr⟩

/-- Whether `get_source_mask(stationary=True)` selects the source, source.py lines 718-725. -/
noncomputable def Source.is_stationary (K : Consts) (x : Source) (t_obs : Val) (stat_tol : ℝ) : Except PyErr Bool := do
  determine_stationarity K x.f_orb t_obs x.ecc none none (some (← x.m_c)) stat_tol

/-- Strains for all harmonics, source.py lines 755-780 and 803-829 with strain.py lines 107-108, 141-146, 199-200 and
233-238: zeros for merged sources, an error for harmonics below 1. The property `m_c` is read before the sources are
selected, so that it is also computed for a merged source. -/
noncomputable def Source.strains (h : Val → Val → Val → ℝ → ℤ → Except PyErr ℝ) (x : Source) (harmonics : List ℤ) :
    Except PyErr (List ℝ) := do
  let m_c ← x.m_c
  if harmonics.any fun n => n < 1 then throw .ValueError
  if x.merged then pure (List.replicate harmonics.length 0)
  else do
    let amp_mod ← strain.modulation x.orient
    harmonics.mapM fun n => do pure (amp_mod * (← h m_c x.dist x.f_orb x.ecc n))

/-- `Source.get_h_0_n` for one source. -/
noncomputable def Source.get_h_0_n (K : Consts) (g : Option (ℤ → ℝ → ℝ)) (x : Source) (harmonics : List ℤ) :
    Except PyErr (List ℝ) := x.strains (h_0 K g) harmonics

/-- `Source.get_h_c_n` for one source. -/
noncomputable def Source.get_h_c_n (K : Consts) (g : Option (ℤ → ℝ → ℝ)) (x : Source) (harmonics : List ℤ) :
    Except PyErr (List ℝ) := x.strains (h_c K g) harmonics

/-- `Source.get_merger_time` for one source, source.py lines 1210-1221: the array is in Gyr. -/
noncomputable def Source.get_merger_time (K : Consts) (x : Source) (exact : Bool) : Except PyErr Val :=
  if x.merged then pure (qty ⟨0, Gyr⟩)
  else do
    let t ← get_t_merge_ecc K x.ecc none (some x.f_orb) none (some x.m_1) (some x.m_2) 0.15 (1 - 1e-4) exact
    t.to Gyr

/-- `Source.get_merger_time(save_in_class=True)` for one source. -/
noncomputable def Source.save_merger_time (K : Consts) (x : Source) (exact : Bool) : Except PyErr Source := do
  pure { x with t_merge := some (← x.get_merger_time K exact) }

open Classical in
/-- `v >= w` of quantities. A plain number can be compared with a quantity without dimension; a plain 0 with
anything. -/
noncomputable def Val.ge (v w : Val) : Except PyErr Bool :=
  match v, w with
  | .num x, .num y => .ok (decide (x ≥ y))
  | .qty p, .qty q => (q.to p.unit).map fun q => decide (p.value ≥ q.value)
  | .num x, .qty q =>
    if q.unit.dim = 0 then .ok (decide (x ≥ q.value * q.unit.scale))
    else if x = 0 then .ok (decide (0 ≥ q.value)) else .error .UnitConversionError
  | .qty p, .num y =>
    if p.unit.dim = 0 then .ok (decide (p.value * p.unit.scale ≥ y))
    else if y = 0 then .ok (decide (p.value ≥ 0)) else .error .UnitConversionError

/-- `np.maximum(q, v)` for a quantity `q`, in its unit. -/
noncomputable def Quantity.maximum (q : Quantity) (v : Val) : Except PyErr Val := do
  pure (qty ⟨max q.value (← v.valueIn q.unit), q.unit⟩)

open Classical in
/-- The evolved eccentricity and frequency of a source that does not merge, source.py lines 1253-1284: the last of two
timesteps, written into an array in Hz. -/
noncomputable def Source.evolved_orbit (K : Consts) (odeint : evol.Odeint) (x : Source) (t_evol : Val) :
    Except PyErr (ℝ × Val) := do
  let _ ← t_evol.value
  if x.ecc = 0 then do
    let f ← one_row (← evol_circ K (some t_evol) 2 none none (some x.m_1) (some x.m_2) none (some x.f_orb) ["f_orb"])
    pure (0, ← (qty ⟨f.values.getLastD 0, f.unit⟩).to Hz)
  else do
    let (e, f) ← two_rows (← evol_ecc K odeint x.ecc (some t_evol) 2 none none (some x.m_1) (some x.m_2) none
      (some x.f_orb) ["ecc", "f_orb"] false true (qty ⟨0.1, yr⟩) none)
    pure (e.values.getLastD 0, ← (qty ⟨f.values.getLastD 0, f.unit⟩).to Hz)

/-- `Source.evolve_sources` for one source, source.py lines 1246-1318 (in place; the new collection made with
`create_new_class=True` has the same values). -/
noncomputable def Source.evolve (K : Consts) (odeint : evol.Odeint) (x : Source) (t_evol : Val) :
    Except PyErr Source := do
  let t_merge ← match x.t_merge with
    | some t => pure t
    | none => x.get_merger_time K true
  let merged ← t_evol.ge t_merge
  let (ecc, f_orb) ← if merged then do
      let _ ← t_evol.value
      pure (0, qty ⟨100, Hz⟩)
    else x.evolved_orbit K odeint t_evol
  let left ← Quantity.maximum ⟨0, Gyr⟩ (← t_merge.sub t_evol)
  pure { x with ecc, f_orb, merged, t_merge := some left }

/-! ## Sensitivity curve and SNR -/

/-- `Source.set_sc`, source.py lines 641-658, for a given observation time. `interp1d` makes plain arrays of its
arguments, so the numbers of the densities are interpolated whatever their unit; `u.Hz` is put back at the end. -/
noncomputable def set_sc (K : Consts) (env : psd.Env) (t_obs : Val) (kw : PsdKw) (interpolate_sc : Bool) :
    Except PyErr (Option (Val → Except PyErr Density)) :=
  if interpolate_sc then do
    let sc ← source.frequency_range.mapM fun f => power_spectral_density K env (qty ⟨f, Hz⟩) t_obs kw
    let interp_sc := source.interp_sc (source.frequency_range.zip (sc.map Density.number))
    pure (some fun f => do pure ⟨interp_sc (← f.valueIn Hz), one / Hz⟩)
  else pure none

/-- Tolerances of a collection. -/
structure Settings where
  ecc_tol : ℝ
  harmonics_required : ℝ → ℤ
  stat_tol : ℝ

/-- SNR and strongest harmonic of the only source. -/
def only : snr.SnrOut → Except PyErr (Option ℝ × ℕ)
  | .withMax [v] [harm] => pure (v, harm)
  | _ => throw .ValueError

/-- The loop over the groups of harmonics, source.py lines 1024-1047 and 1146-1176: the first group the number of
harmonics belongs to (the groups do not overlap); 0 and harmonic 2 if there is none. -/
noncomputable def by_group (need : ℤ) (run : ℕ → Except PyErr snr.SnrOut) : List (ℕ × ℕ) → Except PyErr (Option ℝ × ℕ)
  | [] => pure (some 0, 2)
  | (lower, upper) :: groups =>
    if (lower : ℤ) < need ∧ need ≤ upper then do only (← run upper)
    else by_group need run groups

/-- The groups, source.py lines 1025 and 1147. -/
def harmonic_groups : List (ℕ × ℕ) := [(1, 10), (10, 100), (100, 1000), (1000, 10000)]

open Classical in
/-- The SNR and the strongest harmonic from `Source.get_snr_stationary`, source.py lines 993-1051, of a source that has
not merged. -/
noncomputable def Source.snr_stationary (C : Ctx) (S : Settings) (x : Source) : Except PyErr (Option ℝ × ℕ) := do
  let m_c ← x.m_c
  let ecc := fun H => snr_ecc_stationary C m_c x.f_orb x.ecc x.dist H true false
  if x.ecc ≤ S.ecc_tol then pure (← snr_circ_stationary C m_c x.f_orb x.dist x.orient, 2)
  else by_group (S.harmonics_required x.ecc) ecc harmonic_groups

open Classical in
/-- The same from `Source.get_snr_evolving`, source.py lines 1124-1176: a stored merger time is only used for circular
sources. -/
noncomputable def Source.snr_evolving (C : Ctx) (odeint : evol.Odeint) (S : Settings) (n_step : ℕ) (x : Source) :
    Except PyErr (Option ℝ × ℕ) :=
  if x.ecc ≤ S.ecc_tol then do
    pure (← snr_circ_evolving C x.m_1 x.m_2 x.f_orb x.dist n_step x.t_merge, 2)
  else by_group (S.harmonics_required x.ecc)
    (fun H => snr_ecc_evolving C odeint x.m_1 x.m_2 x.f_orb x.dist x.ecc H n_step none true false) harmonic_groups

/-- `Source.get_snr` for one source that has not merged, source.py lines 905-935. `C` has the resolved arguments and the
curve of the collection. -/
noncomputable def Source.get_snr (C : Ctx) (odeint : evol.Odeint) (S : Settings) (n_step : ℕ) (x : Source) :
    Except PyErr (Option ℝ × ℕ) := do
  if ← x.is_stationary C.K C.t_obs S.stat_tol then x.snr_stationary C S else x.snr_evolving C odeint S n_step

end Legwork.units
