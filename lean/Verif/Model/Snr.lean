import Verif.Model.Strain
import Verif.Model.Psd
import Verif.Model.Evol

/-!
# Model of `src/legwork/snr.py`

Arrays over sources are lists of records. A signal-to-noise ratio is `Option ℝ`, `none` being NaN (square root of
a negative number). Noise may be infinite.
-/

namespace Legwork.snr

open Real Legwork.utils

/-- The remaining keyword arguments, passed on to `psd.power_spectral_density`. -/
structure PsdKw where
  instrument : String := "LISA"
  custom_psd : Option psd.CustomPsd := none
  L : psd.LenArg := .auto
  approximate_R : Bool := false
  confusion_noise : psd.NoiseArg := .name "auto"

/-- What every SNR function needs besides the sources. -/
structure Ctx where
  K : Consts
  env : psd.Env
  kw : PsdKw := {}
  interpolated_g : Option (ℤ → ℝ → ℝ) := none
  interpolated_sc : Option (ℝ → WithTop ℝ) := none
  t_obs : ℝ

/-- The noise at `f`, e.g. snr.py lines 64-67: the interpolated curve if given, else the exact one. -/
noncomputable def noise (C : Ctx) (f : ℝ) : Except PyErr (WithTop ℝ) :=
  match C.interpolated_sc with
  | some sc => pure (sc f)
  | none => psd.power_spectral_density C.K C.env f C.kw.instrument C.kw.custom_psd (.val C.t_obs) C.kw.L
      C.kw.approximate_R C.kw.confusion_noise

/-- Division by a possibly infinite noise. -/
noncomputable def divNoise (x : ℝ) : WithTop ℝ → ℝ
  | ⊤ => 0
  | (y : ℝ) => x / y

/-- `x**0.5` / `np.sqrt(x)`, NaN for negative `x`. -/
noncomputable def sqrt? (x : ℝ) : Option ℝ := if x < 0 then none else some (x ^ (0.5 : ℝ))

/-- A circular stationary source. -/
structure CircSrc where
  m_c : ℝ
  f_orb : ℝ
  dist : ℝ
  orient : strain.Orientation := {}

/-- `snr.snr_circ_stationary`, snr.py lines 12-70. -/
noncomputable def snr_circ_stationary (C : Ctx) (srcs : List CircSrc) : Except PyErr (List (Option ℝ)) := do
  let h ← strain.h_0_n C.K C.interpolated_g [2] (srcs.map fun s => ⟨s.m_c, s.dist, [(s.f_orb, 0)], s.orient⟩)
  let h_0_circ_2 := h.flatten.flatten.map fun x => x ^ 2
  let h_f_src_circ_2 := h_0_circ_2.map fun x => x * C.t_obs
  let h_f_lisa_2 ← srcs.mapM fun s => noise C (2 * s.f_orb)
  pure ((h_f_src_circ_2.zipWith divNoise h_f_lisa_2).map sqrt?)

/-- An eccentric stationary source. -/
structure EccSrc where
  m_c : ℝ
  f_orb : ℝ
  ecc : ℝ
  dist : ℝ

/-- What the eccentric SNR functions return, depending on the flags. -/
inductive SnrOut
  | total (snr : List (Option ℝ))
  | withMax (snr : List (Option ℝ)) (max_snr_harmonic : List ℕ)
  | byHarmonic (snr2 : List (List ℝ))

/-- `np.argmax`: index of the first largest entry. -/
noncomputable def argmax : List ℝ → ℕ
  | [] => 0
  | x :: xs =>
    match xs[argmax xs]? with
    | some v => if x < v then argmax xs + 1 else 0
    | none => 0

/-- `np.arange(1, harmonics_required + 1)`. -/
def harmonics (harmonics_required : ℕ) : List ℤ := (List.range harmonics_required).map fun k : ℕ => (k : ℤ) + 1

/-- The common end of the eccentric SNR functions, snr.py lines 147-157 and 346-356: sum over harmonics and square
root. The arg max of an empty axis is a `ValueError`. -/
noncomputable def finish (ret_max_snr_harmonic ret_snr2_by_harmonic : Bool) (harmonics_required : ℕ)
    (snr_n_2 : List (List ℝ)) : Except PyErr SnrOut :=
  if ret_snr2_by_harmonic then pure (.byHarmonic snr_n_2)
  else
    let snr := snr_n_2.map fun row => sqrt? row.sum
    if ret_max_snr_harmonic then
      if harmonics_required = 0 ∧ snr_n_2 ≠ [] then throw .ValueError
      else pure (.withMax snr (snr_n_2.map fun row => argmax row + 1))
    else pure (.total snr)

/-- `snr.snr_ecc_stationary`, snr.py lines 73-157. -/
noncomputable def snr_ecc_stationary (C : Ctx) (srcs : List EccSrc) (harmonics_required : ℕ)
    (ret_max_snr_harmonic ret_snr2_by_harmonic : Bool) : Except PyErr SnrOut := do
  let n_range := harmonics harmonics_required
  let h ← strain.h_0_n C.K C.interpolated_g n_range (srcs.map fun s => ⟨s.m_c, s.dist, [(s.f_orb, s.ecc)], {}⟩)
  let h_0_ecc_n_2 := h.map fun row => row.flatten.map fun x => x ^ 2
  let h_f_src_ecc_2 := h_0_ecc_n_2.map fun row => row.map fun x => x * C.t_obs
  let h_f_lisa_n_2 ← srcs.mapM fun s => n_range.mapM fun n : ℤ => noise C (n * s.f_orb)
  let snr_n_2 := h_f_src_ecc_2.zipWith (fun hs ns => hs.zipWith divNoise ns) h_f_lisa_n_2
  finish ret_max_snr_harmonic ret_snr2_by_harmonic harmonics_required snr_n_2

/-- `np.trapezoid(y, x)` along one row. -/
noncomputable def trapezoid : List ℝ → List ℝ → ℝ
  | y₀ :: y₁ :: ys, x₀ :: x₁ :: xs => (x₁ - x₀) * (y₁ + y₀) / 2 + trapezoid (y₁ :: ys) (x₁ :: xs)
  | _, _ => 0

/-- An evolving source. -/
structure EvolSrc where
  m_1 : ℝ
  m_2 : ℝ
  f_orb_i : ℝ
  ecc : ℝ := 0
  dist : ℝ

/-- A column of the source list as the index functions used by `evol`. -/
def column (srcs : List EvolSrc) (x : EvolSrc → ℝ) : Fin srcs.length → ℝ := fun i => x srcs[i]

open Classical in
/-- Replacement of the 100 Hz placeholder for merged steps by the largest other frequency, snr.py lines 215-217. -/
noncomputable def drop_merged_circ (row : List ℝ) : List ℝ :=
  let marked := row.map fun f => if f = 1e2 then -1 else f
  match marked with
  | [] => []
  | x :: xs => row.map fun f => if f = 1e2 then np.rowMax x xs else f

/-- A requested single variable. -/
def single {ι : Type*} : evol.EvolOut ι → Except PyErr (ι → List ℝ)
  | .one x => pure x
  | .many _ => throw .TypeError

/-- A requested pair of variables. -/
def pair {ι : Type*} : evol.EvolOut ι → Except PyErr ((ι → List ℝ) × (ι → List ℝ))
  | .many [x, y] => pure (x, y)
  | _ => throw .ValueError

/-- The merger times used by `snr_circ_evolving`, snr.py lines 207-209: given (one per source) or computed. -/
noncomputable def merge_times_circ (C : Ctx) (srcs : List EvolSrc) :
    Option (List ℝ) → Except PyErr (Fin srcs.length → ℝ)
  | some t => pure fun i => t.getD i 0
  | none => evol.get_t_merge_circ C.K none (some (column srcs EvolSrc.m_1)) (some (column srcs EvolSrc.m_2)) none
      (some (column srcs EvolSrc.f_orb_i))

/-- The merger times used by `snr_ecc_evolving`, snr.py lines 309-311. -/
noncomputable def merge_times_ecc (C : Ctx) (srcs : List EvolSrc) :
    Option (List ℝ) → Except PyErr (Fin srcs.length → ℝ)
  | some t => pure fun i => t.getD i 0
  | none => evol.get_t_merge_ecc C.K (column srcs EvolSrc.ecc) none (some (column srcs EvolSrc.f_orb_i)) none
      (some (column srcs EvolSrc.m_1)) (some (column srcs EvolSrc.m_2)) 0.15 (1 - 1e-4) true

/-- SNR² of one evolving circular source from its frequency history, snr.py lines 219-232; `h` are the strains and
`ns` the noise at twice each frequency. -/
noncomputable def snr2_circ_row (fs h : List ℝ) (ns : List (WithTop ℝ)) : ℝ :=
  let y := (h.map fun x => x ^ 2).zipWith divNoise
    (fs.zipWith (fun f (n : WithTop ℝ) => n.map fun n => (2 * f) ^ 2 * n) ns)
  trapezoid y (fs.map fun f => 2 * f)

/-- `snr.snr_circ_evolving`, snr.py lines 160-234. The separations computed inside `evol_circ` are in AU. The row
maxima of an empty time axis are a `ValueError`. -/
noncomputable def snr_circ_evolving (C : Ctx) (srcs : List EvolSrc) (n_step : ℕ) (t_merge : Option (List ℝ)) :
    Except PyErr (List (Option ℝ)) := do
  let m1 := column srcs EvolSrc.m_1
  let m2 := column srcs EvolSrc.m_2
  let f := column srcs EvolSrc.f_orb_i
  let t_merge ← merge_times_circ C srcs t_merge
  let t_evol := fun i => min (t_merge i - 1) C.t_obs
  let out ← evol.evol_circ C.K evol.AU (some (.array t_evol)) n_step none none (some m1) (some m2) none (some f)
    ["f_orb"]
  let f_orb_evol ← single out
  if n_step = 0 ∧ srcs ≠ [] then throw .ValueError
  let rows := List.ofFn fun i => drop_merged_circ (f_orb_evol i)
  let h_c ← strain.h_c_n C.K C.interpolated_g [2]
    (srcs.zipWith (fun s fs => ⟨chirp_mass s.m_1 s.m_2, s.dist, fs.map fun f => (f, 0), {}⟩) rows)
  let ns ← rows.mapM fun fs => fs.mapM fun f => noise C (2 * f)
  pure ((rows.zip (h_c.zip ns)).map fun (fs, h, ns) => sqrt? (snr2_circ_row fs h.flatten ns))

open Classical in
/-- Replacement of the 100 Hz placeholder in an eccentric evolution, snr.py lines 320-323: the maximum leaves out
steps with zero eccentricity and 100 Hz, all steps at 100 Hz are replaced. -/
noncomputable def drop_merged_ecc (es row : List ℝ) : List ℝ :=
  let marked := es.zipWith (fun e f => if e = 0 ∧ f = 1e2 then -1 else f) row
  match marked with
  | [] => []
  | x :: xs => row.map fun f => if f = 1e2 then np.rowMax x xs else f

/-- SNR² of one harmonic of an evolving eccentric source, snr.py lines 325-344: frequencies of the harmonic, its
strain and its noise at each step. -/
noncomputable def snr2_harmonic (fs h : List ℝ) (ns : List (WithTop ℝ)) : ℝ :=
  let y := (h.map fun x => x ^ 2).zipWith divNoise
    (fs.zipWith (fun f (n : WithTop ℝ) => n.map fun n => f ^ 2 * n) ns)
  trapezoid y fs

/-- `snr.snr_ecc_evolving`, snr.py lines 237-356. -/
noncomputable def snr_ecc_evolving (C : Ctx) (odeint : evol.Odeint) (srcs : List EvolSrc) (harmonics_required n_step : ℕ)
    (t_merge : Option (List ℝ)) (n_proc : ℕ) (order : List ℕ) (ret_max_snr_harmonic ret_snr2_by_harmonic : Bool) :
    Except PyErr SnrOut := do
  let m1 := column srcs EvolSrc.m_1
  let m2 := column srcs EvolSrc.m_2
  let f := column srcs EvolSrc.f_orb_i
  let ecc := column srcs EvolSrc.ecc
  let t_merge ← merge_times_ecc C srcs t_merge
  let t_before := 0.1 * psd.yr
  let t_evol := fun i => min (t_merge i - t_before) C.t_obs
  let out ← evol.evol_ecc C.K odeint ecc (some (.array t_evol)) n_step none none (some m1) (some m2) none (some f)
    ["ecc", "f_orb"] n_proc order true false t_before (some t_merge)
  let (e_evol, f_orb_evol) ← pair out
  let rows := List.ofFn fun i => drop_merged_ecc (e_evol i) (f_orb_evol i)
  let es := List.ofFn e_evol
  let harms := harmonics harmonics_required
  let h_c ← strain.h_c_n C.K C.interpolated_g harms
    (srcs.zipWith (fun s (fs, es) => ⟨chirp_mass s.m_1 s.m_2, s.dist, fs.zip es, {}⟩) (rows.zip es))
  let ns ← rows.mapM fun fs => harms.mapM fun n : ℤ => fs.mapM fun f => noise C (n * f)
  let snr_n_2 := (rows.zip (h_c.zip ns)).map fun (fs, h, ns) =>
    (harms.zip ns).zipIdx.map fun ((n, ns), k) =>
      snr2_harmonic (fs.map fun f => n * f) (h.map fun step => step.getD k 0) ns
  finish ret_max_snr_harmonic ret_snr2_by_harmonic harmonics_required snr_n_2

end Legwork.snr
