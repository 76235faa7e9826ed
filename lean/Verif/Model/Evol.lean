import Mathlib.MeasureTheory.Integral.IntervalIntegral.Basic
import Mathlib.Order.WithBot
import Verif.Py.Numpy
import Verif.Model.Utils

/-!
# Model of `src/legwork/evol.py`

Arrays over sources are functions `ι → ℝ` (the docstrings require all of them to have the same shape);
sources × timesteps arrays are `ι → List ℝ`. SI units. `ensure_array` and the final `flatten` for a single
source only wrap and unwrap a length-one axis and are left out here (see `Verif.Model.EnsureArray`).
-/

namespace Legwork.evol

open Real Legwork.utils Legwork.np

variable {ι : Type*}

/-- `evol.de_dt`, evol.py lines 19-48. -/
noncomputable def de_dt (e beta c_0 : ℝ) : ℝ :=
  -19 / 12 * beta / c_0 ^ 4 * (e ^ (-29 / 19 : ℝ) * (1 - e ^ 2) ^ (3 / 2 : ℝ))
    / (1 + (121 / 304) * e ^ 2) ^ (1181 / 2299 : ℝ)

/-- `evol.check_mass_freq_input`, evol.py lines 69-116. -/
noncomputable def check_mass_freq_input (K : Consts) (beta m_1 m_2 a_i f_orb_i : Option (ι → ℝ)) :
    Except PyErr ((ι → ℝ) × (ι → ℝ)) := do
  let beta' ← match beta, m_1, m_2 with
    | some b, _, _ => pure b
    | none, some m1, some m2 => pure fun i => utils.beta K (m1 i) (m2 i)
    | none, _, _ => throw .ValueError
  let a' ← match a_i, f_orb_i, m_1, m_2 with
    | some a, _, _, _ => pure a
    | none, none, _, _ => throw .ValueError
    | none, some f, some m1, some m2 => pure fun i => get_a_from_f_orb K (f i) (m1 i) (m2 i)
    | none, some _, _, _ => throw .ValueError
  pure (beta', a')

/-- `evol.get_t_merge_circ`, evol.py lines 441-475. -/
noncomputable def get_t_merge_circ (K : Consts) (beta m_1 m_2 a_i f_orb_i : Option (ι → ℝ)) :
    Except PyErr (ι → ℝ) := do
  let (beta, a_i) ← check_mass_freq_input K beta m_1 m_2 a_i f_orb_i
  pure fun i => a_i i ^ 4 / (4 * beta i)

/-- Coefficients in `evol.t_merge_mandel_fit`, evol.py lines 494-497, highest power first. -/
noncomputable def mandel_coefficients : List ℝ :=
  [-1.20317749e+03, 5.67211219e+03, -1.13935479e+04, 1.27306422e+04, -8.66281737e+03, 3.69447796e+03,
    -9.79864734e+02, 1.54873214e+02, -1.32267683e+01, 5.32494018e-01, 9.93382093e-01]

/-- `evol.t_merge_mandel_fit`, evol.py lines 478-504. The sum over `coefficients[i] * e**(n_coeff - (i + 1))`
is kept as a sum over the enumerated list. -/
noncomputable def t_merge_mandel_fit (ecc_i : ℝ) : ℝ :=
  let n_coeff := mandel_coefficients.length
  let correction := ((mandel_coefficients.zipIdx).map fun (c, i) => c * ecc_i ^ (n_coeff - (i + 1))).sum
  (1 + (0.27 * ecc_i ^ 10) + (0.33 * ecc_i ^ 20) + (0.20 * ecc_i ^ 1000)) * (1 - ecc_i ^ 2) ^ (7 / 2 : ℝ)
    / correction

/-- The local function `peters_5_14`, evol.py lines 558-561. -/
noncomputable def peters_5_14 (e : ℝ) : ℝ :=
  e ^ (29 / 19 : ℝ) * (1 + (121 / 304) * e ^ 2) ^ (1181 / 2299 : ℝ) / (1 - e ^ 2) ^ (3 / 2 : ℝ)

/-- Merger time of one binary in the small eccentricity branch, evol.py lines 582 and 606. -/
noncomputable def t_small (c0 beta ecc_i : ℝ) : ℝ := c0 ^ 4 / (4 * beta) * ecc_i ^ (48 / 19 : ℝ)

/-- Merger time of one binary in the large eccentricity branch, evol.py lines 585-588 and 608-610. -/
noncomputable def t_large (c0 beta ecc_i : ℝ) : ℝ :=
  c0 ^ 4 / (4 * beta) * ecc_i ^ (48 / 19 : ℝ) * (768 / 425) * (1 - ecc_i ^ 2) ^ (-1 / 2 : ℝ)
    * (1 + 121 / 304 * ecc_i ^ 2) ^ (3480 / 2299 : ℝ)

/-- Merger time of one binary by quadrature, evol.py lines 592-594 and 612; `quad` is the exact integral. -/
noncomputable def t_exact (c0 beta ecc_i : ℝ) : ℝ :=
  (12 / 19) * c0 ^ 4 / beta * ∫ x in (0 : ℝ)..ecc_i, peters_5_14 x

/-- Merger time of one binary from the fit, evol.py lines 596-598 and 614. -/
noncomputable def t_fit (a_i beta ecc_i : ℝ) : ℝ := a_i ^ 4 / (4 * beta) * t_merge_mandel_fit ecc_i

open Classical in
/-- `evol.get_t_merge_ecc` with array input, evol.py lines 507-598 and 615. The masked assignments are made in
the order of the code. -/
noncomputable def get_t_merge_ecc (K : Consts) (ecc_i : ι → ℝ) (a_i f_orb_i beta m_1 m_2 : Option (ι → ℝ))
    (small_e_tol large_e_tol : ℝ) (exact : Bool) : Except PyErr (ι → ℝ) := do
  let (beta, a_i) ← check_mass_freq_input K beta m_1 m_2 a_i f_orb_i
  if ∀ i, ecc_i i = 0 then
    get_t_merge_circ K (some beta) none none (some a_i) none
  else
    let circular : ι → Prop := fun i => ecc_i i = 0
    let small_e : ι → Prop := fun i => ecc_i i > 0 ∧ ecc_i i < small_e_tol
    let large_e : ι → Prop := fun i => ecc_i i > large_e_tol
    let other_e : ι → Prop := fun i => ecc_i i ≥ small_e_tol ∧ ecc_i i ≤ large_e_tol
    let c0 : ι → ℝ := maskAssign (fun i => ¬ circular i) (fun i => c_0 (a_i i) (ecc_i i)) (fun _ => 0)
    let t_merge : ι → ℝ := fun _ => 0
    let t_merge := maskAssign circular (fun i => a_i i ^ 4 / (4 * beta i)) t_merge
    let t_merge := maskAssign small_e (fun i => t_small (c0 i) (beta i) (ecc_i i)) t_merge
    let t_merge := maskAssign large_e (fun i => t_large (c0 i) (beta i) (ecc_i i)) t_merge
    let t_merge := if exact
      then maskAssign other_e (fun i => t_exact (c0 i) (beta i) (ecc_i i)) t_merge
      else maskAssign other_e (fun i => t_fit (a_i i) (beta i) (ecc_i i)) t_merge
    pure t_merge

/-- `evol.get_t_merge_ecc` for a single binary given as scalars, evol.py lines 552-556 and 600-615. -/
noncomputable def get_t_merge_ecc_scalar (K : Consts) (ecc_i : ℝ) (a_i f_orb_i beta m_1 m_2 : Option ℝ)
    (small_e_tol large_e_tol : ℝ) (exact : Bool) : Except PyErr ℝ := do
  let one : Option ℝ → Option (Unit → ℝ) := Option.map fun x _ => x
  let (beta, a_i) ← check_mass_freq_input K (one beta) (one m_1) (one m_2) (one a_i) (one f_orb_i)
  let beta := beta ()
  let a_i := a_i ()
  if ecc_i = 0 then pure (a_i ^ 4 / (4 * beta))
  else
    let c0 := c_0 a_i ecc_i
    if ecc_i < small_e_tol then pure (t_small c0 beta ecc_i)
    else if ecc_i > large_e_tol then pure (t_large c0 beta ecc_i)
    else if exact then pure (t_exact c0 beta ecc_i)
    else pure (t_fit a_i beta ecc_i)

/-- `t_evol` argument: one time for all binaries, or one each. -/
inductive TEvol (ι : Type*)
  | scalar (t : ℝ)
  | array (t : ι → ℝ)

/-- `timesteps` argument: one 1D grid for all binaries, or a 2D array. -/
inductive Steps (ι : Type*)
  | grid (t : List ℝ)
  | grids (t : ι → List ℝ)

/-- `evol.create_timesteps_array`, evol.py lines 119-167, for array input. `ecc_i = None` with no times given
fails with `TypeError` inside `c_0`. -/
noncomputable def create_timesteps_array (K : Consts) (a_i beta : ι → ℝ) (ecc_i : Option (ι → ℝ))
    (t_evol : Option (TEvol ι)) (n_step : ℕ) (timesteps : Option (Steps ι)) : Except PyErr (ι → List ℝ) :=
  match timesteps with
  | none => do
    let t_evol ← match t_evol with
      | none =>
        match ecc_i with
        | none => throw .TypeError
        | some ecc_i => get_t_merge_ecc K ecc_i (some a_i) none (some beta) none none 0.15 (1 - 1e-4) true
      | some (.scalar t) => pure fun _ => t
      | some (.array t) => pure t
    pure fun i => linspace (t_evol i) n_step
  | some (.grid ts) => pure fun _ => ts
  | some (.grids ts) => pure ts

/-- The variables available for output. -/
structure EvolVars (ι : Type*) where
  timesteps : ι → List ℝ
  ecc : Option (ι → List ℝ)
  a : Option (ι → List ℝ)
  f_orb : Option (ι → List ℝ)

/-- A returned evolution: `evolution if len(evolution) > 1 else evolution[0]`. -/
inductive EvolOut (ι : Type*)
  | one (x : ι → List ℝ)
  | many (xs : List (ι → List ℝ))

/-- Reading a variable that was never computed is an `UnboundLocalError`. -/
def readVar : Option (ι → List ℝ) → Except PyErr (ι → List ℝ)
  | some x => pure x
  | none => throw .UnboundLocalError

/-- One round of the output loop, evol.py lines 251-263 and 422-437. Names other than those listed add nothing;
`ecc` is only recognised by `evol_ecc` (`withEcc`). -/
def output_step (withEcc : Bool) (v : EvolVars ι) (acc : List (ι → List ℝ)) (var : String) :
    Except PyErr (List (ι → List ℝ)) :=
  if var = "timesteps" then pure (acc ++ [v.timesteps])
  else if withEcc = true ∧ var = "ecc" then do pure (acc ++ [← readVar v.ecc])
  else if var = "a" then do pure (acc ++ [← readVar v.a])
  else if var = "f_orb" then do pure (acc ++ [← readVar v.f_orb])
  else if var = "f_GW" then do
    let f ← readVar v.f_orb
    pure (acc ++ [fun i => (f i).map (2 * ·)])
  else pure acc

/-- The output loop, evol.py lines 249-264 and 420-438. -/
def construct_output (withEcc : Bool) (v : EvolVars ι) (output_vars : List String) :
    Except PyErr (EvolOut ι) := do
  let evolution ← output_vars.foldlM (output_step withEcc v) []
  match evolution with
  | [] => throw .IndexError
  | [x] => pure (.one x)
  | xs => pure (.many xs)

/-- `np.isin(output_vars, ["f_orb", "f_GW"]).any()`. -/
def wantsFreq (output_vars : List String) : Bool := output_vars.any fun v => v = "f_orb" || v = "f_GW"

/-- `np.isin(output_vars, ["a", "f_orb", "f_GW"]).any()`. -/
def wantsSep (output_vars : List String) : Bool :=
  output_vars.any fun v => v = "a" || v = "f_orb" || v = "f_GW"

/-- Separation at time `t`, evol.py lines 235-238. -/
noncomputable def a_circ (a_i beta t : ℝ) : ℝ :=
  let difference := a_i ^ 4 - 4 * beta * t
  (if difference ≤ 0 then 0 else difference) ^ (1 / 4 : ℝ)

/-- Frequency from a separation, merged binaries being set to 100 Hz, evol.py lines 242-247 and 413-418.
`a_unit` is the size in metres of the unit the separation is expressed in (the constant `1e-30` has that
unit). -/
noncomputable def f_or_merged (K : Consts) (a_unit a m_1 m_2 : ℝ) : ℝ :=
  let a_not0 := if a = 0 then 1e-30 * a_unit else a
  let f := get_f_orb_from_a K a_not0 m_1 m_2
  if a_not0 = 1e-30 * a_unit then 1e2 else f

/-- `evol.evol_circ`, evol.py lines 170-264. -/
noncomputable def evol_circ (K : Consts) (a_unit : ℝ) (t_evol : Option (TEvol ι)) (n_step : ℕ)
    (timesteps : Option (Steps ι)) (beta m_1 m_2 a_i f_orb_i : Option (ι → ℝ)) (output_vars : List String) :
    Except PyErr (EvolOut ι) := do
  let (beta, a_i) ← check_mass_freq_input K beta m_1 m_2 a_i f_orb_i
  if wantsFreq output_vars = true ∧ (m_1.isNone ∨ m_2.isNone) then throw .ValueError
  let timesteps ← create_timesteps_array K a_i beta (some fun _ => 0) t_evol n_step timesteps
  let a_evol : ι → List ℝ := fun i => (timesteps i).map (a_circ (a_i i) (beta i))
  let f_orb_evol : Option (ι → List ℝ) :=
    match wantsFreq output_vars, m_1, m_2 with
    | true, some m1, some m2 => some fun i => (a_evol i).map fun a => f_or_merged K a_unit a (m1 i) (m2 i)
    | _, _, _ => none
  construct_output false ⟨timesteps, none, some a_evol, f_orb_evol⟩ output_vars

/-- The merger clamp for one binary, evol.py lines 373-389: times at or beyond `t_merge - t_before` (other
than the first) are replaced by the largest entry left once they are set to `-1 Gyr`. A row without
timesteps is rejected in `evol_ecc`. -/
noncomputable def clamp_row (gyr t_merge t_before : ℝ) (row : List ℝ) : List ℝ :=
  match row with
  | [] => []
  | t0 :: ts =>
    let too_close : ℝ → Bool := fun t => t ≥ t_merge - t_before
    let marked := ts.map fun t => if too_close t then -1 * gyr else t
    let previous := rowMax t0 marked
    t0 :: ts.map fun t => if too_close t then previous else t

/-- Seconds in a Gyr (`astropy.units.Gyr`, Julian years). -/
noncomputable def Gyr : ℝ := 1e9 * 31557600

/-- Metres in an AU (`astropy.units.AU`). -/
noncomputable def AU : ℝ := 149597870700

/-- `np.nan_to_num(x, nan=0.0)` on values that may be NaN (`none`), evol.py line 405. -/
def nan_to_num (x : Option ℝ) : ℝ := x.getD 0

/-- The arguments of the eccentricity integration for one source. -/
abbrev OdeTask := ℝ × List ℝ × ℝ × ℝ

/-- `odeint(rhs, y0, times)` flattened, NaN as `none`. -/
abbrev Odeint := (ℝ → ℝ) → ℝ → List ℝ → List (Option ℝ)

/-- `evol.integrate_de_dt`, evol.py lines 51-66. -/
noncomputable def integrate_de_dt (odeint : Odeint) : OdeTask → List (Option ℝ)
  | (ecc_i, timesteps, beta, c_0) => odeint (fun e => de_dt e beta c_0) ecc_i timesteps

/-- The serial branch of the integration, evol.py lines 401-402. -/
noncomputable def integrate_serial {n : ℕ} (odeint : Odeint) (ecc_i : Fin n → ℝ) (timesteps : Fin n → List ℝ)
    (beta c_0 : Fin n → ℝ) : List (List (Option ℝ)) :=
  (List.finRange n).map fun i => odeint (fun e => de_dt e (beta i) (c_0 i)) (ecc_i i) (timesteps i)

/-- One completed task of a `pool.map` call: the result of task `i` is stored at position `i`. -/
def pool_step {α β : Type*} (f : α → β) (tasks : List α) (res : List (Option β)) (i : ℕ) : List (Option β) :=
  match tasks[i]? with
  | some t => res.set i (some (f t))
  | none => res

/-- Dispatch of one `pool.map` call: `order` is the order in which worker processes complete the tasks; each
result is stored at the position of its task (`multiprocessing.Pool.map` semantics, used by
`schwimmbad.MultiPool`). -/
def pool_map {α β : Type*} (f : α → β) (tasks : List α) (order : List ℕ) : List (Option β) :=
  order.foldl (pool_step f tasks) (List.replicate tasks.length none)

/-- The parallel branch of the integration, evol.py lines 397-399. -/
noncomputable def integrate_pool {n : ℕ} (odeint : Odeint) (order : List ℕ) (ecc_i : Fin n → ℝ)
    (timesteps : Fin n → List ℝ) (beta c_0 : Fin n → ℝ) : List (Option (List (Option ℝ))) :=
  pool_map (integrate_de_dt odeint)
    ((List.ofFn ecc_i).zip ((List.ofFn timesteps).zip ((List.ofFn beta).zip (List.ofFn c_0)))) order

open Classical in
/-- The `avoid_merger` block of `evol.evol_ecc`, evol.py lines 359-389. `check[:, 0] = True` (line 377) fails with
`IndexError` when there are no timesteps. The two logged warnings are left out. -/
noncomputable def avoid_merger_times {n : ℕ} (K : Consts) (ecc_i beta a_i : Fin n → ℝ)
    (exact_t_merge : Bool) (t_before : ℝ) (t_merge : Option (Fin n → ℝ)) (timesteps : Fin n → List ℝ) :
    Except PyErr (Fin n → List ℝ) := do
  let t_merge ← match t_merge with
    | some t => pure t
    | none => get_t_merge_ecc K ecc_i (some a_i) none (some beta) none none 0.15 (1 - 1e-4) exact_t_merge
  if ∃ i, timesteps i = [] then throw .IndexError
  else pure fun i => clamp_row Gyr (t_merge i) t_before (timesteps i)

/-- The integration of all sources, evol.py lines 396-405. `order` is the (arbitrary) completion order of the worker
processes when `n_proc > 1`. -/
noncomputable def integrate {n : ℕ} (odeint : Odeint) (n_proc : ℕ) (order : List ℕ) (ecc_i : Fin n → ℝ)
    (timesteps : Fin n → List ℝ) (beta c_0 : Fin n → ℝ) : Fin n → List ℝ :=
  let raw : List (List (Option ℝ)) :=
    if n_proc > 1 then (integrate_pool odeint order ecc_i timesteps beta c_0).map fun r => r.getD []
    else integrate_serial odeint ecc_i timesteps beta c_0
  fun i => (raw[i]?.getD []).map nan_to_num

/-- `evol.evol_ecc`, evol.py lines 267-438. -/
noncomputable def evol_ecc {n : ℕ} (K : Consts) (odeint : Odeint) (ecc_i : Fin n → ℝ)
    (t_evol : Option (TEvol (Fin n))) (n_step : ℕ) (timesteps : Option (Steps (Fin n)))
    (beta m_1 m_2 a_i f_orb_i : Option (Fin n → ℝ)) (output_vars : List String) (n_proc : ℕ) (order : List ℕ)
    (avoid_merger exact_t_merge : Bool) (t_before : ℝ) (t_merge : Option (Fin n → ℝ)) :
    Except PyErr (EvolOut (Fin n)) := do
  let (beta, a_i) ← check_mass_freq_input K beta m_1 m_2 a_i f_orb_i
  if wantsFreq output_vars = true ∧ (m_1.isNone ∨ m_2.isNone) then throw .ValueError
  let c0 : Fin n → ℝ := fun i => c_0 (a_i i) (ecc_i i)
  let timesteps ← create_timesteps_array K a_i beta (some ecc_i) t_evol n_step timesteps
  let timesteps ← if avoid_merger then
      avoid_merger_times K ecc_i beta a_i exact_t_merge t_before t_merge timesteps
    else pure timesteps
  let ecc_evol := integrate odeint n_proc order ecc_i timesteps beta c0
  let a_evol : Option (Fin n → List ℝ) :=
    if wantsSep output_vars then some fun i => (ecc_evol i).map fun e => get_a_from_ecc e (c0 i) else none
  let f_orb_evol : Option (Fin n → List ℝ) :=
    match wantsFreq output_vars, a_evol, m_1, m_2 with
    | true, some a, some m1, some m2 => some fun i => (a i).map fun a => f_or_merged K AU a (m1 i) (m2 i)
    | _, _, _, _ => none
  construct_output true ⟨timesteps, some ecc_evol, a_evol, f_orb_evol⟩ output_vars

/-- The bracket of `evol.evolve_f_orb_circ`, evol.py lines 650-652. -/
noncomputable def inner_part (K : Consts) (f_orb_i m_c t_evol ecc_i : ℝ) : ℝ :=
  f_orb_i ^ (-8 / 3 : ℝ) - 2 ^ (32 / 3 : ℝ) * π ^ (8 / 3 : ℝ) * t_evol / (5 * K.c ^ 5)
    * (K.G * m_c) ^ (5 / 3 : ℝ) * peters_f ecc_i

/-- `evol.evolve_f_orb_circ`, evol.py lines 618-659, for one element. `np.power(0, -3/8)` is infinite. -/
noncomputable def evolve_f_orb_circ (K : Consts) (f_orb_i m_c t_evol ecc_i merge_f : ℝ) : WithTop ℝ :=
  let inner := inner_part K f_orb_i m_c t_evol ecc_i
  if inner ≥ 0 then (if inner = 0 then ⊤ else ((inner ^ (-3 / 8 : ℝ) : ℝ) : WithTop ℝ)) else (merge_f : WithTop ℝ)

/-- `(f_f - f_i) / f_i <= stat_tol` with a possibly infinite `f_f`, evol.py line 708. -/
def change_le (f_f : WithTop ℝ) (f_i stat_tol : ℝ) : Prop :=
  match f_f with
  | ⊤ => False
  | (f : ℝ) => (f - f_i) / f_i ≤ stat_tol

/-- `evol.determine_stationarity`, evol.py lines 662-709. -/
noncomputable def determine_stationarity (K : Consts) (f_orb_i : ι → ℝ) (t_evol : ℝ) (ecc_i : ι → ℝ)
    (m_1 m_2 m_c : Option (ι → ℝ)) (stat_tol : ℝ) : Except PyErr (ι → Prop) := do
  let m_c ← match m_c, m_1, m_2 with
    | some m, _, _ => pure m
    | none, some m1, some m2 => pure fun i => chirp_mass (m1 i) (m2 i)
    | none, _, _ => throw .ValueError
  pure fun i => change_le (evolve_f_orb_circ K (f_orb_i i) (m_c i) t_evol (ecc_i i) 1e9) (f_orb_i i) stat_tol

end Legwork.evol
