import Verif.Model.Evol

/-!
# `evol_ecc` with a 2D array of timesteps, which belongs to the caller

`create_timesteps_array` returns a 2D array as it is (evol.py lines 163-167), and the `avoid_merger` block of `evol_ecc`
assigns to its entries (lines 385-389), so the array that the caller passed is changed. The arrays of a program are a
memory from addresses to 2D arrays. Arrays are taken to be writeable and of floating point type.
-/

namespace Legwork.evol

open Legwork.utils

/-- The 2D arrays of a program for `n` sources. -/
abbrev Arrays (n : ℕ) := ℕ → Fin n → List ℝ

/-- The arguments of one call of `evol_ecc` whose `timesteps` is the array at address `timesteps`. -/
structure GridCall (n : ℕ) where
  ecc_i : Fin n → ℝ
  t_evol : Option (TEvol (Fin n)) := none
  n_step : ℕ := 100
  timesteps : ℕ
  beta : Option (Fin n → ℝ) := none
  m_1 : Option (Fin n → ℝ) := none
  m_2 : Option (Fin n → ℝ) := none
  a_i : Option (Fin n → ℝ) := none
  f_orb_i : Option (Fin n → ℝ) := none
  output_vars : List String := ["ecc", "f_orb"]
  n_proc : ℕ := 1
  order : List ℕ := []
  avoid_merger : Bool := true
  exact_t_merge : Bool := false
  t_before : ℝ := 1e-3 * Gyr
  t_merge : Option (Fin n → ℝ) := none

/-- The part of `evol.evol_ecc` after the timesteps are known, evol.py lines 391-438. -/
noncomputable def evol_ecc_finish {n : ℕ} (K : Consts) (odeint : Odeint) (x : GridCall n) (beta a_i : Fin n → ℝ)
    (timesteps : Fin n → List ℝ) : Except PyErr (EvolOut (Fin n)) :=
  let c0 : Fin n → ℝ := fun i => c_0 (a_i i) (x.ecc_i i)
  let ecc_evol := integrate odeint x.n_proc x.order x.ecc_i timesteps beta c0
  let a_evol : Option (Fin n → List ℝ) :=
    if wantsSep x.output_vars then some fun i => (ecc_evol i).map fun e => get_a_from_ecc e (c0 i) else none
  let f_orb_evol : Option (Fin n → List ℝ) :=
    match wantsFreq x.output_vars, a_evol, x.m_1, x.m_2 with
    | true, some a, some m1, some m2 => some fun i => (a i).map fun a => f_or_merged K AU a (m1 i) (m2 i)
    | _, _, _, _ => none
  construct_output true ⟨timesteps, some ecc_evol, a_evol, f_orb_evol⟩ x.output_vars

/-- `evol.evol_ecc`, evol.py lines 267-438, with `timesteps` an array of the caller: the result and the memory after the
call. Errors before line 387 leave the array as it was. -/
noncomputable def evol_ecc_in_place {n : ℕ} (K : Consts) (odeint : Odeint) (x : GridCall n) (mem : Arrays n) :
    Except PyErr (EvolOut (Fin n)) × Arrays n :=
  match check_mass_freq_input K x.beta x.m_1 x.m_2 x.a_i x.f_orb_i with
  | .error e => (.error e, mem)
  | .ok (beta, a_i) =>
    if wantsFreq x.output_vars = true ∧ (x.m_1.isNone ∨ x.m_2.isNone) then (.error .ValueError, mem)
    else if x.avoid_merger then
      match avoid_merger_times K x.ecc_i beta a_i x.exact_t_merge x.t_before x.t_merge (mem x.timesteps) with
      | .error e => (.error e, mem)
      | .ok ts => (evol_ecc_finish K odeint x beta a_i ts, Function.update mem x.timesteps ts)
    else (evol_ecc_finish K odeint x beta a_i (mem x.timesteps), mem)

/-- A program: one call after the other, keeping the results. -/
noncomputable def run_calls {n : ℕ} (K : Consts) (odeint : Odeint) :
    List (GridCall n) → Arrays n → List (Except PyErr (EvolOut (Fin n))) × Arrays n
  | [], mem => ([], mem)
  | x :: xs, mem =>
    let (r, mem) := evol_ecc_in_place K odeint x mem
    let (rs, mem) := run_calls K odeint xs mem
    (r :: rs, mem)

end Legwork.evol
