import Verif.Spec.Masks

/-!
# Vocabulary for the evolution of collections
-/

namespace Legwork.Spec

open Legwork.source

/-- The argument `t_evol` means that source number `i` of `n` evolves for the time `T i`. -/
def TimesOf (n : ℕ) (T : ℕ → ℝ) : EvolTime → Prop
  | .scalar t => ∀ i < n, T i = t
  | .array ts => ts.length = n ∧ ∀ i < n, ts[i]? = some (T i)

/-- The time until a source merges, as cached in `t_merge` or else as `get_merger_time` would give it. -/
def TimeLeft (K : Consts) (r : One) (tm : ℝ) : Prop :=
  match r.t_merge with
  | some t => tm = t
  | none => MergerTimeOf K true r tm

/-- The eccentricity and frequency of a source that does not merge, at the end of what `evol.evol_circ` (exactly
circular sources) or `evol.evol_ecc` give for that source alone over the time `T`. -/
def OrbitAfter (W : World) (T : ℝ) (r : One) (ecc f_orb : ℝ) : Prop :=
  if r.ecc = 0 then ecc = 0 ∧ ∃ f, evol.evol_circ W.K evol.AU (some (.scalar T)) 2 none none (some fun _ : Unit => r.m_1)
      (some fun _ => r.m_2) none (some fun _ => r.f_orb) ["f_orb"] = .ok (.one f) ∧ (f ()).getLastD 0 = f_orb
  else ∃ e f, evol.evol_ecc W.K W.odeint (fun _ : Fin 1 => r.ecc) (some (.scalar T)) 2 none none (some fun _ => r.m_1)
      (some fun _ => r.m_2) none (some fun _ => r.f_orb) ["ecc", "f_orb"] 1 [] false true (0.1 * psd.yr) none =
        .ok (.many [e, f]) ∧ (e 0).getLastD 0 = ecc ∧ (f 0).getLastD 0 = f_orb

/-- `r'` is `r` after the time `T`: it has merged if no time was left, in which case it has frequency 100 Hz and
eccentricity 0; the time left is counted down to 0; otherwise the orbit has changed; nothing else has. -/
structure EvolvesTo (W : World) (T : ℝ) (r r' : One) : Prop where
  same : r' = { r with ecc := r'.ecc, f_orb := r'.f_orb, merged := r'.merged, t_merge := r'.t_merge }
  change : ∃ tm, TimeLeft W.K r tm ∧ r'.t_merge = some (max 0 (tm - T)) ∧
    (tm ≤ T ∧ r'.merged = true ∧ r'.f_orb = 100 ∧ r'.ecc = 0 ∨
     T < tm ∧ r'.merged = false ∧ OrbitAfter W T r r'.ecc r'.f_orb)

/-- `for t in ts: sources.evolve_sources(t)`. -/
noncomputable def evolveAll (W : World) (s : ℕ) : List EvolTime → M Unit
  | [] => pure ()
  | t :: ts => do
    evolve_sources W s t
    evolveAll W s ts

/-- The total time of source number `i`. -/
def total (Ts : List (ℕ → ℝ)) (i : ℕ) : ℝ := (Ts.map fun T => T i).sum

/-- A circular source with positive masses and frequency. If its merger time is cached, it is the one `get_merger_time`
would give. -/
structure CircularSource (K : Consts) (r : One) : Prop where
  m_1 : 0 < r.m_1
  m_2 : 0 < r.m_2
  f_orb : 0 < r.f_orb
  ecc : r.ecc = 0
  fresh : ∀ t, r.t_merge = some t → MergerTimeOf K true r t

/-- After the time `T` the separation of this circular source is exactly 1e-30 au, which `evol` takes for a merged
source. -/
def AtMarker (K : Consts) (r : One) (T : ℝ) : Prop :=
  utils.get_a_from_f_orb K r.f_orb r.m_1 r.m_2 ^ 4 - 4 * utils.beta K r.m_1 r.m_2 * T = (1e-30 * evol.AU) ^ 4

end Legwork.Spec
