import Verif.Spec.Masks

/-!
# Vocabulary: the SNR of one source
-/

namespace Legwork.Spec

open Legwork.source

/-- How many harmonics are summed for an eccentric source that needs `need` of them. -/
def HarmonicLimit (need : ℤ) (H : ℕ) : Prop :=
  (1 < need ∧ need ≤ 10 ∧ H = 10) ∨ (10 < need ∧ need ≤ 100 ∧ H = 100) ∨ (100 < need ∧ need ≤ 1000 ∧ H = 1000) ∨
    (1000 < need ∧ need ≤ 10000 ∧ H = 10000)

/-- `v` and `harm` are what the functions of `snr.py` return for this stationary source alone: the circular function up
to the tolerance, with harmonic 2, the eccentric one above. Needing fewer than 2 or more than 10000 harmonics gives 0. -/
def StationarySnr (C : snr.Ctx) (ecc_tol : ℝ) (harmonics_required : ℝ → ℤ) (r : One) (v : Option ℝ) (harm : ℕ) : Prop :=
  (r.ecc ≤ ecc_tol → snr.snr_circ_stationary C [r.circ] = .ok [v] ∧ harm = 2) ∧
  (ecc_tol < r.ecc →
    (∀ H, HarmonicLimit (harmonics_required r.ecc) H →
      snr.snr_ecc_stationary C [r.eccentric] H true false = .ok (.withMax [v] [harm])) ∧
    ((¬ ∃ H, HarmonicLimit (harmonics_required r.ecc) H) → v = some 0 ∧ harm = 2))

/-- The same for an evolving source; a circular one merges at its stored merger time if there is one. -/
def EvolvingSnr (C : snr.Ctx) (odeint : evol.Odeint) (n_step : ℕ) (ecc_tol : ℝ) (harmonics_required : ℝ → ℤ) (r : One)
    (v : Option ℝ) (harm : ℕ) : Prop :=
  (r.ecc ≤ ecc_tol →
    snr.snr_circ_evolving C [r.evolvingCirc] n_step (r.t_merge.map fun t => [t]) = .ok [v] ∧ harm = 2) ∧
  (ecc_tol < r.ecc →
    (∀ H, HarmonicLimit (harmonics_required r.ecc) H →
      snr.snr_ecc_evolving C odeint [r.evolving] H n_step none 1 [] true false = .ok (.withMax [v] [harm])) ∧
    ((¬ ∃ H, HarmonicLimit (harmonics_required r.ecc) H) → v = some 0 ∧ harm = 2))

/-- The arguments for the functions of `snr.py` are those in the `sc_params` of the source, with its interpolated
functions. -/
def CallCtx (W : World) (h : Heap) (s : ℕ) (C : snr.Ctx) : Prop :=
  ∃ p i cp L aR cn kw T, (h.src s).sc_params = some p ∧
    (h.par p).dict.get? "instrument" = some i ∧ (h.par p).dict.get? "custom_psd" = some cp ∧
    (h.par p).dict.get? "L" = some L ∧ (h.par p).dict.get? "approximate_R" = some aR ∧
    (h.par p).dict.get? "confusion_noise" = some cn ∧ asKw W i cp L aR cn = .ok kw ∧
    (h.par p).dict.get? "t_obs" = some (.time T) ∧ C = ⟨W.K, W.env, kw, (h.src s).g, (h.src s).sc, T⟩

/-- The pool of workers returns a result for every source. -/
def CompleteSchedule (W : World) (x : Src) : Prop := x.n_proc > 1 → ∀ m, ∀ i < m, i ∈ W.schedule m

/-- `which_sources` selects source number `i`; without it every source is selected. -/
def Chosen (ws : Option (List Bool)) (i : ℕ) : Prop := ∀ m, ws = some m → m[i]? = some true

/-- `v` is the SNR of the source `r` and `harm` its strongest harmonic, as a stationary or an evolving source according
to the observation time and tolerance of `sources`. -/
def SnrFor (W : World) (h : Heap) (s n_step : ℕ) (r : One) (v : Option ℝ) (harm : ℕ) : Prop :=
  ∃ C tol q, CallCtx W h s C ∧ (h.src s).ecc_tol = some tol ∧ (h.src s).harmonics_required = some q ∧
    (r.StationaryOver W.K C.t_obs (h.src s).stat_tol → StationarySnr C tol q r v harm) ∧
    (¬ r.StationaryOver W.K C.t_obs (h.src s).stat_tol → EvolvingSnr C W.odeint n_step tol q r v harm)

/-- The value an argument left out has in the parameters `d`, or the argument given. -/
def Given (d : Dict) (key : String) (x v : PVal) : Prop := (x ≠ .none ∧ v = x) ∨ (x = .none ∧ d.get? key = some v)

/-- The parameters `d'` after a call with arguments `a` when they were `d` before: those given are stored, the others
stay. The observation time `"auto"` may have been replaced by the time it means for the instrument. -/
def StoredArgs (d : Dict) (a : SnrArgs) (d' : Dict) : Prop :=
  (∃ v, Given d "instrument" a.instrument v ∧ d'.get? "instrument" = some v) ∧
  (∃ v, Given d "custom_psd" a.custom_psd v ∧ d'.get? "custom_psd" = some v) ∧
  (∃ v, Given d "L" a.L v ∧ d'.get? "L" = some v) ∧
  (∃ v, Given d "approximate_R" a.approximate_R v ∧ d'.get? "approximate_R" = some v) ∧
  (∃ v, Given d "confusion_noise" a.confusion_noise v ∧ d'.get? "confusion_noise" = some v) ∧
  ∃ v, Given d "t_obs" a.t_obs v ∧ (d'.get? "t_obs" = some v ∨ v = .str "auto" ∧
    ((d'.get? "instrument" = some (.str "LISA") ∧ d'.get? "t_obs" = some (.time (4 * psd.yr))) ∨
     (d'.get? "instrument" ≠ some (.str "LISA") ∧ d'.get? "t_obs" = some (.time (5 * psd.yr)))))

/-- The array `snr` of the source object, zeros if there is none yet. -/
def storedSnr (h : Heap) (s : ℕ) : List (Option ℝ) :=
  match (h.src s).snr with
  | some r => h.snrs r
  | none => List.replicate (h.src s).cols.n_sources (some 0)

/-- The array `max_snr_harmonic` of the source object, zeros if there is none yet. -/
def storedHarm (h : Heap) (s : ℕ) : List ℕ :=
  match (h.src s).max_snr_harmonic with
  | some r => h.harms r
  | none => List.replicate (h.src s).cols.n_sources 0

end Legwork.Spec
