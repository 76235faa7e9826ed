import Verif.Lemmas.UnitsErrors
import Verif.Lemmas.UnitsEvol

/-!
# Units (C63, C77, C78, C79)

`Denotes v d x` says what a value with units means, `Returns r x u` that a call returned the physical value `x` (SI)
expressed in unit `u`, `SamePositive d v w` that `v` and `w` are the same positive physical value of dimension `d` in
perhaps different units. The SI functions on the right hand sides are the ones all other theorems are about.
-/

namespace Legwork.Props

open Real Legwork.units Legwork.Spec

variable {K : Consts}

/-! ## C63: the functions in utils.py -/

/-- Arguments of the right dimension, in any units, are accepted, and the result is the SI result in the documented
unit. -/
theorem C63_values {m₁ m₂ f a : Val} {x₁ x₂ y z : ℝ} (h₁ : Denotes m₁ massDim x₁) (h₂ : Denotes m₂ massDim x₂)
    (hf : Denotes f freqDim y) (ha : Denotes a lengthDim z) (p₁ : 0 < x₁) (p₂ : 0 < x₂) (py : 0 < y) (pz : 0 < z)
    (e : ℝ) :
    Returns (chirp_mass m₁ m₂) (utils.chirp_mass x₁ x₂) Msun ∧
    Returns (get_a_from_f_orb K f m₁ m₂) (utils.get_a_from_f_orb K y x₁ x₂) AU ∧
    Returns (get_f_orb_from_a K a m₁ m₂) (utils.get_f_orb_from_a K z x₁ x₂) Hz ∧
    Returns (beta K m₁ m₂) (utils.beta K x₁ x₂) (m ^ (4 : ℚ) / s) ∧
    Returns (c_0 a e) (utils.c_0 z e) AU ∧
    Returns (get_a_from_ecc e a) (utils.get_a_from_ecc e z) AU ∧
    ∀ n : ℤ, 1 ≤ n → Returns (fn_dot K m₁ f e n) (utils.fn_dot_val K x₁ y e n) (Hz / yr) :=
  ⟨returns_of (chirp_mass_eq h₁ h₂), returns_of (get_a_from_f_orb_eq hf h₁ h₂),
    returns_of (get_f_orb_from_a_eq ha h₁ h₂), returns_of (beta_eq h₁ h₂), returns_of (c_0_eq ha),
    returns_of (get_a_from_ecc_eq ha), fun _ hn => returns_of (fn_dot_eq hn h₁ hf)⟩

/-- The result does not depend on the units the arguments are given in. -/
theorem C63_same {m₁ m₂ f a m₁' m₂' f' a' : Val} (h₁ : SamePositive massDim m₁ m₁') (h₂ : SamePositive massDim m₂ m₂')
    (hf : SamePositive freqDim f f') (ha : SamePositive lengthDim a a') (e : ℝ) :
    chirp_mass m₁ m₂ = chirp_mass m₁' m₂' ∧
    get_a_from_f_orb K f m₁ m₂ = get_a_from_f_orb K f' m₁' m₂' ∧
    get_f_orb_from_a K a m₁ m₂ = get_f_orb_from_a K a' m₁' m₂' ∧
    beta K m₁ m₂ = beta K m₁' m₂' ∧
    c_0 a e = c_0 a' e ∧
    get_a_from_ecc e a = get_a_from_ecc e a' ∧
    ∀ n : ℤ, fn_dot K m₁ f e n = fn_dot K m₁' f' e n := by
  obtain ⟨x₁, p₁, d₁, d₁'⟩ := h₁
  obtain ⟨x₂, p₂, d₂, d₂'⟩ := h₂
  obtain ⟨y, py, df, df'⟩ := hf
  obtain ⟨z, pz, da, da'⟩ := ha
  obtain ⟨a1, a2, a3, a4, a5, a6, a7⟩ := C63_values (K := K) d₁ d₂ df da p₁ p₂ py pz e
  obtain ⟨b1, b2, b3, b4, b5, b6, b7⟩ := C63_values (K := K) d₁' d₂' df' da' p₁ p₂ py pz e
  refine ⟨returns_unique a1 b1, returns_unique a2 b2, returns_unique a3 b3, returns_unique a4 b4,
    returns_unique a5 b5, returns_unique a6 b6, fun n => ?_⟩
  by_cases hn : 1 ≤ n
  · exact returns_unique (a7 n hn) (b7 n hn)
  · unfold fn_dot
    rw [if_pos (by omega), if_pos (by omega)]

/-- Anything but two masses is a unit error. -/
theorem C63_masses_checked (m₁ m₂ : Quantity) :
    (chirp_mass (.qty m₁) (.qty m₂) = .error .UnitConversionError ↔
      ¬ (m₁.unit.dim = massDim ∧ m₂.unit.dim = massDim)) ∧
    (beta K (.qty m₁) (.qty m₂) = .error .UnitConversionError ↔
      ¬ (m₁.unit.dim = massDim ∧ m₂.unit.dim = massDim)) :=
  ⟨(chirp_mass_okIff m₁ m₂).2, (beta_okIff m₁ m₂).2⟩

/-- In the Kepler conversions anything but masses and a frequency (a length) is a unit error, as long as not all
arguments are wrong. -/
theorem C63_kepler_checked (f a m₁ m₂ : Quantity) :
    (f.unit.dim = freqDim ∨ m₁.unit.dim = massDim ∨ m₂.unit.dim = massDim →
      (get_a_from_f_orb K (.qty f) (.qty m₁) (.qty m₂) = .error .UnitConversionError ↔
        ¬ (f.unit.dim = freqDim ∧ m₁.unit.dim = massDim ∧ m₂.unit.dim = massDim))) ∧
    (a.unit.dim = lengthDim ∨ m₁.unit.dim = massDim ∨ m₂.unit.dim = massDim →
      (get_f_orb_from_a K (.qty a) (.qty m₁) (.qty m₂) = .error .UnitConversionError ↔
        ¬ (a.unit.dim = lengthDim ∧ m₁.unit.dim = massDim ∧ m₂.unit.dim = massDim))) := by
  constructor
  · intro h
    rw [(get_a_okIff f m₁ m₂).2, not_iff_not]
    generalize f.unit.dim = df at *
    generalize m₁.unit.dim = d₁ at *
    generalize m₂.unit.dim = d₂ at *
    obtain ⟨f1, f2, f3⟩ := df
    obtain ⟨a1, a2, a3⟩ := d₁
    obtain ⟨b1, b2, b3⟩ := d₂
    simp only [freqDim, massDim, lengthDim, Prod.mk.injEq, Prod.mk_add_mk, Prod.mk_sub_mk, Prod.smul_mk,
      smul_eq_mul] at *
    constructor
    · rintro ⟨⟨e1, e2, e3⟩, e4, e5, e6⟩
      rcases h with ⟨h1, h2, h3⟩ | ⟨h1, h2, h3⟩ | ⟨h1, h2, h3⟩ <;>
      refine ⟨⟨?_, ?_, ?_⟩, ⟨?_, ?_, ?_⟩, ?_, ?_, ?_⟩ <;> linarith
    · rintro ⟨⟨e1, e2, e3⟩, ⟨e4, e5, e6⟩, e7, e8, e9⟩
      refine ⟨⟨?_, ?_, ?_⟩, ?_, ?_, ?_⟩ <;> linarith
  · intro h
    rw [(get_f_okIff a m₁ m₂).2, not_iff_not]
    generalize a.unit.dim = df at *
    generalize m₁.unit.dim = d₁ at *
    generalize m₂.unit.dim = d₂ at *
    obtain ⟨f1, f2, f3⟩ := df
    obtain ⟨a1, a2, a3⟩ := d₁
    obtain ⟨b1, b2, b3⟩ := d₂
    simp only [freqDim, massDim, lengthDim, Prod.mk.injEq, Prod.mk_add_mk, Prod.mk_sub_mk, Prod.smul_mk,
      smul_eq_mul] at *
    constructor
    · rintro ⟨⟨e1, e2, e3⟩, e4, e5, e6⟩
      rcases h with ⟨h1, h2, h3⟩ | ⟨h1, h2, h3⟩ | ⟨h1, h2, h3⟩ <;>
      refine ⟨⟨?_, ?_, ?_⟩, ⟨?_, ?_, ?_⟩, ?_, ?_, ?_⟩ <;> linarith
    · rintro ⟨⟨e1, e2, e3⟩, ⟨e4, e5, e6⟩, e7, e8, e9⟩
      refine ⟨⟨?_, ?_, ?_⟩, ?_, ?_, ?_⟩ <;> linarith

/-- `c_0` and `get_a_from_ecc` accept a quantity exactly if it is a length; `fn_dot` a mass and a frequency, as long as
not both are wrong. -/
theorem C63_others_checked (a mc f : Quantity) (e : ℝ) (n : ℤ) (hn : 1 ≤ n) :
    (c_0 (.qty a) e = .error .UnitConversionError ↔ a.unit.dim ≠ lengthDim) ∧
    (get_a_from_ecc e (.qty a) = .error .UnitConversionError ↔ a.unit.dim ≠ lengthDim) ∧
    (mc.unit.dim = massDim ∨ f.unit.dim = freqDim →
      (fn_dot K (.qty mc) (.qty f) e n = .error .UnitConversionError ↔
        ¬ (mc.unit.dim = massDim ∧ f.unit.dim = freqDim))) := by
  refine ⟨(length_okIff a e).1.2, (length_okIff a e).2.2, fun h => ?_⟩
  rw [(fn_dot_okIff hn mc f e).2, not_iff_not]
  generalize f.unit.dim = df at *
  generalize mc.unit.dim = d₁ at *
  obtain ⟨f1, f2, f3⟩ := df
  obtain ⟨a1, a2, a3⟩ := d₁
  simp only [freqDim, massDim, freqRateDim, Prod.mk.injEq, Prod.mk_add_mk, Prod.mk_sub_mk, Prod.smul_mk,
    smul_eq_mul] at *
  constructor
  · rintro ⟨e1, e2, e3⟩
    rcases h with ⟨h1, h2, h3⟩ | ⟨h1, h2, h3⟩ <;>
    refine ⟨⟨?_, ?_, ?_⟩, ?_, ?_, ?_⟩ <;> linarith
  · rintro ⟨⟨e1, e2, e3⟩, e4, e5, e6⟩
    refine ⟨?_, ?_, ?_⟩ <;> linarith

/-- If all arguments are wrong the mistakes can cancel: a plain ratio instead of the frequency, together with masses
times squared times, is accepted. -/
theorem C63_wrong_together : ∃ f m₁ m₂ : Quantity, f.unit.dim ≠ freqDim ∧ m₁.unit.dim ≠ massDim ∧
    m₂.unit.dim ≠ massDim ∧ ∃ r, get_a_from_f_orb K (.qty f) (.qty m₁) (.qty m₂) = .ok r := by
  refine ⟨⟨1, one⟩, ⟨1, ⟨1, one_pos, (1, 0, 2)⟩⟩, ⟨1, ⟨1, one_pos, (1, 0, 2)⟩⟩, ?_, ?_, ?_, ?_⟩
  · simp [one, freqDim, Prod.ext_iff]
  · simp [massDim]
  · simp [massDim]
  · rw [(get_a_okIff _ _ _).1]
    norm_num [one, lengthDim, Prod.ext_iff]

/-- Plain numbers: three functions work on them and return plain numbers; the ones using constants of nature refuse. -/
theorem C63_plain (x₁ x₂ y e : ℝ) (n : ℤ) (hn : 1 ≤ n) :
    chirp_mass (.num x₁) (.num x₂) = .ok (.num (utils.chirp_mass x₁ x₂)) ∧
    c_0 (.num y) e = .ok (.num (utils.c_0 y e)) ∧
    get_a_from_ecc e (.num y) = .ok (.num (utils.get_a_from_ecc e y)) ∧
    get_a_from_f_orb K (.num y) (.num x₁) (.num x₂) = .error .UnitConversionError ∧
    get_f_orb_from_a K (.num y) (.num x₁) (.num x₂) = .error .UnitConversionError ∧
    beta K (.num x₁) (.num x₂) = .error .UnitConversionError ∧
    fn_dot K (.num x₁) (.num y) e n = .error .UnitConversionError := by
  refine ⟨?_, rfl, rfl, ?_, ?_, ?_, ?_⟩
  · show Except.ok (Val.num ((x₁ * x₂) ^ ((3 / 5 : ℚ) : ℝ) / (x₁ + x₂) ^ ((1 / 5 : ℚ) : ℝ))) = _
    norm_num [utils.chirp_mass]
  · show ((G K * .num (x₁ + x₂) / (.num (2 * π) * .num y) ^ (2 : ℚ)) ^ (1 / 3 : ℚ)).simplify AU = _
    refine (simplify_okIff ⟨_, rfl⟩).2.2 ?_
    show (1 / 3 : ℚ) • ((-1, 3, -2) : Dim) ≠ (0, 1, 0)
    norm_num [Prod.ext_iff]
  · show ((G K * .num (x₁ + x₂) / .num y ^ (3 : ℚ)) ^ (1 / 2 : ℚ) / .num (2 * π)).simplify Hz = _
    refine (simplify_okIff ⟨_, rfl⟩).2.2 ?_
    show (1 / 2 : ℚ) • ((-1, 3, -2) : Dim) ≠ (0, 0, -1)
    norm_num [Prod.ext_iff]
  · show (.num (64 / 5) * G K ^ (3 : ℚ) / c K ^ (5 : ℚ) * .num x₁ * .num x₂ * .num (x₁ + x₂)).simplify m4_s = _
    have hdim : m4_s.dim = betaDim := by
      show (4 : ℚ) • (0, 1, 0) - (0, 0, 1) = _
      dims
    refine (simplify_okIff ⟨_, rfl⟩).2.2 ?_
    rw [hdim]
    show (3 : ℚ) • ((-1, 3, -2) : Dim) - (5 : ℚ) • (0, 1, -1) ≠ (0, 4, -1)
    norm_num [Prod.ext_iff]
  · unfold fn_dot
    rw [if_neg (by omega)]
    refine (simplify_okIff (u := Hz / yr) ⟨_, rfl⟩).2.2 ?_
    have hdim : (Hz / yr).dim = freqRateDim := by
      show ((0, 0, -1) : Dim) - (0, 0, 1) = _
      dims
    rw [hdim]
    show (5 / 3 : ℚ) • ((-1, 3, -2) : Dim) - (5 : ℚ) • (0, 1, -1) ≠ (0, 0, -2)
    norm_num [Prod.ext_iff]

/-! ## C77: evolution -/

/-- Merger times: for every combination of arguments given (with units) or left out, the result is the SI result in
Gyr, or the same error. -/
theorem C77_merger_time {b m₁ m₂ a f : Option (Val × ℝ)} (hb : ∀ p ∈ b, Denotes p.1 betaDim p.2 ∧ 0 < p.2)
    (h₁ : ∀ p ∈ m₁, Denotes p.1 massDim p.2 ∧ 0 < p.2) (h₂ : ∀ p ∈ m₂, Denotes p.1 massDim p.2 ∧ 0 < p.2)
    (ha : ∀ p ∈ a, Denotes p.1 lengthDim p.2 ∧ 0 < p.2) (hf : ∀ p ∈ f, Denotes p.1 freqDim p.2 ∧ 0 < p.2)
    (e small large : ℝ) (exact : Bool) :
    (∀ t, evol.get_t_merge_ecc_scalar K e (a.map Prod.snd) (f.map Prod.snd) (b.map Prod.snd) (m₁.map Prod.snd)
        (m₂.map Prod.snd) small large exact = .ok t →
      Returns (get_t_merge_ecc K e (a.map Prod.fst) (f.map Prod.fst) (b.map Prod.fst) (m₁.map Prod.fst)
        (m₂.map Prod.fst) small large exact) t Gyr) ∧
    (∀ err, evol.get_t_merge_ecc_scalar K e (a.map Prod.snd) (f.map Prod.snd) (b.map Prod.snd) (m₁.map Prod.snd)
        (m₂.map Prod.snd) small large exact = .error err →
      get_t_merge_ecc K e (a.map Prod.fst) (f.map Prod.fst) (b.map Prod.fst) (m₁.map Prod.fst) (m₂.map Prod.fst)
        small large exact = .error err) := by
  rw [get_t_merge_ecc_eq (K := K) (fun p hp => (hb p hp).1) (fun p hp => (h₁ p hp).1) (fun p hp => (h₂ p hp).1)
    (fun p hp => (ha p hp).1) (fun p hp => (hf p hp).1) e small large exact]
  refine ⟨fun t h => ?_, fun err h => ?_⟩
  · rw [h]; exact returns_of rfl
  · rw [h]; rfl

/-- The circular merger time. -/
theorem C77_merger_time_circ {b m₁ m₂ a f : Option (Val × ℝ)} (hb : ∀ p ∈ b, Denotes p.1 betaDim p.2 ∧ 0 < p.2)
    (h₁ : ∀ p ∈ m₁, Denotes p.1 massDim p.2 ∧ 0 < p.2) (h₂ : ∀ p ∈ m₂, Denotes p.1 massDim p.2 ∧ 0 < p.2)
    (ha : ∀ p ∈ a, Denotes p.1 lengthDim p.2 ∧ 0 < p.2) (hf : ∀ p ∈ f, Denotes p.1 freqDim p.2 ∧ 0 < p.2) :
    let one : Option (Val × ℝ) → Option (Unit → ℝ) := fun o => (o.map Prod.snd).map fun x _ => x
    (∀ t, evol.get_t_merge_circ K (one b) (one m₁) (one m₂) (one a) (one f) = .ok t →
      Returns (get_t_merge_circ K (b.map Prod.fst) (m₁.map Prod.fst) (m₂.map Prod.fst) (a.map Prod.fst)
        (f.map Prod.fst)) (t ()) Gyr) ∧
    (∀ err, evol.get_t_merge_circ K (one b) (one m₁) (one m₂) (one a) (one f) = .error err →
      get_t_merge_circ K (b.map Prod.fst) (m₁.map Prod.fst) (m₂.map Prod.fst) (a.map Prod.fst) (f.map Prod.fst) =
        .error err) := by
  intro one
  rw [get_t_merge_circ_eq (K := K) (fun p hp => (hb p hp).1) (fun p hp => (h₁ p hp).1) (fun p hp => (h₂ p hp).1)
    (fun p hp => (ha p hp).1) (fun p hp => (hf p hp).1)]
  refine ⟨fun t h => ?_, fun err h => ?_⟩
  · exact returns_of (congrArg (Except.map fun t : Unit → ℝ => express Gyr (t ())) h)
  · exact congrArg (Except.map fun t : Unit → ℝ => express Gyr (t ())) h

/-- The evolved frequency of a circular binary comes in the unit of `merge_f`. -/
theorem C77_frequency {f_orb m_c t : Val} {f x τ : ℝ} (hf : Denotes f_orb freqDim f) (hm : Denotes m_c massDim x)
    (ht : Denotes t timeDim τ) (e : ℝ) {merge : Quantity} {μ : ℝ} (hμ : Denotes (.qty merge) freqDim μ) (f0 : 0 < f)
    (x0 : 0 < x) (r : ℝ) (hr : evol.evolve_f_orb_circ K f x τ e μ = r) :
    Returns (evolve_f_orb_circ K f_orb m_c t e merge) r merge.unit := by
  have h0 : evol.inner_part K f x τ e ≠ 0 := by
    intro h0
    have : evol.evolve_f_orb_circ K f x τ e μ = ⊤ := by
      unfold evol.evolve_f_orb_circ
      simp [h0]
    rw [this] at hr
    exact absurd hr.symm (WithTop.coe_ne_top)
  obtain ⟨r', hr', h⟩ := evolve_eq (K := K) hf hm ht e hμ f0 x0 h0
  rw [hr] at hr'
  rw [WithTop.coe_injective hr']
  exact returns_of h

open Classical in
/-- Whether a binary counts as stationary does not depend on units (leaving out binaries which merge exactly when the
time considered ends). -/
theorem C77_stationary {f_orb t : Val} {m₁ m₂ mc : Option (Val × ℝ)} {f τ : ℝ} (hf : Denotes f_orb freqDim f)
    (h₁ : ∀ p ∈ m₁, Denotes p.1 massDim p.2 ∧ 0 < p.2) (h₂ : ∀ p ∈ m₂, Denotes p.1 massDim p.2 ∧ 0 < p.2)
    (hc : ∀ p ∈ mc, Denotes p.1 massDim p.2 ∧ 0 < p.2) (ht : Denotes t timeDim τ) (e tol : ℝ) (f0 : 0 < f)
    (h0 : ∀ p ∈ mc, evol.inner_part K f p.2 τ e ≠ 0)
    (h0' : ∀ p ∈ m₁, ∀ q ∈ m₂, mc = none → evol.inner_part K f (utils.chirp_mass p.2 q.2) τ e ≠ 0) :
    let one : Option (Val × ℝ) → Option (Unit → ℝ) := fun o => (o.map Prod.snd).map fun x _ => x
    (∀ b, evol.determine_stationarity K (fun _ : Unit => f) τ (fun _ => e) (one m₁) (one m₂) (one mc) tol = .ok b →
      ∃ r, determine_stationarity K f_orb t e (m₁.map Prod.fst) (m₂.map Prod.fst) (mc.map Prod.fst) tol = .ok r ∧
        (r = true ↔ b ())) ∧
    (∀ err, evol.determine_stationarity K (fun _ : Unit => f) τ (fun _ => e) (one m₁) (one m₂) (one mc) tol =
        .error err →
      determine_stationarity K f_orb t e (m₁.map Prod.fst) (m₂.map Prod.fst) (mc.map Prod.fst) tol = .error err) := by
  intro one
  rw [stationarity_eq (K := K) hf h₁ h₂ hc ht e tol f0 h0 h0']
  refine ⟨fun b h => ⟨decide (b ()), ?_, decide_eq_true_iff⟩, fun err h => ?_⟩
  · exact congrArg (Except.map fun b : Unit → Prop => decide (b ())) h
  · exact congrArg (Except.map fun b : Unit → Prop => decide (b ())) h

/-! ## C78: strains -/

/-- For a mass, a distance and a frequency in any units the strains are the SI ones. -/
theorem C78_values (ig : Option (ℤ → ℝ → ℝ)) {m_c dist f_orb : Val} {x δ f : ℝ} (hm : Denotes m_c massDim x)
    (hd : Denotes dist lengthDim δ) (hf : Denotes f_orb freqDim f) (x0 : 0 < x) (f0 : 0 < f) (e : ℝ) (n : ℤ) :
    units.h_0 K ig m_c dist f_orb e n = .ok (strain.h_0_val K ig x δ f e n) ∧
    units.h_c K ig m_c dist f_orb e n = .ok (strain.h_c_val K ig x δ f e n) :=
  ⟨h_0_eq hm hd hf, h_c_eq hm hd hf⟩

/-- Dimensions are never checked: whatever is given, a number comes out. -/
theorem C78_never_refused (ig : Option (ℤ → ℝ → ℝ)) (m_c dist f_orb : Val) (e : ℝ) (n : ℤ) :
    (∃ h, units.h_0 K ig m_c dist f_orb e n = .ok h) ∧ ∃ h, units.h_c K ig m_c dist f_orb e n = .ok h := by
  have key : ∀ v : Val, (∃ q, v = .qty q) → ∃ h, v.decompose_value = .ok h := by
    rintro v ⟨q, rfl⟩; exact ⟨_, rfl⟩
  exact ⟨key _ (qty_mul_left (qty_div_left (qty_mul_left (qty_mul_left (qty_div_left (qty_mul_right
      (qty_pow qty_G))))))),
    key _ (qty_mul_left (qty_div_left (qty_mul_left (qty_div_left (qty_mul_left (qty_div_left (qty_mul_right
      (qty_pow qty_G))))))))⟩

/-- A time of `δ` seconds given as the distance is taken for `δ` metres. -/
theorem C78_time_as_distance (ig : Option (ℤ → ℝ → ℝ)) {m_c dist f_orb : Val} {x δ f : ℝ}
    (hm : Denotes m_c massDim x) (hd : Denotes dist timeDim δ) (hf : Denotes f_orb freqDim f) (x0 : 0 < x)
    (f0 : 0 < f) (e : ℝ) (n : ℤ) :
    units.h_0 K ig m_c dist f_orb e n = units.h_0 K ig m_c (.qty ⟨δ, m⟩) f_orb e n := by
  have : Denotes (.qty ⟨δ, m⟩) lengthDim δ := ⟨rfl, mul_one _⟩
  rw [h_0_eq hm hd hf, h_0_eq hm this hf]

/-! ## C79: noise -/

/-- LISA's noise for a built-in confusion noise model does not depend on units. -/
theorem C79_lisa (env : psd.Env) (approx : Bool) (name : Option String) {f t L : Val} {y τ l : ℝ}
    (hf : Denotes f freqDim y) (ht : Denotes t timeDim τ) (hL : Denotes L lengthDim l) :
    units.lisa_psd K env f t L approx (.model name) =
      psd.lisa_psd K env y (.val τ) l approx (match name with | none => .none | some s => .name s) := by
  rw [lisa_eq env approx _ hf ht hL]
  cases name <;> rfl

/-- DECIGO's noise for a built-in confusion noise model does not depend on units. -/
theorem C79_decigo (name : Option String) {f t low high : Val} {y τ lo hi : ℝ} (hf : Denotes f freqDim y)
    (ht : Denotes t timeDim τ) (hl : Denotes low freqDim lo) (hh : Denotes high freqDim hi) :
    units.decigo_psd f t (.model name) low high =
      psd.decigo_psd y (.val τ) (match name with | none => .none | some s => .name s) lo hi := by
  rw [decigo_eq _ hf ht hl hh]
  cases name <;> rfl

/-- TianQin's noise for a built-in confusion noise model does not depend on units. -/
theorem C79_tianqin (name : Option String) {f t L : Val} {y τ l : ℝ} (hf : Denotes f freqDim y)
    (ht : Denotes t timeDim τ) (hL : Denotes L lengthDim l) :
    (∀ r : ℝ, psd.tianqin_psd K y l (.val τ) (match name with | none => .none | some s => .name s) = .ok r →
      Returns (units.tianqin_psd K f L t (.model name)) r (Hz ^ (-1 : ℚ))) ∧
    (∀ err, psd.tianqin_psd K y l (.val τ) (match name with | none => .none | some s => .name s) = .error err →
      units.tianqin_psd K f L t (.model name) = .error err) := by
  have hs : (Hz ^ (-1 : ℚ)).scale = 1 := Real.one_rpow _
  have hn : (match name with | none => .none | some s => .name s) = named name := by cases name <;> rfl
  rw [hn]
  rcases tianqin_eq (K := K) name hf ht hL with ⟨r, h, h'⟩ | ⟨err, h, h'⟩
  · refine ⟨fun r' hr => ?_, fun err he => ?_⟩
    · rw [h] at hr
      have : r = r' := by
        have := Except.ok.inj hr
        exact WithTop.coe_injective this
      subst this
      exact ⟨_, h', rfl, by rw [hs, mul_one]⟩
    · rw [h] at he; cases he
  · refine ⟨fun r' hr => ?_, fun err he => ?_⟩
    · rw [h] at hr; cases hr
    · rw [h] at he
      cases he
      exact h'

/-- TianQin converts the result of a user supplied noise function: the same noise in other units gives the same
density. -/
theorem C79_tianqin_converts (noise noise' : Val → Val → Except PyErr Val) {f t L v v' : Val} {y l x : ℝ}
    (hf : Denotes f freqDim y) (hL : Denotes L lengthDim l) (hn : noise f t = .ok v) (hn' : noise' f t = .ok v')
    (hv : Denotes v timeDim x) (hv' : Denotes v' timeDim x) :
    units.tianqin_psd K f L t (.fn noise) = units.tianqin_psd K f L t (.fn noise') ∧
      ∃ r, units.tianqin_psd K f L t (.fn noise) = .ok r := by
  rw [tianqin_fn_eq noise hn hv hf hL, tianqin_fn_eq noise' hn' hv' hf hL]
  exact ⟨rfl, _, rfl⟩

/-- LISA and DECIGO do not: they take the number out of whatever is returned. A noise function returning the same noise
expressed in years instead of 1/Hz changes both densities. -/
theorem C79_number_taken (env : psd.Env) {f t L low high : Val} {y τ l lo hi : ℝ} (hf : Denotes f freqDim y)
    (ht : Denotes t timeDim τ) (hL : Denotes L lengthDim l) (hl : Denotes low freqDim lo)
    (hh : Denotes high freqDim hi) (h1 : 1e-7 ≤ y) (h2 : y ≤ 2) (h3 : lo ≤ y) (h4 : y ≤ hi) :
    ∃ v v' : Val, Denotes v timeDim 1 ∧ Denotes v' timeDim 1 ∧
      units.lisa_psd K env f t L true (.fn fun _ _ => .ok v) ≠ units.lisa_psd K env f t L true (.fn fun _ _ => .ok v') ∧
      units.decigo_psd f t (.fn fun _ _ => .ok v) low high ≠
        units.decigo_psd f t (.fn fun _ _ => .ok v') low high := by
  refine ⟨.qty ⟨1, s⟩, .qty ⟨1 / yr.scale, yr⟩, ⟨rfl, mul_one _⟩, denotes_qty 1 yr, ?_, ?_⟩
  · rw [lisa_eq env true _ hf ht hL, lisa_eq env true _ hf ht hL]
    intro h
    unfold psd.lisa_psd at h
    have c1 : y ≥ 1e-7 ∧ y ≤ 2e0 := ⟨h1, by norm_num; exact h2⟩
    simp only [if_pos c1] at h
    have h : ((_ : ℝ) : WithTop ℝ) = ((_ : ℝ) : WithTop ℝ) := Except.ok.inj h
    have h := add_left_cancel (WithTop.coe_injective h)
    norm_num [yr] at h
  · rw [decigo_eq _ hf ht hl hh, decigo_eq _ hf ht hl hh]
    intro h
    unfold psd.decigo_psd at h
    have c1 : y ≥ lo ∧ y ≤ hi := ⟨h3, h4⟩
    simp only [if_pos c1] at h
    have h : ((_ : ℝ) : WithTop ℝ) = ((_ : ℝ) : WithTop ℝ) := Except.ok.inj h
    have h := add_left_cancel (WithTop.coe_injective h)
    norm_num [yr] at h

/-! ## The hypotheses are met -/

/-- One solar mass in kg and in solar masses, 1 mHz in Hz and in 1/yr, 1 AU in km. -/
example : SamePositive massDim (.qty ⟨1, Msun⟩) (.qty ⟨1.988409870698051e30, kg⟩) ∧
    SamePositive freqDim (.qty ⟨1e-3, Hz⟩) (.qty ⟨31557.6, one / yr⟩) ∧
    SamePositive lengthDim (.qty ⟨1, AU⟩) (.qty ⟨149597870.7, km⟩) := by
  refine ⟨⟨1.988409870698051e30, by norm_num, ⟨rfl, by norm_num [Msun]⟩, ⟨rfl, by norm_num [kg]⟩⟩,
    ⟨1e-3, by norm_num, ⟨rfl, by norm_num [Hz]⟩, ⟨?_, ?_⟩⟩,
    ⟨149597870700, by norm_num, ⟨rfl, by norm_num [AU]⟩, ⟨rfl, by norm_num [km]⟩⟩⟩
  · show (0 : Dim) - (0, 0, 1) = _
    dims
  · show 31557.6 * (1 / 31557600) = (1e-3 : ℝ)
    norm_num

/-- Masses and a separation given, everything else left out. -/
example : (∀ p ∈ (none : Option (Val × ℝ)), Denotes p.1 betaDim p.2 ∧ 0 < p.2) ∧
    (∀ p ∈ some ((.qty ⟨2, kg⟩ : Val), (2 : ℝ)), Denotes p.1 massDim p.2 ∧ 0 < p.2) ∧
    (∀ p ∈ some ((.qty ⟨3, km⟩ : Val), (3000 : ℝ)), Denotes p.1 lengthDim p.2 ∧ 0 < p.2) := by
  refine ⟨fun p h => (by cases h), fun p h => ?_, fun p h => ?_⟩ <;> cases h
  · exact ⟨⟨rfl, by norm_num [kg]⟩, by norm_num⟩
  · exact ⟨⟨rfl, by norm_num [km]⟩, by norm_num⟩

/-- A binary which has merged long before the end: `inner_part` is not 0. -/
example : ∃ f x τ e : ℝ, 0 < f ∧ 0 < x ∧ evol.inner_part Consts.codata2018 f x τ e ≠ 0 := by
  refine ⟨1, 1, 0, 0, one_pos, one_pos, ?_⟩
  simp [evol.inner_part]

/-- A distance given as a time. -/
example : Denotes (.qty ⟨8, yr⟩) timeDim (8 * 31557600) := ⟨rfl, rfl⟩

end Legwork.Props
