import Verif.Lemmas.FloatUtils
import Verif.Model.Evol
import Verif.Py.Units

/-!
# C88: the formulas in floating point are right up to rounding

`A : fl.Arith` is any implementation of binary64 arithmetic that rounds to nearest, with a `pow` accurate to four units
in the last place (`Verif.Py.Float`). The definitions in `fl` are the formulas of the code with every operation rounded
(`Verif.Model.Float`); those in `utils` and `evol` are the same formulas in exact arithmetic. Nothing is assumed about
results beyond 2^1000, so none of the intermediate results can overflow. `WithinUlps N x y`: the relative error of `x` is
at most `N * 2^-52`.
-/

namespace Legwork.Props

open Real Legwork.Spec Legwork.fl

local notation "KK" => Consts.codata2018

/-- The chirp mass, for masses between 1e-40 and 1e40 in any unit. -/
theorem C88_chirp_mass (A : Arith) {k κ m_1 m_2 : ℝ} (h1 : Sensible m_1) (h2 : Sensible m_2) (hk : Conversion k κ) :
    WithinUlps 100 (fl.chirp_mass A k m_1 m_2) (utils.chirp_mass m_1 m_2 * κ) :=
  (ulp_chirp_mass h1 h2 (ulp_conversion hk)).within (by norm_num) (by norm_num)

/-- Kepler's law, in both directions. -/
theorem C88_kepler (A : Arith) {k κ x m_1 m_2 : ℝ} (hx : Sensible x) (h1 : Sensible m_1) (h2 : Sensible m_2)
    (hk : Conversion k κ) :
    WithinUlps 80 (fl.get_a_from_f_orb A KK k x m_1 m_2) (utils.get_a_from_f_orb KK x m_1 m_2 * κ) ∧
    WithinUlps 25 (fl.get_f_orb_from_a A KK k x m_1 m_2) (utils.get_f_orb_from_a KK x m_1 m_2 * κ) :=
  ⟨(ulp_get_a_from_f_orb hx h1 h2 (ulp_conversion hk)).within (by norm_num) (by norm_num),
    (ulp_get_f_orb_from_a hx h1 h2 (ulp_conversion hk)).within (by norm_num) (by norm_num)⟩

/-- The constant of the orbital decay. -/
theorem C88_beta (A : Arith) {k κ m_1 m_2 : ℝ} (h1 : Sensible m_1) (h2 : Sensible m_2) (hk : Conversion k κ) :
    WithinUlps 33 (fl.beta A KK k m_1 m_2) (utils.beta KK m_1 m_2 * κ) :=
  (ulp_beta h1 h2 (ulp_conversion hk)).within (by norm_num) (by norm_num)

theorem w_le {e : ℝ} (h0 : 0 ≤ e) (h1 : e ≤ 1 - 1 / 2 ^ 35) : 1 / (1 - e ^ 2) ≤ 2 ^ 35 := by
  have hw : 1 / 2 ^ 35 ≤ 1 - e ^ 2 := by nlinarith
  have hw0 : 0 < 1 - e ^ 2 := lt_of_lt_of_le (by norm_num) hw
  rw [div_le_iff₀ hw0]
  have := mul_le_mul_of_nonneg_left hw (by norm_num : (0 : ℝ) ≤ 2 ^ 35)
  norm_num at this ⊢; linarith

/-- The enhancement factor. Its error grows as the eccentricity approaches one, because `1 - e**2` cancels. -/
theorem C88_peters_f (A : Arith) {e : ℝ} (h0 : 0 ≤ e) (h1 : e ≤ 1 - 1 / 2 ^ 35) :
    WithinUlps (83 + 22 / (1 - e ^ 2)) (fl.peters_f A e) (utils.peters_f e) := by
  have hw := w_le h0 h1
  have hp : 0 < 1 / (1 - e ^ 2) := by
    have : 0 < 1 - e ^ 2 := by nlinarith
    positivity
  rw [div_eq_mul_one_div 22]
  have h := ulp_peters_f (A := A) h0 h1
  generalize 1 / (1 - e ^ 2) = w at *
  norm_num at hw
  exact h.within' (by norm_num; linarith) (by linarith)

/-- The relation between separation and eccentricity, in both directions. -/
theorem C88_separation_and_eccentricity (A : Arith) {k κ x e : ℝ} (hx : Sensible x) (h0 : 1 / 10 ^ 40 ≤ e)
    (h1 : e ≤ 1 - 1 / 2 ^ 35) (hk : Conversion k κ) :
    WithinUlps (61 + 7 / (1 - e ^ 2)) (fl.c_0 A k x e) (utils.c_0 x e * κ) ∧
    WithinUlps (61 + 7 / (1 - e ^ 2)) (fl.get_a_from_ecc A k e x) (utils.get_a_from_ecc e x * κ) := by
  have he0 : 0 ≤ e := le_trans (by norm_num) h0
  have hw := w_le he0 h1
  have hp : 0 < 1 / (1 - e ^ 2) := by
    have : 0 < 1 - e ^ 2 := by nlinarith
    positivity
  have h := ulp_c_0 (A := A) hx h0 h1 (ulp_conversion hk)
  have h' := ulp_get_a_from_ecc (A := A) hx h0 h1 (ulp_conversion hk)
  rw [div_eq_mul_one_div 7]
  generalize 1 / (1 - e ^ 2) = w at *
  norm_num at hw
  exact ⟨h.within' (by norm_num; linarith) (by linarith), h'.within' (by norm_num; linarith) (by linarith)⟩

/-- The rate of change of the frequency of a harmonic. The range of the frequency is narrower here, since its power of
11/3 is taken. -/
theorem C88_fn_dot (A : Arith) {k κ m_c f e : ℝ} {n : ℤ} (hm : Sensible m_c) (hf : 1 / 10 ^ 12 ≤ f ∧ f ≤ 10 ^ 12)
    (hn : 1 ≤ n ∧ n ≤ 10000) (h0 : 0 ≤ e) (h1 : e ≤ 1 - 1 / 2 ^ 35) (hk : WithinUlps 4 k κ)
    (hκ : 1 / 10 ^ 65 ≤ κ ∧ κ ≤ 10 ^ 65) :
    WithinUlps (314 + 22 / (1 - e ^ 2)) (fl.fn_dot A KK k m_c f e n) (utils.fn_dot_val KK m_c f e n * κ) := by
  have hw := w_le h0 h1
  have hp : 0 < 1 / (1 - e ^ 2) := by
    have : 0 < 1 - e ^ 2 := by nlinarith
    positivity
  have hu := Ulp.of_ten 65 hκ.1 hκ.2
  have hk' : Ulp 150 5 k κ := Ulp.of_within hu.pos (hu.mag.trans (by norm_num)) hk (by norm_num) (by norm_num)
  have h := ulp_fn_dot (A := A) hm hf.1 hf.2 hn.1 hn.2 h0 h1 hk'
  rw [div_eq_mul_one_div 22]
  generalize 1 / (1 - e ^ 2) = w at *
  norm_num at hw
  exact h.within' (by norm_num; linarith) (by linarith)

theorem kepler_scaled {f M κ : ℝ} (K : Consts) (hf : 0 < f) (m_1 m_2 : ℝ) (hM : M = m_1 + m_2) (hM0 : 0 < M) (hκ : 0 < κ) :
    utils.get_f_orb_from_a K (utils.get_a_from_f_orb K f m_1 m_2 * κ) m_1 m_2 * κ ^ (3 / 2 : ℝ) = f := by
  unfold utils.get_f_orb_from_a utils.get_a_from_f_orb
  rw [← hM]
  have hG := K.G_pos
  have hpi := pi_pos
  have hX : 0 < K.G * M / (2 * π * f) ^ 2 := by positivity
  have h3 : ((K.G * M / (2 * π * f) ^ 2) ^ (1 / 3 : ℝ) * κ) ^ 3 = K.G * M / (2 * π * f) ^ 2 * κ ^ 3 := by
    rw [mul_pow, ← rpow_natCast ((K.G * M / (2 * π * f) ^ 2) ^ (1 / 3 : ℝ)) 3, ← rpow_mul hX.le]
    norm_num
  have h4 : K.G * M / (K.G * M / (2 * π * f) ^ 2 * κ ^ 3) = (2 * π * f / κ ^ (3 / 2 : ℝ)) ^ (2 : ℝ) := by
    have h5 : (κ ^ (3 / 2 : ℝ)) ^ (2 : ℝ) = κ ^ 3 := by
      rw [← rpow_mul hκ.le, ← rpow_natCast]; norm_num
    rw [div_rpow (by positivity) (by positivity), h5, rpow_two]
    field_simp
  rw [h3, h4, ← rpow_mul (by positivity), show (2 * 0.5 : ℝ) = 1 by norm_num, rpow_one]
  have : κ ^ (3 / 2 : ℝ) ≠ 0 := (rpow_pos_of_pos hκ _).ne'
  field_simp

/-- Converting a frequency to a separation (in a unit `κ` times finer than that of the formula) and back gives the
frequency. -/
theorem C88_round_trip (A : Arith) {k k' κ f m_1 m_2 : ℝ} (hf : Sensible f) (h1 : Sensible m_1) (h2 : Sensible m_2)
    (hk : Conversion k κ) (hk' : Conversion k' (κ ^ (3 / 2 : ℝ)))
    (ha : Sensible (utils.get_a_from_f_orb KK f m_1 m_2 * κ)) :
    WithinUlps 140 (fl.get_f_orb_from_a A KK k' (fl.get_a_from_f_orb A KK k f m_1 m_2) m_1 m_2) f := by
  have p := (ulp_get_a_from_f_orb (A := A) hf h1 h2 (ulp_conversion hk)).remag
    ((ulp_sensible ha).mag.trans (by norm_num : _ ≤ (93 : ℝ)))
  have q := ulp_get_f_orb_from_a' (A := A) p (by norm_num) h1 h2 (ulp_conversion hk')
  rw [kepler_scaled KK (ulp_sensible hf).pos m_1 m_2 rfl (add_pos (ulp_sensible h1).pos (ulp_sensible h2).pos)
    (ulp_conversion hk).pos] at q
  exact q.within (by norm_num) (by norm_num)

theorem log_ten_pow {x : ℝ} (n : ℕ) (h1 : 1 / 10 ^ n ≤ x) (h2 : x ≤ 10 ^ n) : |log x| ≤ n * (23026 / 10000) :=
  (Ulp.of_ten n h1 h2).mag

/-- The merger time of a circular binary in Gyr, from masses in solar masses and the orbital frequency in Hz: the four
conversions and three formulas together lose less than 1e-13 of accuracy. -/
theorem C88_merger_time (A : Arith) {k₁ k₂ k₃ f m_1 m_2 : ℝ} (hf : 1 / 10 ^ 12 ≤ f ∧ f ≤ 10 ^ 4)
    (h1 : 1 / 10 ^ 10 ≤ m_1 ∧ m_1 ≤ 10 ^ 10) (h2 : 1 / 10 ^ 10 ≤ m_2 ∧ m_2 ≤ 10 ^ 10)
    (hk₁ : WithinUlps 4 k₁ (units.Msun.scale ^ 3))
    (hk₂ : WithinUlps 4 k₂ (units.Msun.scale ^ (1 / 3 : ℝ) / units.AU.scale))
    (hk₃ : WithinUlps 4 k₃ (units.AU.scale ^ 4 / units.Gyr.scale)) (t : Unit → ℝ)
    (ht : evol.get_t_merge_circ KK none (some fun _ => m_1 * units.Msun.scale) (some fun _ => m_2 * units.Msun.scale) none
      (some fun _ => f) = .ok t) :
    WithinUlps 360 (fl.get_t_merge_circ A k₃ (fl.beta A KK k₁ m_1 m_2) (fl.get_a_from_f_orb A KK k₂ f m_1 m_2))
      (t () / units.Gyr.scale) := by
  have hM : units.Msun.scale = 1.988409870698051e30 := rfl
  have hAU : units.AU.scale = 149597870700 := rfl
  have hGyr : units.Gyr.scale = 31557600e9 := rfl
  obtain ⟨hf1, hf2⟩ := hf
  have hf0 : 0 < f := lt_of_lt_of_le (by norm_num) hf1
  have hm1 : 0 < m_1 := lt_of_lt_of_le (by norm_num) h1.1
  have hm2 : 0 < m_2 := lt_of_lt_of_le (by norm_num) h2.1
  have hMp : 0 < units.Msun.scale := units.Msun.pos
  have hGp : 0 < (KK).G := (KK).G_pos
  have sf : Sensible f := ⟨le_trans (by norm_num) hf1, hf2.trans (by norm_num)⟩
  have s1 : Sensible m_1 := ⟨le_trans (by norm_num) h1.1, h1.2.trans (by norm_num)⟩
  have s2 : Sensible m_2 := ⟨le_trans (by norm_num) h2.1, h2.2.trans (by norm_num)⟩
  have hcube : (units.Msun.scale ^ (1 / 3 : ℝ)) ^ 3 = units.Msun.scale := by
    rw [← rpow_natCast, ← rpow_mul hMp.le]; norm_num
  have hroot : 1 ≤ units.Msun.scale ^ (1 / 3 : ℝ) := by
    apply one_le_rpow _ (by norm_num); rw [hM]; norm_num
  have hroot' : units.Msun.scale ^ (1 / 3 : ℝ) ≤ units.Msun.scale := by
    calc _ ≤ units.Msun.scale ^ (1 : ℝ) := rpow_le_rpow_of_exponent_le (by rw [hM]; norm_num) (by norm_num)
      _ = _ := rpow_one _
  -- the conversions
  have c₁ : Conversion k₁ (units.Msun.scale ^ 3) := ⟨hk₁, by rw [hM]; norm_num, by rw [hM]; norm_num⟩
  have c₂ : Conversion k₂ (units.Msun.scale ^ (1 / 3 : ℝ) / units.AU.scale) := by
    refine ⟨hk₂, ?_, ?_⟩
    · rw [hAU, le_div_iff₀ (by norm_num)]; refine le_trans ?_ hroot; norm_num
    · rw [hAU, div_le_iff₀ (by norm_num)]; refine hroot'.trans ?_; rw [hM]; norm_num
  have c₃ : Conversion k₃ (units.AU.scale ^ 4 / units.Gyr.scale) :=
    ⟨hk₃, by rw [hAU, hGyr]; norm_num, by rw [hAU, hGyr]; norm_num⟩
  -- the separation in AU
  have a := ulp_get_a_from_f_orb (A := A) sf s1 s2 (ulp_conversion c₂)
  set aAU := utils.get_a_from_f_orb KK f m_1 m_2 * (units.Msun.scale ^ (1 / 3 : ℝ) / units.AU.scale) with haAU
  have hX : 0 < (KK).G * (m_1 + m_2) / (2 * π * f) ^ 2 := by have := pi_pos; positivity
  have ha3 : aAU ^ 3 = (KK).G * units.Msun.scale / units.AU.scale ^ 3 * ((m_1 + m_2) / ((2 * π) ^ 2 * f ^ 2)) := by
    rw [haAU, mul_pow, div_pow, hcube]
    unfold utils.get_a_from_f_orb
    rw [← rpow_natCast (_ ^ (1 / 3 : ℝ)) 3, ← rpow_mul hX.le]
    norm_num
    field_simp
  have lsum : |log (m_1 + m_2)| ≤ 23026 / 1000 + 7 / 10 := by
    have := (Apx.add (Ulp.of_ten 10 h1.1 h1.2) (Ulp.of_ten 10 h2.1 h2.2)).mag
    norm_num at this ⊢; linarith
  have lf : |log f| ≤ 12 * (23026 / 10000) := log_ten_pow 12 hf1 (hf2.trans (by norm_num))
  have lpi : |log (2 * π)| ≤ 23026 / 10000 := by
    have := log_ten_pow (x := 2 * π) 1 (by norm_num; linarith [two_le_pi]) (by norm_num; linarith [pi_le_four])
    simpa using this
  have lm1 : |log m_1| ≤ 10 * (23026 / 10000) := log_ten_pow 10 h1.1 h1.2
  have lm2 : |log m_2| ≤ 10 * (23026 / 10000) := log_ten_pow 10 h2.1 h2.2
  have laAU : |log aAU| ≤ 40 := by
    have hC : |log ((KK).G * units.Msun.scale / units.AU.scale ^ 3)| ≤ 14 * (23026 / 10000) := by
      refine log_ten_pow 14 ?_ ?_ <;> (rw [hM, hAU]; norm_num [Consts.codata2018])
    have h3 : 3 * log aAU = log ((KK).G * units.Msun.scale / units.AU.scale ^ 3) + (log (m_1 + m_2) - (2 * log (2 * π) + 2 * log f)) := by
      have hp := pi_pos
      have : log (aAU ^ 3) = 3 * log aAU := by rw [log_pow]; norm_num
      rw [← this, ha3, log_mul (by rw [hM, hAU]; norm_num [Consts.codata2018]) (by positivity),
        log_div (x := m_1 + m_2) (by positivity) (by positivity), log_mul (x := (2 * π) ^ 2) (by positivity) (by positivity),
        log_pow (2 * π) 2, log_pow f 2]
      norm_num
    rw [abs_le] at *
    constructor <;> linarith [hC.1, hC.2, lsum.1, lsum.2, lf.1, lf.2, lpi.1, lpi.2]
  -- beta
  have b := ulp_beta (A := A) s1 s2 (ulp_conversion c₁)
  set bSI := utils.beta KK m_1 m_2 * units.Msun.scale ^ 3 with hbSI
  have lb : |log bSI| ≤ 120 := by
    have hC : |log (64 / 5 * (KK).G ^ 3 / (KK).c ^ 5 * units.Msun.scale ^ 3)| ≤ 20 * (23026 / 10000) := by
      refine log_ten_pow 20 ?_ ?_ <;> (rw [hM]; norm_num [Consts.codata2018])
    have h3 : log bSI = log (64 / 5 * (KK).G ^ 3 / (KK).c ^ 5 * units.Msun.scale ^ 3) + log m_1 + log m_2 + log (m_1 + m_2) := by
      have hcp := (KK).c_pos
      rw [← log_mul (by positivity) hm1.ne', ← log_mul (by positivity) hm2.ne', ← log_mul (by positivity) (by positivity), hbSI]
      congr 1; unfold utils.beta; ring
    rw [abs_le] at *
    constructor <;> linarith [hC.1, hC.2, lsum.1, lsum.2, lm1.1, lm1.2, lm2.1, lm2.2]
  have r := ulp_get_t_merge_circ (A := A) (a.remag laAU) (b.remag lb) (by norm_num) (by norm_num) (by norm_num)
    (by norm_num) (by norm_num) (ulp_conversion c₃)
  have hexact : aAU ^ 4 / (4 * bSI) * (units.AU.scale ^ 4 / units.Gyr.scale) = t () / units.Gyr.scale := by
    have ht' : t () = utils.get_a_from_f_orb KK f (m_1 * units.Msun.scale) (m_2 * units.Msun.scale) ^ 4
        / (4 * utils.beta KK (m_1 * units.Msun.scale) (m_2 * units.Msun.scale)) := by
      have : Except.ok (fun _ : Unit => utils.get_a_from_f_orb KK f (m_1 * units.Msun.scale) (m_2 * units.Msun.scale) ^ 4
        / (4 * utils.beta KK (m_1 * units.Msun.scale) (m_2 * units.Msun.scale))) = Except.ok (ε := PyErr) t := ht
      exact (congrFun (Except.ok.inj this) ()).symm
    have ha : utils.get_a_from_f_orb KK f (m_1 * units.Msun.scale) (m_2 * units.Msun.scale) = aAU * units.AU.scale := by
      rw [haAU]
      unfold utils.get_a_from_f_orb
      rw [show (KK).G * (m_1 * units.Msun.scale + m_2 * units.Msun.scale) / (2 * π * f) ^ 2
        = (KK).G * (m_1 + m_2) / (2 * π * f) ^ 2 * units.Msun.scale by ring, mul_rpow hX.le hMp.le]
      have : units.AU.scale ≠ 0 := units.AU.pos.ne'
      field_simp
    have hb : utils.beta KK (m_1 * units.Msun.scale) (m_2 * units.Msun.scale) = bSI := by
      rw [hbSI]; unfold utils.beta; ring
    rw [ht', ha, hb]
    ring
  rw [hexact] at r
  exact r.within (by norm_num) (by norm_num)

theorem nearestDouble_self {x : ℝ} (h : IsDouble x) : nearestDouble x = x := by
  have := (nearestDouble_spec x).2 x h
  rw [sub_self, abs_zero] at this
  exact sub_eq_zero.1 (abs_eq_zero.1 (le_antisymm this (abs_nonneg _)))

theorem near_sq : nearestDouble ((1 - 1 / 2 ^ 35 : ℝ) ^ (2 : ℝ)) = 1 - 1 / 2 ^ 34 := by
  rw [rpow_two]
  have hy : IsDouble (1 - 1 / 2 ^ 34) := ⟨2 ^ 34 - 1, -34, by norm_num, by norm_num, by norm_num, by norm_num⟩
  obtain ⟨⟨m, e, hm, -, -, hq⟩, hn⟩ := nearestDouble_spec ((1 - 1 / 2 ^ 35 : ℝ) ^ 2)
  have h1 := hn _ hy
  generalize nearestDouble ((1 - 1 / 2 ^ 35 : ℝ) ^ 2) = q at *
  have h2 : |(1 - 1 / 2 ^ 34 : ℝ) - (1 - 1 / 2 ^ 35) ^ 2| = 1 / 2 ^ 70 := by rw [abs_of_neg] <;> norm_num
  rw [h2] at h1
  obtain ⟨h3, h4⟩ := abs_le.1 h1
  -- the exponent is at least -53
  have he : -53 ≤ e := by
    by_contra hc
    have hle : (2 : ℝ) ^ e ≤ 2 ^ (-54 : ℤ) := zpow_le_zpow_right₀ (by norm_num) (by omega)
    have hmr : (m : ℝ) ≤ 2 ^ 53 := by
      have := (abs_lt.1 hm).2.le
      exact_mod_cast this
    have hq2 : q ≤ 2 ^ 53 * 2 ^ (-54 : ℤ) := by
      rw [hq]
      exact mul_le_mul hmr hle (by positivity) (by positivity)
    norm_num at hq2 h3
    linarith
  obtain ⟨j, hj⟩ : ∃ j : ℕ, e = -53 + j := ⟨(e + 53).toNat, by omega⟩
  have hq' : q = ((m * 2 ^ j : ℤ) : ℝ) * 2 ^ (-53 : ℤ) := by
    rw [hq, hj, zpow_add₀ (by norm_num), zpow_natCast]; push_cast; ring
  generalize m * 2 ^ j = M at hq'
  have hM : M = 2 ^ 53 - 2 ^ 19 := by
    have h5 : ((M : ℤ) : ℝ) < ((2 ^ 53 - 2 ^ 19 + 1 : ℤ) : ℝ) := by
      rw [hq'] at h4; norm_num at h4 ⊢; linarith
    have h6 : ((2 ^ 53 - 2 ^ 19 - 1 : ℤ) : ℝ) < ((M : ℤ) : ℝ) := by
      rw [hq'] at h3; norm_num at h3 ⊢; linarith
    have h5' := Int.cast_lt.1 h5
    have h6' := Int.cast_lt.1 h6
    omega
  rw [hq', hM]; norm_num

/-- The loss of accuracy near eccentricity one is real, even if every operation is correctly rounded: at `1 - 2^-35` the
enhancement factor is off by more than 200000 machine epsilons. -/
theorem C88_cancellation :
    ¬ WithinUlps 200000 (fl.peters_f Arith.correct (1 - 1 / 2 ^ 35)) (utils.peters_f (1 - 1 / 2 ^ 35)) := by
  intro hw
  set e : ℝ := 1 - 1 / 2 ^ 35 with he
  have h0 : 0 ≤ e := by rw [he]; norm_num
  have h1 : e ≤ 1 := by rw [he]; norm_num
  have hden : Arith.correct.pow (Arith.correct.sub 1 (Arith.correct.pow e 2)) (Arith.correct.div 7 2) = 1 / 2 ^ 119 := by
    have p1 : Arith.correct.pow e 2 = 1 - 1 / 2 ^ 34 := near_sq
    have p2 : Arith.correct.sub 1 (1 - 1 / 2 ^ 34) = 1 / 2 ^ 34 := by
      change nearestDouble (1 - (1 - 1 / 2 ^ 34)) = _
      rw [show (1 - (1 - 1 / 2 ^ 34) : ℝ) = 1 / 2 ^ 34 by ring]
      exact nearestDouble_self ⟨1, -34, by norm_num, by norm_num, by norm_num, by norm_num⟩
    have p3 : Arith.correct.div 7 2 = 7 / 2 := nearestDouble_self ⟨7, -1, by norm_num, by norm_num, by norm_num, by norm_num⟩
    rw [p1, p2, p3]
    change nearestDouble ((1 / 2 ^ 34 : ℝ) ^ (7 / 2 : ℝ)) = _
    have p4 : (1 / 2 ^ 34 : ℝ) ^ (7 / 2 : ℝ) = 1 / 2 ^ 119 := by
      rw [show (1 / 2 ^ 34 : ℝ) = 2 ^ (-34 : ℝ) by rw [rpow_neg (by norm_num)]; norm_num, ← rpow_mul (by norm_num),
        show (-34 * (7 / 2) : ℝ) = -119 by norm_num, rpow_neg (by norm_num)]
      norm_num
    rw [p4]
    exact nearestDouble_self ⟨1, -119, by norm_num, by norm_num, by norm_num, by norm_num⟩
  have hf : fl.peters_f Arith.correct e = Arith.correct.div (Arith.correct.add (Arith.correct.add 1 (Arith.correct.mul
      (Arith.correct.div 73 24) (Arith.correct.pow e 2))) (Arith.correct.mul (Arith.correct.div 37 96) (Arith.correct.pow e 4)))
      (1 / 2 ^ 119) := by
    rw [← hden]; rfl
  have hn := ulp_numerator Arith.correct h0 h1
  set N := 1 + 73 / 24 * e ^ 2 + 37 / 96 * e ^ 4 with hN
  have hu := Ulp.div (A := Arith.correct) hn (Ulp.of_ten (x := 1 / 2 ^ 119) 36 (by norm_num) (by norm_num)) (by norm_num) (by norm_num)
  rw [← hf] at hu
  have hex : utils.peters_f e = N / (1 - e ^ 2) ^ (7 / 2 : ℝ) := rfl
  have hw0 : 0 < 1 - e ^ 2 := by rw [he]; norm_num
  have hN0 : 0 < N := by rw [hN]; positivity
  have hx0 : 0 < utils.peters_f e := by rw [hex]; positivity
  have hv := Ulp.of_within (r := |log (utils.peters_f e)|) (k := 202000) hx0 (le_refl _) hw (by norm_num) (by norm_num)
  have e1 := (abs_le.1 hu.err).2
  have e2 := (abs_le.1 hv.err).1
  have l1 : log (utils.peters_f e) = log N - 7 / 2 * log (1 - e ^ 2) := by
    rw [hex, log_div hN0.ne' (by positivity), log_rpow hw0]
  have l2 : log (N / (1 / 2 ^ 119)) = log N + 119 * log 2 := by
    rw [log_div hN0.ne' (by norm_num), one_div, log_inv, log_pow]; norm_num
  have l3 : log (1 - e ^ 2) = -34 * log 2 + log (1 - 1 / 2 ^ 36) := by
    rw [show 1 - e ^ 2 = (2 ^ 34)⁻¹ * (1 - 1 / 2 ^ 36) by rw [he]; norm_num, log_mul (by norm_num) (by norm_num), log_inv, log_pow]
    norm_num
  have l4 := log_le_sub_one_of_pos (by norm_num : (0 : ℝ) < 1 - 1 / 2 ^ 36)
  rw [l2] at e1
  rw [l1, l3] at e2
  have hE : eps = 1 / 2 ^ 52 := by unfold eps; norm_num
  rw [hE] at e1 e2
  norm_num at e1 e2 l4
  linarith

/-! ## The hypotheses are met -/

/-- Doubles that round correctly exist. -/
noncomputable example : Arith := Arith.correct

/-- Two neutron stars, masses in kg, converted to solar masses. -/
example (A : Arith) : WithinUlps 100 (fl.chirp_mass A (1 / 1.988409870698051e30) 2.8e30 2.6e30)
    (utils.chirp_mass 2.8e30 2.6e30 * (1 / 1.988409870698051e30)) :=
  C88_chirp_mass A ⟨by norm_num, by norm_num⟩ ⟨by norm_num, by norm_num⟩
    ⟨by unfold WithinUlps; simp, by norm_num, by norm_num⟩

/-- A binary of 1.4 and 10 solar masses at 1 mHz. -/
example (A : Arith) (t : Unit → ℝ)
    (ht : evol.get_t_merge_circ KK none (some fun _ => 1.4 * units.Msun.scale) (some fun _ => 10 * units.Msun.scale) none
      (some fun _ => 0.001) = .ok t) :
    WithinUlps 360 (fl.get_t_merge_circ A (units.AU.scale ^ 4 / units.Gyr.scale) (fl.beta A KK (units.Msun.scale ^ 3) 1.4 10)
      (fl.get_a_from_f_orb A KK (units.Msun.scale ^ (1 / 3 : ℝ) / units.AU.scale) 0.001 1.4 10)) (t () / units.Gyr.scale) :=
  C88_merger_time A ⟨by norm_num, by norm_num⟩ ⟨by norm_num, by norm_num⟩ ⟨by norm_num, by norm_num⟩
    (by unfold WithinUlps; simp) (by unfold WithinUlps; simp) (by unfold WithinUlps; simp) t ht

/-- Eccentricity 0.9. -/
example (A : Arith) : WithinUlps 200 (fl.peters_f A 0.9) (utils.peters_f 0.9) := by
  have h := C88_peters_f A (e := 0.9) (by norm_num) (by norm_num)
  unfold WithinUlps at *
  refine h.trans ?_
  gcongr
  norm_num

theorem within_self (x : ℝ) : WithinUlps 4 x x := by unfold WithinUlps; simp

theorem conversion_one : Conversion 1 1 := ⟨within_self 1, by norm_num, by norm_num⟩

/-- SI values: a frequency of 1 mHz, masses of 1e30 kg. -/
example (A : Arith) : WithinUlps 25 (fl.get_f_orb_from_a A KK 1 1e8 1e30 1e30) (utils.get_f_orb_from_a KK 1e8 1e30 1e30) ∧
    WithinUlps 33 (fl.beta A KK 1 1e30 1e30) (utils.beta KK 1e30 1e30) := by
  have h := (C88_kepler A (x := 1e8) (m_1 := 1e30) (m_2 := 1e30) ⟨by norm_num, by norm_num⟩ ⟨by norm_num, by norm_num⟩
    ⟨by norm_num, by norm_num⟩ conversion_one).2
  have h' := C88_beta A (m_1 := 1e30) (m_2 := 1e30) ⟨by norm_num, by norm_num⟩ ⟨by norm_num, by norm_num⟩ conversion_one
  rw [mul_one] at h h'
  exact ⟨h, h'⟩

example (A : Arith) : WithinUlps (61 + 7 / (1 - 0.5 ^ 2)) (fl.c_0 A 1 1e8 0.5) (utils.c_0 1e8 0.5 * 1) :=
  (C88_separation_and_eccentricity A ⟨by norm_num, by norm_num⟩ (by norm_num) (by norm_num) conversion_one).1

example (A : Arith) :
    WithinUlps (314 + 22 / (1 - 0.5 ^ 2)) (fl.fn_dot A KK 1 1e30 1e-3 0.5 (2 : ℤ)) (utils.fn_dot_val KK 1e30 1e-3 0.5 2 * 1) :=
  C88_fn_dot A ⟨by norm_num, by norm_num⟩ ⟨by norm_num, by norm_num⟩ ⟨by norm_num, by norm_num⟩ (by norm_num) (by norm_num)
    (within_self 1) ⟨by norm_num, by norm_num⟩

/-- There and back at 1 mHz: the separation is about 1e8 m. -/
example (A : Arith) :
    WithinUlps 140 (fl.get_f_orb_from_a A KK 1 (fl.get_a_from_f_orb A KK 1 1e-3 1e30 1e30) 1e30 1e30) 1e-3 := by
  have hp := pi_le_four
  have hp' := two_le_pi
  refine C88_round_trip A (κ := 1) ⟨by norm_num, by norm_num⟩ ⟨by norm_num, by norm_num⟩ ⟨by norm_num, by norm_num⟩ conversion_one
    (by rw [one_rpow]; exact conversion_one) ?_
  rw [mul_one]
  have h1 : (1 : ℝ) ≤ (KK).G * (1e30 + 1e30) / (2 * π * 1e-3) ^ 2 := by
    rw [le_div_iff₀ (by positivity)]
    norm_num [Consts.codata2018]; nlinarith
  have h2 : (KK).G * (1e30 + 1e30) / (2 * π * 1e-3) ^ 2 ≤ 10 ^ 40 := by
    rw [div_le_iff₀ (by positivity)]
    norm_num [Consts.codata2018]; nlinarith
  constructor
  · exact le_trans (by norm_num) (one_le_rpow h1 (by norm_num))
  · calc _ ≤ ((KK).G * (1e30 + 1e30) / (2 * π * 1e-3) ^ 2) ^ (1 : ℝ) := rpow_le_rpow_of_exponent_le h1 (by norm_num)
      _ = _ := rpow_one _
      _ ≤ _ := h2

end Legwork.Props
