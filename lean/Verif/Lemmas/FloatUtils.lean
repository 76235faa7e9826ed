import Verif.Lemmas.FloatOps
import Verif.Model.Utils

/-!
# Rounding errors of the formulas of `utils.py`
-/

namespace Legwork.fl

open Real Legwork.Spec

/-- Absolute errors, in machine epsilons, of a number of magnitude at most `b`. -/
def Ab (b m xh x : ℝ) : Prop := |x| ≤ b ∧ |xh - x| ≤ m * eps

namespace Ab

variable {A : Arith} {b b' m m' xh x yh y : ℝ}

theorem mono (h : Ab b m xh x) (hb : b ≤ b') (hm : m ≤ m') : Ab b' m' xh x :=
  ⟨h.1.trans hb, h.2.trans (mul_le_mul_of_nonneg_right hm eps_pos.le)⟩

theorem m_nonneg (h : Ab b m xh x) : 0 ≤ m := nonneg_of_mul_nonneg_left ((abs_nonneg _).trans h.2) eps_pos

theorem small {t : ℝ} (ht : t ≤ 2 ^ 30) : t * eps ≤ 1 / 2 ^ 22 := by
  calc t * eps ≤ 2 ^ 30 * (1 / 2 ^ 52) := mul_le_mul ht eps_le eps_pos.le (by norm_num)
    _ = _ := by norm_num

theorem tiny : (2 : ℝ) ^ (-1072 : ℤ) ≤ 1 / 1000 * eps := by
  unfold eps
  calc (2 : ℝ) ^ (-1072 : ℤ) ≤ 2 ^ (-62 : ℤ) := zpow_le_zpow_right₀ (by norm_num) (by norm_num)
    _ ≤ _ := by norm_num

theorem absh (h : Ab b m xh x) : |xh| ≤ b + m * eps := by
  have := abs_add_le (xh - x) x
  rw [sub_add_cancel] at this
  linarith [h.1, h.2]

theorem rnd (h : Ab b m xh x) (hb : b ≤ 1000) (hm : m ≤ 2 ^ 30) : Ab b (m + b * (51 / 100) + 1 / 100) (A.rnd xh) x := by
  refine ⟨h.1, ?_⟩
  have hs := small hm
  have h0 := h.m_nonneg
  have hh := h.absh
  have hb0 := (abs_nonneg _).trans h.1
  have e0 := eps_pos
  have h1 := A.rnd_err xh (by
    refine (hh.trans (?_ : _ ≤ (2 : ℝ) ^ 10)).trans (pow_le_pow_right₀ (by norm_num) (by norm_num))
    norm_num at hs ⊢; linarith)
  have h2 := abs_add_le (A.rnd xh - xh) (xh - x)
  rw [sub_add_sub_cancel] at h2
  have h3 : (2 : ℝ) ^ (-1075 : ℤ) ≤ 1 / 1000 * eps :=
    le_trans (zpow_le_zpow_right₀ (by norm_num) (by norm_num)) tiny
  have h4 : (2 : ℝ) ^ (-53 : ℤ) * |xh| ≤ (b * (51 / 100) + 1 / 1000) * eps := by
    have h5 : (2 : ℝ) ^ (-53 : ℤ) = 1 / 2 * eps := by unfold eps; norm_num
    rw [h5]
    calc 1 / 2 * eps * |xh| ≤ 1 / 2 * eps * (b + 1 / 2 ^ 22) := by gcongr; linarith
      _ ≤ _ := by nlinarith
  have h6 : (m + b * (51 / 100) + 1 / 100) * eps = m * eps + (b * (51 / 100) + 1 / 1000) * eps + 9 / 1000 * eps := by ring
  rw [h6]
  calc |A.rnd xh - x| ≤ |A.rnd xh - xh| + |xh - x| := h2
    _ ≤ ((b * (51 / 100) + 1 / 1000) * eps + 1 / 1000 * eps) + m * eps :=
        add_le_add (h1.trans (add_le_add h4 h3)) h.2
    _ ≤ _ := by linarith

theorem mul (h : Ab b m xh x) (h' : Ab b' m' yh y) (hm : m ≤ 2 ^ 15) (hm' : m' ≤ 2 ^ 15) :
    Ab (b * b') (m * b' + b * m' + 1 / 100) (xh * yh) (x * y) := by
  have hb0 := (abs_nonneg _).trans h.1
  have hb0' := (abs_nonneg _).trans h'.1
  refine ⟨?_, ?_⟩
  · rw [abs_mul]; exact mul_le_mul h.1 h'.1 (abs_nonneg _) hb0
  · rw [show xh * yh - x * y = (xh - x) * yh + x * (yh - y) by ring]
    refine (abs_add_le _ _).trans ?_
    rw [abs_mul, abs_mul]
    have e0 := eps_pos
    have hm0 := h.m_nonneg
    have hm0' := h'.m_nonneg
    have h1 : |xh - x| * |yh| ≤ m * eps * (b' + m' * eps) := mul_le_mul h.2 h'.absh (abs_nonneg _) (by positivity)
    have h2 : |x| * |yh - y| ≤ b * (m' * eps) := mul_le_mul h.1 h'.2 (abs_nonneg _) hb0
    have h3 : m * eps * (m' * eps) ≤ 1 / 100 * eps := by
      have : m * m' * eps ≤ 2 ^ 30 * (1 / 2 ^ 52) :=
        mul_le_mul ((mul_le_mul hm hm' hm0' (by norm_num)).trans (by norm_num)) eps_le e0.le (by norm_num)
      calc m * eps * (m' * eps) = m * m' * eps * eps := by ring
        _ ≤ 1 / 100 * eps := by gcongr; exact this.trans (by norm_num)
    calc _ ≤ m * eps * (b' + m' * eps) + b * (m' * eps) := by linarith
      _ ≤ _ := by linarith

theorem add (h : Ab b m xh x) (h' : Ab b' m' yh y) : Ab (b + b') (m + m') (xh + yh) (x + y) := by
  refine ⟨(abs_add_le _ _).trans (add_le_add h.1 h'.1), ?_⟩
  rw [add_sub_add_comm, add_mul]
  exact (abs_add_le _ _).trans (add_le_add h.2 h'.2)

theorem fmul (h : Ab b m xh x) (h' : Ab b' m' yh y) (hm : m ≤ 2 ^ 15) (hm' : m' ≤ 2 ^ 15) (hb : b * b' ≤ 1000)
    (hq : m * b' + b * m' + 1 / 100 ≤ 2 ^ 30) :
    Ab (b * b') (m * b' + b * m' + 1 / 100 + b * b' * (51 / 100) + 1 / 100) (A.mul xh yh) (x * y) :=
  (h.mul h' hm hm').rnd hb hq

theorem fadd (h : Ab b m xh x) (h' : Ab b' m' yh y) (hb : b + b' ≤ 1000) (hm : m + m' ≤ 2 ^ 30) :
    Ab (b + b') (m + m' + (b + b') * (51 / 100) + 1 / 100) (A.add xh yh) (x + y) :=
  (h.add h').rnd hb hm

theorem exact (hx : |x| ≤ b) : Ab b 0 x x := ⟨hx, by simp⟩

theorem lit (a c : ℝ) (hb : |a / c| ≤ b) (hb' : b ≤ 1000) : Ab b (b * (51 / 100) + 1 / 100) (A.div a c) (a / c) := by
  simpa [Arith.div] using rnd (A := A) (exact hb) hb' (by norm_num)

theorem pow_unit {e : ℝ} (h0 : 0 ≤ e) (h1 : e ≤ 1) (n : ℕ) (hn : 0 < n) : Ab 1 (401 / 100) (A.pow e n) (e ^ n) := by
  have hp0 : 0 ≤ e ^ n := by positivity
  have hp : e ^ n ≤ 1 := pow_le_one₀ h0 h1
  refine ⟨by rw [abs_of_nonneg hp0]; exact hp, ?_⟩
  have h := A.pow_ulps e n h0 (Or.inr (by exact_mod_cast hn))
    (by rw [rpow_natCast]; exact hp.trans (one_le_pow₀ (by norm_num)))
  rw [rpow_natCast] at h
  have h5 : (2 : ℝ) ^ (-50 : ℤ) = 4 * eps := by unfold eps; norm_num
  rw [h5] at h
  have e0 := eps_pos
  have h6 : 4 * eps * e ^ n ≤ 4 * eps := by nlinarith
  linarith [tiny]

/-- A number that is at least one is known relatively. -/
theorem ulp {n r : ℝ} (h : Ab b m xh x) (h1 : 1 ≤ x) (hm : m ≤ 2 ^ 40) (hr : log b ≤ r) (hn : m * (101 / 100) ≤ n) :
    Ulp r n xh x := by
  have hx : 0 < x := by linarith
  have hb : x ≤ b := (le_abs_self x).trans h.1
  refine Ulp.of_within (m := m) hx ?_ ?_ hm hn
  · rw [abs_of_nonneg (log_nonneg h1)]
    exact (log_le_log hx hb).trans hr
  · unfold WithinUlps
    rw [abs_of_pos hx]
    have : (0 : ℝ) ≤ m * eps := mul_nonneg h.m_nonneg eps_pos.le
    refine h.2.trans ?_
    change m * eps ≤ m * eps * x
    nlinarith

end Ab

theorem log_le_of_le_four {b : ℝ} (h0 : 0 < b) (h : b ≤ 4) : log b ≤ 14 / 10 := by
  have h1 := log_le_log h0 h
  have h2 : log 4 = 2 * log 2 := log_four_eq
  linarith [log_two_lt_d9]

variable (A : Arith)

/-- `1 - e**2` loses relative accuracy as `e` approaches one. -/
theorem ulp_one_sub_sq {e : ℝ} (h0 : 0 ≤ e) (h1 : e ≤ 1 - 1 / 2 ^ 35) :
    Ulp 25 (6 * (1 / (1 - e ^ 2))) (A.sub 1 (A.pow e 2)) (1 - e ^ 2) := by
  have he1 : e ≤ 1 := h1.trans (by norm_num)
  have hw : 1 / 2 ^ 35 ≤ 1 - e ^ 2 := by nlinarith
  have hw1 : 1 - e ^ 2 ≤ 1 := by nlinarith
  have hw0 : 0 < 1 - e ^ 2 := lt_of_lt_of_le (by norm_num) hw
  have hab := Ab.pow_unit (A := A) h0 he1 2 (by norm_num)
  have hinv : 1 ≤ 1 / (1 - e ^ 2) := by rw [le_div_iff₀ hw0]; linarith
  have hinv' : 1 / (1 - e ^ 2) ≤ 2 ^ 35 := by
    rw [div_le_iff₀ hw0]
    have := mul_le_mul_of_nonneg_left hw (by norm_num : (0 : ℝ) ≤ 2 ^ 35)
    norm_num at this ⊢; linarith
  have h3 : Ulp 25 (401 / 100 * (1 / (1 - e ^ 2)) * (101 / 100)) (1 - A.pow e 2) (1 - e ^ 2) := by
    refine Ulp.of_within (m := 401 / 100 * (1 / (1 - e ^ 2))) hw0 ?_ ?_ ?_ (le_refl _)
    · rw [abs_le]
      constructor
      · have := log_le_log (by norm_num) hw
        rw [one_div, log_inv, log_pow] at this
        have h2 := log_two_lt_d9
        push_cast at this
        linarith
      · have := log_nonpos hw0.le hw1
        linarith
    · unfold WithinUlps
      rw [abs_of_pos hw0, show 1 - A.pow e 2 - (1 - e ^ 2) = -(A.pow e 2 - e ^ 2) by ring, abs_neg]
      have h4 := hab.2
      push_cast at h4
      refine h4.trans_eq ?_
      change _ = 401 / 100 * (1 / (1 - e ^ 2)) * eps * (1 - e ^ 2)
      field_simp
    · have : 401 / 100 * (1 / (1 - e ^ 2)) ≤ 401 / 100 * 2 ^ 35 := by gcongr
      exact this.trans (by norm_num)
  refine (Ulp.rnd (A := A) h3 (by norm_num) ?_).mono (le_refl _) (by linarith)
  have : 401 / 100 * (1 / (1 - e ^ 2)) * (101 / 100) ≤ 401 / 100 * 2 ^ 35 * (101 / 100) := by gcongr
  exact this.trans (by norm_num)

theorem ulp_numerator {e : ℝ} (h0 : 0 ≤ e) (h1 : e ≤ 1) :
    Ulp (24 / 10) 29 (A.add (A.add 1 (A.mul (A.div 73 24) (A.pow e 2))) (A.mul (A.div 37 96) (A.pow e 4)))
      (1 + 73 / 24 * e ^ 2 + 37 / 96 * e ^ 4) := by
  have a2 := Ab.pow_unit (A := A) h0 h1 2 (by norm_num)
  have a4 := Ab.pow_unit (A := A) h0 h1 4 (by norm_num)
  have l1 := Ab.lit (A := A) (b := 73 / 24) 73 24 (by rw [abs_le]; norm_num) (by norm_num)
  have l2 := Ab.lit (A := A) (b := 37 / 96) 37 96 (by rw [abs_le]; norm_num) (by norm_num)
  have p1 := Ab.fmul (A := A) l1 a2 (by norm_num) (by norm_num) (by norm_num) (by norm_num)
  have p2 := Ab.fmul (A := A) l2 a4 (by norm_num) (by norm_num) (by norm_num) (by norm_num)
  have s1 := Ab.fadd (A := A) (Ab.exact (x := 1) (b := 1) (by norm_num)) p1 (by norm_num) (by norm_num)
  have s2 := Ab.fadd (A := A) s1 p2 (by norm_num) (by norm_num)
  refine s2.ulp ?_ (by norm_num) ?_ (by norm_num)
  · nlinarith [sq_nonneg e, sq_nonneg (e ^ 2)]
  · have : (1 + 73 / 24 * 1 + 37 / 96 * 1 : ℝ) ≤ 10 := by norm_num
    exact (log_le_log (by norm_num) this).trans (log_ten_le.trans (by norm_num)) 

theorem ulp_correction {e : ℝ} (h0 : 0 ≤ e) (h1 : e ≤ 1) :
    Ulp (14 / 10) 4 (A.add 1 (A.mul (A.div 121 304) (A.pow e 2))) (1 + 121 / 304 * e ^ 2) := by
  have a2 := Ab.pow_unit (A := A) h0 h1 2 (by norm_num)
  have l1 := Ab.lit (A := A) (b := 121 / 304) 121 304 (by rw [abs_le]; norm_num) (by norm_num)
  have p1 := Ab.fmul (A := A) l1 a2 (by norm_num) (by norm_num) (by norm_num) (by norm_num)
  have s1 := Ab.fadd (A := A) (Ab.exact (x := 1) (b := 1) (by norm_num)) p1 (by norm_num) (by norm_num)
  refine s1.ulp ?_ (by norm_num) (log_le_of_le_four (by norm_num) (by norm_num)) (by norm_num)
  nlinarith [sq_nonneg e]

theorem ulp_conversion {k κ : ℝ} (h : Conversion k κ) : Ulp 219 5 k κ := by
  have h1 := Ulp.of_ten 95 h.2.1 h.2.2
  refine Ulp.of_within h1.pos (h1.mag.trans (by norm_num)) h.1 (by norm_num) (by norm_num)

variable {A} {k κ m_1 m_2 f a e n : ℝ}

local notation "KK" => Consts.codata2018

theorem ulp_sensible {x : ℝ} (h : Sensible x) : Ulp (921 / 10 + 1 / 50) 0 x x :=
  (Ulp.of_ten 40 h.1 h.2).mono (by norm_num) (le_refl _)

theorem ulp_total (h1 : Sensible m_1) (h2 : Sensible m_2) :
    Ulp 93 1 (A.add m_1 m_2) (m_1 + m_2) :=
  (Ulp.add (ulp_sensible h1) (ulp_sensible h2) (by norm_num) (by norm_num)).mono (by norm_num) (by norm_num)

theorem ulp_chirp_mass (h1 : Sensible m_1) (h2 : Sensible m_2) (hk : Ulp 219 5 k κ) :
    Ulp 350 99 (chirp_mass A k m_1 m_2) (utils.chirp_mass m_1 m_2 * κ) := by
  have p := Ulp.powlit (A := A) 3 5 (3 / 5) (Ulp.mul (A := A) (ulp_sensible h1) (ulp_sensible h2) (by norm_num) (by norm_num))
    (by rw [abs_le]; norm_num) (by norm_num) (by norm_num) (by norm_num) (by norm_num)
  have q := Ulp.powlit (A := A) 1 5 (1 / 5) (ulp_total (A := A) h1 h2)
    (by rw [abs_le]; norm_num) (by norm_num) (by norm_num) (by norm_num) (by norm_num)
  exact (Ulp.mul (A := A) (Ulp.div (A := A) p q (by norm_num) (by norm_num)) hk (by norm_num) (by norm_num)).mono
    (by norm_num) (by norm_num)

theorem ulp_peters_f (h0 : 0 ≤ e) (h1 : e ≤ 1 - 1 / 2 ^ 35) :
    Ulp 90 (82 + 21 * (1 / (1 - e ^ 2))) (peters_f A e) (utils.peters_f e) := by
  have hw := ulp_one_sub_sq A h0 h1
  have hw0 := hw.pos
  have hinv' : 1 / (1 - e ^ 2) ≤ 2 ^ 35 := by
    have hw : 1 / 2 ^ 35 ≤ 1 - e ^ 2 := by nlinarith
    rw [div_le_iff₀ hw0]
    have := mul_le_mul_of_nonneg_left hw (by norm_num : (0 : ℝ) ≤ 2 ^ 35)
    norm_num at this ⊢; linarith
  have hn := ulp_numerator A h0 (h1.trans (by norm_num))
  generalize 1 / (1 - e ^ 2) = w at *
  have hd := Ulp.powlit (A := A) 7 2 (7 / 2) hw (by rw [abs_le]; norm_num) (by norm_num) (by norm_num) (by norm_num)
    (by norm_num at hinv' ⊢; linarith)
  exact (Ulp.div (A := A) hn hd (by norm_num) (by norm_num at hinv' ⊢; linarith)).mono (by norm_num) (by linarith)

theorem ulp_get_a_from_f_orb (hf : Sensible f) (h1 : Sensible m_1) (h2 : Sensible m_2) (hk : Ulp 219 5 k κ) :
    Ulp 330 76 (get_a_from_f_orb A KK k f m_1 m_2) (utils.get_a_from_f_orb KK f m_1 m_2 * κ) := by
  have p := Ulp.mul (A := A) (Ulp.G (A := A)) (ulp_total (A := A) h1 h2) (by norm_num) (by norm_num)
  have q := Ulp.npow (A := A) 2 (Ulp.mul (A := A) (Ulp.twoPi (A := A)) (ulp_sensible hf) (by norm_num) (by norm_num)) (by norm_num) (by norm_num)
    (by norm_num) (by norm_num)
  have r := Ulp.powlit (A := A) 1 3 (1 / 3) (Ulp.div (A := A) p q (by norm_num) (by norm_num))
    (by rw [abs_le]; norm_num) (by norm_num) (by norm_num) (by norm_num) (by norm_num)
  exact (Ulp.mul (A := A) r hk (by norm_num) (by norm_num)).mono (by norm_num) (by norm_num)

theorem ulp_get_f_orb_from_a (ha : Sensible a) (h1 : Sensible m_1) (h2 : Sensible m_2) (hk : Ulp 219 5 k κ) :
    Ulp 430 24 (get_f_orb_from_a A KK k a m_1 m_2) (utils.get_f_orb_from_a KK a m_1 m_2 * κ) := by
  have p := Ulp.mul (A := A) (Ulp.G (A := A)) (ulp_total (A := A) h1 h2) (by norm_num) (by norm_num)
  have q := Ulp.npow (A := A) 3 (ulp_sensible ha) (by norm_num) (by norm_num) (by norm_num) (by norm_num)
  have r := Ulp.pow (A := A) (p := 0.5) (ph := 0.5) (d := 0) 0.5 (Ulp.div (A := A) p q (by norm_num) (by norm_num))
    (by rw [abs_le]; norm_num) (by simp) (by norm_num) (by norm_num) (by norm_num) (by norm_num) (by norm_num)
  exact (Ulp.mul (A := A) (Ulp.div (A := A) r (Ulp.twoPi (A := A)) (by norm_num) (by norm_num)) hk (by norm_num) (by norm_num)).mono
    (by norm_num) (by norm_num)

theorem ulp_beta (h1 : Sensible m_1) (h2 : Sensible m_2) (hk : Ulp 219 5 k κ) :
    Ulp 689 32 (beta A KK k m_1 m_2) (utils.beta KK m_1 m_2 * κ) := by
  have g := Ulp.npow (A := A) 3 (Ulp.G (A := A)) (by norm_num) (by norm_num) (by norm_num) (by norm_num)
  have c := Ulp.npow (A := A) 5 (Ulp.c (A := A)) (by norm_num) (by norm_num) (by norm_num) (by norm_num)
  have l := Ulp.divlit (A := A) 64 5 2 (by norm_num) (by norm_num) (by norm_num)
  have p := Ulp.div (A := A) (Ulp.mul (A := A) l g (by norm_num) (by norm_num)) c (by norm_num) (by norm_num)
  have q := Ulp.mul (A := A) (Ulp.mul (A := A) p (ulp_sensible h1) (by norm_num) (by norm_num)) (ulp_sensible h2) (by norm_num) (by norm_num)
  have r := Ulp.mul (A := A) q (ulp_total (A := A) h1 h2) (by norm_num) (by norm_num)
  exact (Ulp.mul (A := A) r hk (by norm_num) (by norm_num)).mono (by norm_num) (by norm_num)

theorem ulp_c_0 (ha : Sensible a) (h0 : 1 / 10 ^ 40 ≤ e) (h1 : e ≤ 1 - 1 / 2 ^ 35) (hk : Ulp 219 5 k κ) :
    Ulp 400 (60 + 6 * (1 / (1 - e ^ 2))) (c_0 A k a e) (utils.c_0 a e * κ) := by
  have he0 : 0 ≤ e := le_trans (by norm_num) h0
  have he1 : e ≤ 1 := h1.trans (by norm_num)
  have hw := ulp_one_sub_sq A he0 h1
  have hw0 := hw.pos
  have hinv' : 1 / (1 - e ^ 2) ≤ 2 ^ 35 := by
    have hw : 1 / 2 ^ 35 ≤ 1 - e ^ 2 := by nlinarith
    rw [div_le_iff₀ hw0]
    have := mul_le_mul_of_nonneg_left hw (by norm_num : (0 : ℝ) ≤ 2 ^ 35)
    norm_num at this ⊢; linarith
  have hc := ulp_correction A he0 he1
  have he := ulp_sensible ⟨h0, he1.trans (by norm_num)⟩
  generalize 1 / (1 - e ^ 2) = w at *
  have p := Ulp.powlit (A := A) (-12) 19 (12 / 19) he (by rw [abs_le]; norm_num) (by norm_num) (by norm_num) (by norm_num)
    (by norm_num)
  have q := Ulp.powlit (A := A) (-870) 2299 (870 / 2299) hc (by rw [abs_le]; norm_num) (by norm_num) (by norm_num) (by norm_num)
    (by norm_num)
  have s := Ulp.mul (A := A) (Ulp.mul (A := A) (Ulp.mul (A := A) (ulp_sensible ha) hw (by norm_num) (by norm_num at hinv' ⊢; linarith))
    p (by norm_num) (by norm_num at hinv' ⊢; linarith)) q (by norm_num) (by norm_num at hinv' ⊢; linarith)
  exact (Ulp.mul (A := A) s hk (by norm_num) (by norm_num at hinv' ⊢; linarith)).mono (by norm_num) (by linarith)

theorem ulp_get_a_from_ecc {c : ℝ} (ha : Sensible c) (h0 : 1 / 10 ^ 40 ≤ e) (h1 : e ≤ 1 - 1 / 2 ^ 35) (hk : Ulp 219 5 k κ) :
    Ulp 400 (60 + 6 * (1 / (1 - e ^ 2))) (get_a_from_ecc A k e c) (utils.get_a_from_ecc e c * κ) := by
  have he0 : 0 ≤ e := le_trans (by norm_num) h0
  have he1 : e ≤ 1 := h1.trans (by norm_num)
  have hw := ulp_one_sub_sq A he0 h1
  have hw0 := hw.pos
  have hinv' : 1 / (1 - e ^ 2) ≤ 2 ^ 35 := by
    have hw : 1 / 2 ^ 35 ≤ 1 - e ^ 2 := by nlinarith
    rw [div_le_iff₀ hw0]
    have := mul_le_mul_of_nonneg_left hw (by norm_num : (0 : ℝ) ≤ 2 ^ 35)
    norm_num at this ⊢; linarith
  have hc := ulp_correction A he0 he1
  have he := ulp_sensible ⟨h0, he1.trans (by norm_num)⟩
  generalize 1 / (1 - e ^ 2) = w at *
  have p := Ulp.powlit (A := A) 12 19 (12 / 19) he (by rw [abs_le]; norm_num) (by norm_num) (by norm_num) (by norm_num)
    (by norm_num)
  have q := Ulp.powlit (A := A) 870 2299 (870 / 2299) hc (by rw [abs_le]; norm_num) (by norm_num) (by norm_num) (by norm_num)
    (by norm_num)
  have s := Ulp.mul (A := A) (Ulp.div (A := A) (Ulp.mul (A := A) (ulp_sensible ha) p (by norm_num) (by norm_num))
    hw (by norm_num) (by norm_num at hinv' ⊢; linarith)) q (by norm_num) (by norm_num at hinv' ⊢; linarith)
  exact (Ulp.mul (A := A) s hk (by norm_num) (by norm_num at hinv' ⊢; linarith)).mono (by norm_num) (by linarith)

theorem ulp_fn_dot {m_c : ℝ} {n : ℤ} (hm : Sensible m_c) (hf1 : 1 / 10 ^ 12 ≤ f) (hf2 : f ≤ 10 ^ 12) (hn1 : 1 ≤ n) (hn2 : n ≤ 10000)
    (h0 : 0 ≤ e) (h1 : e ≤ 1 - 1 / 2 ^ 35) (hk : Ulp 150 5 k κ) :
    Ulp 689 (310 + 21 * (1 / (1 - e ^ 2))) (fn_dot A KK k m_c f e n) (utils.fn_dot_val KK m_c f e n * κ) := by
  have hf := ulp_peters_f (A := A) h0 h1
  have hw0 : 0 < 1 - e ^ 2 := by nlinarith
  have hinv' : 1 / (1 - e ^ 2) ≤ 2 ^ 35 := by
    have hw : 1 / 2 ^ 35 ≤ 1 - e ^ 2 := by nlinarith
    rw [div_le_iff₀ hw0]
    have := mul_le_mul_of_nonneg_left hw (by norm_num : (0 : ℝ) ≤ 2 ^ 35)
    norm_num at this ⊢; linarith
  generalize 1 / (1 - e ^ 2) = w at *
  have hn1' : (1 : ℝ) ≤ n := by exact_mod_cast hn1
  have hn2' : (n : ℝ) ≤ 10000 := by exact_mod_cast hn2
  have hnn := Ulp.of_ten (x := n) 4 (by norm_num; linarith) (by norm_num; linarith)
  have q1 := Ulp.mul (A := A) (Ulp.of_ten (x := 48) 2 (by norm_num) (by norm_num)) hnn (by norm_num) (by norm_num)
  have q2 := Ulp.mul (A := A) (Ulp.of_ten (x := 5) 1 (by norm_num) (by norm_num)) (Ulp.pi (A := A)) (by norm_num) (by norm_num)
  have q3 := Ulp.powlit (A := A) 5 3 (5 / 3) (Ulp.mul (A := A) (Ulp.G (A := A)) (ulp_sensible hm) (by norm_num) (by norm_num))
    (by rw [abs_le]; norm_num) (by norm_num) (by norm_num) (by norm_num) (by norm_num)
  have c := Ulp.npow (A := A) 5 (Ulp.c (A := A)) (by norm_num) (by norm_num) (by norm_num) (by norm_num)
  have q4 := Ulp.powlit (A := A) 11 3 (11 / 3) (Ulp.mul (A := A) (Ulp.twoPi (A := A)) (Ulp.of_ten 12 hf1 hf2) (by norm_num) (by norm_num))
    (by rw [abs_le]; norm_num) (by norm_num) (by norm_num) (by norm_num) (by norm_num)
  have s1 := Ulp.mul (A := A) (Ulp.div (A := A) q1 q2 (by norm_num) (by norm_num)) q3 (by norm_num) (by norm_num)
  have s2 := Ulp.mul (A := A) (Ulp.div (A := A) s1 c (by norm_num) (by norm_num)) q4 (by norm_num) (by norm_num)
  have s3 := Ulp.mul (A := A) s2 hf (by norm_num) (by norm_num at hinv' ⊢; linarith)
  exact (Ulp.mul (A := A) s3 hk (by norm_num) (by norm_num at hinv' ⊢; linarith)).mono (by norm_num) (by linarith)

theorem Ulp.remag {r s l xh x : ℝ} (h : Ulp r l xh x) (hs : |log x| ≤ s) : Ulp s l xh x := ⟨h.pos, h.posh, hs, h.err⟩

/-- Kepler's law applied to a computed separation. -/
theorem ulp_get_f_orb_from_a' {ah l : ℝ} (ha : Ulp 93 l ah a) (hl : l ≤ 2 ^ 20) (h1 : Sensible m_1) (h2 : Sensible m_2)
    (hk : Ulp 219 5 k κ) :
    Ulp 430 (3 / 2 * l + 24) (get_f_orb_from_a A KK k ah m_1 m_2) (utils.get_f_orb_from_a KK a m_1 m_2 * κ) := by
  norm_num at hl
  have p := Ulp.mul (A := A) (Ulp.G (A := A)) (ulp_total (A := A) h1 h2) (by norm_num) (by norm_num)
  have q := Ulp.npow (A := A) 3 ha (by norm_num) (by norm_num) (by norm_num; linarith) (by norm_num; linarith)
  have r := Ulp.pow (A := A) (p := 0.5) (ph := 0.5) (d := 0) 0.5 (Ulp.div (A := A) p q (by norm_num) (by norm_num; linarith))
    (by rw [abs_le]; norm_num) (by simp) (by norm_num) (by norm_num) (by norm_num) (by norm_num; linarith) (by norm_num; linarith)
  exact (Ulp.mul (A := A) (Ulp.div (A := A) r (Ulp.twoPi (A := A)) (by norm_num) (by norm_num; linarith)) hk (by norm_num)
    (by norm_num; linarith)).mono (by norm_num) (by norm_num; linarith)

theorem ulp_get_t_merge_circ {ah b bh r₁ r₂ l₁ l₂ : ℝ} (ha : Ulp r₁ l₁ ah a) (hb : Ulp r₂ l₂ bh b) (hr : 4 * r₁ + r₂ ≤ 460)
    (hr₁ : 4 * r₁ ≤ 460) (hr₂ : r₂ ≤ 460) (hl₁ : l₁ ≤ 2 ^ 20) (hl₂ : l₂ ≤ 2 ^ 20) (hk : Ulp 219 5 k κ) :
    Ulp 689 (4 * l₁ + l₂ + 13) (get_t_merge_circ A k bh ah) (a ^ 4 / (4 * b) * κ) := by
  norm_num at hl₁ hl₂
  have p := Ulp.npow (A := A) 4 ha (by norm_num; linarith) (by linarith) (by norm_num; linarith) (by norm_num; linarith)
  have q := Ulp.mul (A := A) (Ulp.of_ten (x := 4) 1 (by norm_num) (by norm_num)) hb (by norm_num; linarith) (by norm_num; linarith)
  exact (Ulp.mul (A := A) (Ulp.div (A := A) p q (by norm_num; linarith) (by norm_num; linarith)) hk (by norm_num; linarith)
    (by norm_num; linarith)).mono (by norm_num; linarith) (by norm_num; linarith)

end Legwork.fl
