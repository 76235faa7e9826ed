import Verif.Lemmas.FloatUtils
import Verif.Model.Strain
import Verif.Model.Psd
import Mathlib.Analysis.Real.Pi.Bounds

/-!
# Rounding errors of strains, noise curves and signal-to-noise ratios
-/

namespace Legwork.fl

open Real Legwork.Spec

variable {A : Arith}

theorem Arith.rnd_self (A : Arith) {x : ℝ} (h : IsDouble x) (hx : |x| ≤ 2 ^ 1000) : A.rnd x = x := by
  have := (A.nearest x hx).2 x h
  rw [sub_self, abs_zero] at this
  exact sub_eq_zero.1 (abs_eq_zero.1 (le_antisymm this (abs_nonneg _)))

theorem Arith.rnd_int (A : Arith) (m : ℤ) (hm : |m| < 2 ^ 53) : A.rnd m = m := by
  refine A.rnd_self ⟨m, 0, hm, by norm_num, by norm_num, by simp⟩ ?_
  have : (|m| : ℝ) ≤ 2 ^ 53 := by exact_mod_cast hm.le
  exact this.trans (pow_le_pow_right₀ (by norm_num) (by norm_num))

theorem Arith.rnd_zero (A : Arith) : A.rnd 0 = 0 := by simpa using A.rnd_int 0 (by norm_num)
theorem Arith.rnd_one (A : Arith) : A.rnd 1 = 1 := by simpa using A.rnd_int 1 (by norm_num)
theorem Arith.rnd_half (A : Arith) : A.rnd (1 / 2) = 1 / 2 :=
  A.rnd_self ⟨1, -1, by norm_num, by norm_num, by norm_num, by norm_num⟩
    (by rw [abs_of_pos (by norm_num)]; exact le_trans (by norm_num) (one_le_pow₀ (by norm_num : (1 : ℝ) ≤ 2)))

theorem Ab.fsub {b b' m m' xh x yh y : ℝ} (h : Ab b m xh x) (h' : Ab b' m' yh y) (hb : b + b' ≤ 1000) (hm : m + m' ≤ 2 ^ 30) :
    Ab (b + b') (m + m' + (b + b') * (51 / 100) + 1 / 100) (A.sub xh yh) (x - y) := by
  have hn : Ab b' m' (-yh) (-y) := ⟨by rw [abs_neg]; exact h'.1, by
    rw [show -yh - -y = -(yh - y) by ring, abs_neg]; exact h'.2⟩
  have := Ab.fadd (A := A) h hn hb hm
  simpa [Arith.sub, Arith.add, sub_eq_add_neg] using this

/-- For a circular orbit all the power is in the second harmonic, also in floating point. -/
theorem ulp_peters_g_circ (B : BesselAtZero) : Ulp 2 12 (peters_g A B 2 0) 1 := by
  have h1 : B.jv 1 0 = 0 := B.pos 1 (by norm_num)
  have h2 : B.jv 2 0 = 0 := B.pos 2 (by norm_num)
  have h3 : B.jv 3 0 = 0 := B.pos 3 (by norm_num)
  have h4 : B.jv 4 0 = 0 := B.pos 4 (by norm_num)
  have hg : peters_g A B 2 0 = A.mul (A.div 16 32) (A.add (A.add 1 (A.mul (A.sub 1 (A.pow 0 2)) 1)) 0) := by
    unfold peters_g
    simp [Arith.mul, Arith.add, Arith.sub, Arith.div, A.rnd_zero, A.rnd_one, h1, h2, h3, h4, B.zero]
  have hd : A.div 16 32 = 1 / 2 := by
    unfold Arith.div; rw [show (16 / 32 : ℝ) = 1 / 2 by norm_num]; exact A.rnd_half
  rw [hg, hd]
  have a := Ab.pow_unit (A := A) (e := 0) (le_refl _) (by norm_num) 2 (by norm_num)
  have one : Ab 1 0 1 1 := Ab.exact (by norm_num)
  have b := Ab.fmul (A := A) (Ab.fsub (A := A) one a (by norm_num) (by norm_num)) one (by norm_num) (by norm_num) (by norm_num) (by norm_num)
  have c := Ab.fadd (A := A) (Ab.fadd (A := A) one b (by norm_num) (by norm_num)) (Ab.exact (x := 0) (b := 0) (by norm_num)) (by norm_num) (by norm_num)
  have d := Ab.fmul (A := A) (Ab.exact (x := 1 / 2) (b := 1 / 2) (by norm_num [abs_of_pos])) c (by norm_num) (by norm_num) (by norm_num) (by norm_num)
  have e := d.ulp (n := 12) (r := 2) (by norm_num) (by norm_num) ((log_le_of_le_four (by norm_num) (by norm_num)).trans (by norm_num)) (by norm_num)
  have hx : (1 / 2 * (1 + (1 - 0 ^ 2) * 1 + 0) : ℝ) = 1 := by norm_num
  rw [hx] at e
  exact e

local notation "KK" => Consts.codata2018

variable {k κ m_c f d : ℝ}

/-- The exact value of `h_0` for a circular orbit. -/
noncomputable def h0circ (m_c f d : ℝ) : ℝ :=
  (2 ^ (28 / 3 : ℝ) / 5) ^ (0.5 : ℝ) * (KK).G ^ (5 / 3 : ℝ) / (KK).c ^ 4 * m_c ^ (5 / 3 : ℝ) * (π * f) ^ (2 / 3 : ℝ) / d * (1 ^ (1 / 2 : ℝ) / 2)

theorem ulp_h_0_n (B : BesselAtZero) (hm : Sensible m_c) (hf : Sensible f) (hd : Sensible d) (hk : Ulp 219 5 k κ) :
    Ulp 689 250 (h_0_n A KK B k m_c f 0 2 d) (h0circ m_c f d * κ) := by
  have p0 := Ulp.powlit (A := A) 28 3 (28 / 3) (Ulp.of_ten (x := 2) 1 (by norm_num) (by norm_num))
    (by rw [abs_le]; norm_num) (by norm_num) (by norm_num) (by norm_num) (by norm_num)
  have p1 := Ulp.pow (A := A) (p := 0.5) (ph := 0.5) (d := 0) 0.5
    (Ulp.div (A := A) p0 (Ulp.of_ten (x := 5) 1 (by norm_num) (by norm_num)) (by norm_num) (by norm_num))
    (by rw [abs_le]; norm_num) (by simp) (by norm_num) (by norm_num) (by norm_num) (by norm_num) (by norm_num)
  have p2 := Ulp.powlit (A := A) 5 3 (5 / 3) (Ulp.G (A := A))
    (by rw [abs_le]; norm_num) (by norm_num) (by norm_num) (by norm_num) (by norm_num)
  have p3 := Ulp.npow (A := A) 4 (Ulp.c (A := A)) (by norm_num) (by norm_num) (by norm_num) (by norm_num)
  have pre := Ulp.div (A := A) (Ulp.mul (A := A) p1 p2 (by norm_num) (by norm_num)) p3 (by norm_num) (by norm_num)
  have q1 := Ulp.powlit (A := A) 5 3 (5 / 3) (ulp_sensible hm)
    (by rw [abs_le]; norm_num) (by norm_num) (by norm_num) (by norm_num) (by norm_num)
  have q2 := Ulp.powlit (A := A) 2 3 (2 / 3) (Ulp.mul (A := A) (Ulp.pi (A := A)) (ulp_sensible hf) (by norm_num) (by norm_num))
    (by rw [abs_le]; norm_num) (by norm_num) (by norm_num) (by norm_num) (by norm_num)
  have ni := Ulp.div (A := A) (Ulp.mul (A := A) (Ulp.mul (A := A) pre q1 (by norm_num) (by norm_num)) q2 (by norm_num) (by norm_num))
    (ulp_sensible hd) (by norm_num) (by norm_num)
  have g := Ulp.powlit (A := A) 1 2 (1 / 2) (ulp_peters_g_circ (A := A) B)
    (by rw [abs_le]; norm_num) (by norm_num) (by norm_num) (by norm_num) (by norm_num)
  have nd := Ulp.div (A := A) g (Ulp.of_ten (x := 2) 1 (by norm_num) (by norm_num)) (by norm_num) (by norm_num)
  have h := Ulp.mul (A := A) (Ulp.mul (A := A) ni nd (by norm_num) (by norm_num)) hk (by norm_num) (by norm_num)
  unfold h_0_n h0circ
  push_cast
  exact h.mono (by norm_num) (by norm_num)

theorem ulp_snr (B : BesselAtZero) {k' κ' T S Sh l : ℝ} (hm : Sensible m_c) (hf : Sensible f) (hd : Sensible d)
    (hk : Ulp 219 5 k κ) (hk' : Ulp 219 5 k' κ') (hh : |log (h0circ m_c f d * κ)| ≤ 130) (hT : Sensible T) (hS : Ulp 120 l Sh S)
    (hl : l ≤ 2 ^ 20) :
    Ulp 500 (270 + l / 2) (snr_circ_stationary A KK B k k' m_c f d T Sh) (((h0circ m_c f d * κ) ^ 2 * T / S) ^ (0.5 : ℝ) * κ') := by
  norm_num at hl
  have h := (ulp_h_0_n (A := A) B hm hf hd hk).remag hh
  have h2 := Ulp.npow (A := A) 2 h (by norm_num) (by norm_num) (by norm_num) (by norm_num)
  have h3 := Ulp.mul (A := A) h2 (ulp_sensible hT) (by norm_num) (by norm_num)
  have h4 := Ulp.div (A := A) h3 hS (by norm_num) (by norm_num; linarith)
  have h5 := Ulp.pow (A := A) (p := 0.5) (ph := 0.5) (d := 0) 0.5 h4
    (by rw [abs_le]; norm_num) (by simp) (by norm_num) (by norm_num) (by norm_num) (by norm_num; linarith) (by norm_num; linarith)
  exact (Ulp.mul (A := A) h5 hk' (by norm_num) (by norm_num; linarith)).mono (by norm_num) (by norm_num; linarith)

theorem Ulp.add' {r s q k l n xh x yh y : ℝ} (h : Ulp r k xh x) (h' : Ulp s l yh y) (hr : r ≤ q) (hs : s ≤ q) (hk : k ≤ n)
    (hl : l ≤ n) (hq : q ≤ 688) (hn : n ≤ 2 ^ 45) : Ulp (q + 7 / 10) (n + 1) (A.add xh yh) (x + y) :=
  Ulp.add (h.mono hr hk) (h'.mono hs hl) hq hn

theorem ulp_one : Ulp 0 0 1 1 := Ulp.self one_pos (by simp)

theorem ulp_fstar {L : ℝ} (hL : 1 / 10 ^ 11 ≤ L) (hL' : L ≤ 10 ^ 11) :
    Ulp 52 5 (A.div (A.rnd (KK).c) (A.mul (A.mul 2 A.pi) L)) ((KK).c / (2 * π * L)) := by
  have q := Ulp.mul (A := A) (Ulp.twoPi (A := A)) (Ulp.of_ten 11 hL hL') (by norm_num) (by norm_num)
  exact (Ulp.div (A := A) (Ulp.c (A := A)) q (by norm_num) (by norm_num)).mono (by norm_num) (by norm_num)

theorem ulp_response {r x xh fh fs : ℝ} (hx : Ulp r 6 (A.div fh fs) x) (hr : r ≤ 100) :
    Ulp 210 22 (approximate_response_function A fh fs) (3 / 10 / (1 + 0.6 * x ^ 2)) := by
  have p := Ulp.npow (A := A) 2 hx (by norm_num; linarith) (by linarith) (by norm_num) (by norm_num)
  have q := Ulp.mul (A := A) (Ulp.lit (A := A) (x := 0.6) 1 (by norm_num) (by norm_num) (by norm_num)) p (by norm_num; linarith) (by norm_num)
  have a := Ulp.add' (A := A) (q := 203) (n := 19) ulp_one q (by norm_num) (by norm_num; linarith) (by norm_num) (by norm_num) (by norm_num) (by norm_num)
  exact (Ulp.div (A := A) (Ulp.divlit (A := A) 3 10 1 (by norm_num) (by norm_num) (by norm_num)) a (by norm_num) (by norm_num)).mono
    (by norm_num) (by norm_num)

theorem ulp_cos_factor (C : Cosine) {r x xh : ℝ} (hx : Ulp r 6 xh x) (hb : x ≤ 4500) :
    Ulp (14 / 10) (15 * x + 10) (A.add 1 (A.mul (C.cos xh) (C.cos xh))) (1 + cos x ^ 2) := by
  have hx0 := hx.pos
  have hw : |xh - x| ≤ 7 * eps * x := Apx.rel_eps hx (by norm_num) (by norm_num)
  have he := eps_le
  have e0 := eps_pos
  have hsm : 7 * eps * x ≤ 1 := by
    have : 7 * eps * x ≤ 7 * (1 / 2 ^ 52) * 4500 := by gcongr
    exact this.trans (by norm_num)
  have hxh : |xh| ≤ 2 ^ 20 := by
    rw [abs_of_pos hx.posh]
    have := (abs_le.1 hw).2
    norm_num; linarith
  have h1 : |C.cos xh - cos x| ≤ (7 * x + 4) * eps := by
    have a := C.err xh hxh
    have b : |cos xh - cos x| ≤ |xh - x| := abs_cos_sub_cos_le xh x
    have c := abs_add_le (C.cos xh - cos xh) (cos xh - cos x)
    rw [sub_add_sub_cancel] at c
    have h5 : (2 : ℝ) ^ (-50 : ℤ) = 4 * eps := by unfold eps; norm_num
    rw [h5] at a
    linarith
  have ab : Ab 1 (7 * x + 4) (C.cos xh) (cos x) := ⟨abs_cos_le_one x, h1⟩
  have sq := Ab.fmul (A := A) ab ab (by norm_num; linarith) (by norm_num; linarith) (by norm_num) (by norm_num; linarith)
  have s := Ab.fadd (A := A) (Ab.exact (x := 1) (b := 1) (by norm_num)) sq (by norm_num) (by norm_num; linarith)
  rw [← pow_two (cos x)] at s
  refine s.ulp ?_ (by norm_num; linarith) (log_le_of_le_four (by norm_num) (by norm_num)) (by linarith)
  nlinarith [sq_nonneg (cos x)]

theorem lisa_phase_le {L : ℝ} (hf' : f ≤ 2) (hL : 1 / 10 ^ 11 ≤ L) (hL' : L ≤ 10 ^ 11) : f / ((KK).c / (2 * π * L)) ≤ 4500 := by
  have hc : (0 : ℝ) < (KK).c := (KK).c_pos
  have hl0 : 0 < L := lt_of_lt_of_le (by norm_num) hL
  have hp := pi_pos
  have hp4 : π ≤ 3.15 := pi_lt_d2.le
  rw [div_div_eq_mul_div, div_le_iff₀ hc]
  have : f * (2 * π * L) ≤ 2 * (2 * 3.15 * 10 ^ 11) := by gcongr
  refine this.trans ?_
  norm_num [Consts.codata2018]

/-- The part of the noise that is due to the instrument. -/
noncomputable def lisa_instrument (A : Arith) (C : Cosine) (f L : ℝ) : ℝ :=
  let Poms := A.mul (A.pow (A.rnd 1.5e-11) 2) (A.add 1 (A.pow (A.div (A.rnd 2e-3) f) 4))
  let Pacc := A.mul (A.mul (A.pow (A.rnd 3e-15) 2) (A.add 1 (A.pow (A.div (A.rnd 0.4e-3) f) 2)))
    (A.add 1 (A.pow (A.div f (A.rnd 8e-3)) 4))
  let fstar := A.div (A.rnd (KK).c) (A.mul (A.mul 2 A.pi) L)
  let R := approximate_response_function A f fstar
  let cos := C.cos (A.div f fstar)
  A.div (A.mul (A.div 1 (A.pow L 2)) (A.add Poms
    (A.div (A.mul (A.mul 2 (A.add 1 (A.mul cos cos))) Pacc) (A.pow (A.mul (A.mul 2 A.pi) f) 4)))) R

theorem ulp_lisa (C : Cosine) {L : ℝ} (hf : 1 / 10 ^ 7 ≤ f) (hf' : f ≤ 2) (hL : 1 / 10 ^ 11 ≤ L) (hL' : L ≤ 10 ^ 11) :
    Ulp 600 (15 * (f / ((KK).c / (2 * π * L))) + 96) (lisa_instrument A C f L)
      ((1 / L ^ 2 * (psd.lisa_Poms f + 2 * (1 + cos (f / ((KK).c / (2 * π * L))) ^ 2) * psd.lisa_Pacc f / (2 * π * f) ^ 4))
        / psd.approximate_response_function f ((KK).c / (2 * π * L))) := by
  have uf : Ulp (17) 0 f f := (Ulp.of_ten 7 hf (hf'.trans (by norm_num))).mono (by norm_num) (le_refl _)
  have ul := Ulp.of_ten 11 hL hL'
  have us := ulp_fstar (A := A) hL hL'
  have ux := Ulp.div (A := A) uf us (by norm_num) (by norm_num)
  have ux' : Ulp 69 6 (A.div f (A.div (A.rnd (KK).c) (A.mul (A.mul 2 A.pi) L))) (f / ((KK).c / (2 * π * L))) :=
    ux.mono (by norm_num) (by norm_num)
  have hxb := lisa_phase_le hf' hL hL'
  have hx0 := ux'.pos
  have uR := ulp_response (xh := 0) ux' (by norm_num)
  have uc := ulp_cos_factor (A := A) C ux' hxb
  unfold lisa_instrument psd.lisa_Poms psd.lisa_Pacc psd.approximate_response_function
  generalize f / ((KK).c / (2 * π * L)) = x at *
  have l1 := Ulp.lit (A := A) (x := 1.5e-11) 11 (by norm_num) (by norm_num) (by norm_num)
  have l2 := Ulp.lit (A := A) (x := 2e-3) 3 (by norm_num) (by norm_num) (by norm_num)
  have l3 := Ulp.lit (A := A) (x := 3e-15) 15 (by norm_num) (by norm_num) (by norm_num)
  have l4 := Ulp.lit (A := A) (x := 0.4e-3) 4 (by norm_num) (by norm_num) (by norm_num)
  have l5 := Ulp.lit (A := A) (x := 8e-3) 3 (by norm_num) (by norm_num) (by norm_num)
  have p1 := Ulp.npow (A := A) 2 l1 (by norm_num) (by norm_num) (by norm_num) (by norm_num)
  have p2 := Ulp.npow (A := A) 4 (Ulp.div (A := A) l2 uf (by norm_num) (by norm_num)) (by norm_num) (by norm_num) (by norm_num) (by norm_num)
  have p3 := Ulp.add' (A := A) (q := 99) (n := 13) ulp_one p2 (by norm_num) (by norm_num) (by norm_num) (by norm_num) (by norm_num) (by norm_num)
  have Po := Ulp.mul (A := A) p1 p3 (by norm_num) (by norm_num)
  have a1 := Ulp.npow (A := A) 2 l3 (by norm_num) (by norm_num) (by norm_num) (by norm_num)
  have a2 := Ulp.npow (A := A) 2 (Ulp.div (A := A) l4 uf (by norm_num) (by norm_num)) (by norm_num) (by norm_num) (by norm_num) (by norm_num)
  have a3 := Ulp.add' (A := A) (q := 55) (n := 9) ulp_one a2 (by norm_num) (by norm_num) (by norm_num) (by norm_num) (by norm_num) (by norm_num)
  have a4 := Ulp.npow (A := A) 4 (Ulp.div (A := A) uf l5 (by norm_num) (by norm_num)) (by norm_num) (by norm_num) (by norm_num) (by norm_num)
  have a5 := Ulp.add' (A := A) (q := 99) (n := 13) ulp_one a4 (by norm_num) (by norm_num) (by norm_num) (by norm_num) (by norm_num) (by norm_num)
  have Pa := Ulp.mul (A := A) (Ulp.mul (A := A) a1 a3 (by norm_num) (by norm_num)) a5 (by norm_num) (by norm_num)
  have w := Ulp.npow (A := A) 4 (Ulp.mul (A := A) (Ulp.twoPi (A := A)) uf (by norm_num) (by norm_num)) (by norm_num) (by norm_num) (by norm_num) (by norm_num)
  have t1 := Ulp.mul (A := A) (Ulp.of_ten (x := 2) 1 (by norm_num) (by norm_num)) uc (by norm_num) (by norm_num; linarith)
  have t2 := Ulp.mul (A := A) t1 Pa (by norm_num) (by norm_num; linarith)
  have t3 := Ulp.div (A := A) t2 w (by norm_num) (by norm_num; linarith)
  have s1 := Ulp.add' (A := A) (q := 330) (n := 15 * x + 63) Po t3 (by norm_num) (by norm_num) (by norm_num; linarith)
    (by norm_num; linarith) (by norm_num) (by norm_num; linarith)
  have i1 := Ulp.div (A := A) ulp_one (Ulp.npow (A := A) 2 ul (by norm_num) (by norm_num) (by norm_num) (by norm_num)) (by norm_num) (by norm_num)
  have m1 := Ulp.mul (A := A) i1 s1 (by norm_num) (by norm_num; linarith)
  have d1 := Ulp.div (A := A) m1 uR (by norm_num) (by norm_num; linarith)
  exact d1.mono (by norm_num) (by norm_num; linarith)

theorem lisa_psd_eq (C : Cosine) (L cn : ℝ) : lisa_psd A KK C f L cn = A.add (lisa_instrument A C f L) cn := rfl

/-- Adding a confusion noise whose error is `m` units of the total. -/
theorem within_add_confusion {r n m I Ih cn cnh S : ℝ} (hI : Ulp r n Ih I) (hn : n ≤ 2 ^ 20) (hm : m ≤ 2 ^ 20) (hS : S = I + cn)
    (h0 : 0 ≤ cn) (hr : |log S| ≤ 680) (he : |cnh - cn| ≤ m * 2 ^ (-52 : ℤ) * S) :
    Ulp 680 (102 / 100 * (102 / 100 * n + m) + 1) (A.add Ih cnh) S := by
  have hp : 0 < S := by rw [hS]; linarith [hI.pos]
  have hm0 : 0 ≤ m := by
    have h1 := (abs_nonneg _).trans he
    have h2 : 0 < (2 : ℝ) ^ (-52 : ℤ) * S := by positivity
    rw [mul_assoc] at h1
    exact nonneg_of_mul_nonneg_left h1 h2
  have hn0 := hI.k_nonneg
  have h1 : WithinUlps (102 / 100 * n) Ih I := hI.within' (hn.trans (by norm_num)) (by linarith)
  have h2 : WithinUlps (102 / 100 * n + m) (Ih + cnh) S := by
    unfold WithinUlps at *
    rw [abs_of_pos hI.pos] at h1
    rw [abs_of_pos hp]
    have h3 := abs_add_le (Ih - I) (cnh - cn)
    rw [show Ih - I + (cnh - cn) = Ih + cnh - S by rw [hS]; ring] at h3
    have h4 : 102 / 100 * n * 2 ^ (-52 : ℤ) * I ≤ 102 / 100 * n * 2 ^ (-52 : ℤ) * S := by
      apply mul_le_mul_of_nonneg_left _ (by positivity); rw [hS]; linarith
    calc _ ≤ _ := h3
      _ ≤ _ := add_le_add (h1.trans h4) he
      _ = _ := by ring
  norm_num at hn hm
  have h5 := Ulp.of_within (k := 102 / 100 * (102 / 100 * n + m)) hp hr h2 (by norm_num; linarith) (by linarith)
  exact Ulp.rnd (A := A) h5 (by norm_num) (by norm_num; linarith)

theorem ulp_tianqin {L : ℝ} (hf : 1 / 10 ^ 7 ≤ f) (hf' : f ≤ 10 ^ 7) (hL : 1 / 10 ^ 11 ≤ L) (hL' : L ≤ 10 ^ 11) :
    Ulp 600 96 (A.mul (A.mul (A.div 10 (A.mul 3 (A.pow L 2))) (A.add (A.mul (A.div (A.mul 4 (A.rnd 1e-30))
        (A.pow (A.mul (A.mul 2 A.pi) f) 4)) (A.add 1 (A.div (A.rnd 1e-4) f))) (A.rnd 1e-24)))
        (A.add 1 (A.mul (A.rnd 0.6) (A.pow (A.div f (A.div (A.rnd (KK).c) (A.mul (A.mul 2 A.pi) L))) 2))))
      (10 / (3 * L ^ 2) * (4 * 1e-30 / (2 * π * f) ^ 4 * (1 + 1e-4 / f) + 1e-24)
        * (1 + 0.6 * (f / ((KK).c / (2 * π * L))) ^ 2)) := by
  have uf : Ulp (17) 0 f f := (Ulp.of_ten 7 hf (hf'.trans (by norm_num))).mono (by norm_num) (le_refl _)
  have ul := Ulp.of_ten 11 hL hL'
  have us := ulp_fstar (A := A) hL hL'
  have ux := Ulp.div (A := A) uf us (by norm_num) (by norm_num)
  have l1 := Ulp.lit (A := A) (x := 1e-30) 30 (by norm_num) (by norm_num) (by norm_num)
  have l2 := Ulp.lit (A := A) (x := 1e-4) 4 (by norm_num) (by norm_num) (by norm_num)
  have l3 := Ulp.lit (A := A) (x := 1e-24) 24 (by norm_num) (by norm_num) (by norm_num)
  have l4 := Ulp.lit (A := A) (x := 0.6) 1 (by norm_num) (by norm_num) (by norm_num)
  have w := Ulp.npow (A := A) 4 (Ulp.mul (A := A) (Ulp.twoPi (A := A)) uf (by norm_num) (by norm_num)) (by norm_num) (by norm_num) (by norm_num) (by norm_num)
  have a1 := Ulp.div (A := A) (Ulp.mul (A := A) (Ulp.of_ten (x := 4) 1 (by norm_num) (by norm_num)) l1 (by norm_num) (by norm_num)) w
    (by norm_num) (by norm_num)
  have a2 := Ulp.add' (A := A) (q := 30) (n := 2) ulp_one (Ulp.div (A := A) l2 uf (by norm_num) (by norm_num))
    (by norm_num) (by norm_num) (by norm_num) (by norm_num) (by norm_num) (by norm_num)
  have a3 := Ulp.add' (A := A) (q := 230) (n := 40) (Ulp.mul (A := A) a1 a2 (by norm_num) (by norm_num)) l3
    (by norm_num) (by norm_num) (by norm_num) (by norm_num) (by norm_num) (by norm_num)
  have b1 := Ulp.div (A := A) (Ulp.of_ten (x := 10) 1 (by norm_num) (by norm_num)) (Ulp.mul (A := A) (Ulp.of_ten (x := 3) 1 (by norm_num) (by norm_num))
    (Ulp.npow (A := A) 2 ul (by norm_num) (by norm_num) (by norm_num) (by norm_num)) (by norm_num) (by norm_num)) (by norm_num) (by norm_num)
  have c1 := Ulp.mul (A := A) l4 (Ulp.npow (A := A) 2 ux (by norm_num) (by norm_num) (by norm_num) (by norm_num)) (by norm_num) (by norm_num)
  have c2 := Ulp.add' (A := A) (q := 150) (n := 20) ulp_one c1
    (by norm_num) (by norm_num) (by norm_num) (by norm_num) (by norm_num) (by norm_num)
  exact (Ulp.mul (A := A) (Ulp.mul (A := A) b1 a3 (by norm_num) (by norm_num)) c2 (by norm_num) (by norm_num)).mono
    (by norm_num) (by norm_num)

theorem ulp_decigo (hf : 1 / 10 ^ 3 ≤ f) (hf' : f ≤ 10 ^ 3) :
    Ulp 600 40 (A.add (A.add (A.mul (A.rnd 6.53e-48) (A.add 1 (A.pow (A.div f (A.rnd 7.36)) 2)))
        (A.mul (A.mul (A.rnd 4.8e-51) (A.pow f (-4))) (A.pow (A.add 1 (A.pow (A.div f (A.rnd 7.36)) 2)) (-1))))
        (A.mul (A.rnd 5.33e-52) (A.pow f (-4))))
      (6.53e-48 * (1 + (f / psd.decigo_fp) ^ 2) + 4.8e-51 * f ^ (-4 : ℤ) * (1 + (f / psd.decigo_fp) ^ 2) ^ (-1 : ℤ)
        + 5.33e-52 * f ^ (-4 : ℤ)) := by
  have uf := Ulp.of_ten 3 hf hf'
  have l1 := Ulp.lit (A := A) (x := 6.53e-48) 48 (by norm_num) (by norm_num) (by norm_num)
  have l2 := Ulp.lit (A := A) (x := 4.8e-51) 51 (by norm_num) (by norm_num) (by norm_num)
  have l3 := Ulp.lit (A := A) (x := 5.33e-52) 52 (by norm_num) (by norm_num) (by norm_num)
  have l4 := Ulp.lit (A := A) (x := 7.36) 1 (by norm_num) (by norm_num) (by norm_num)
  have q := Ulp.add' (A := A) (q := 19) (n := 9) ulp_one (Ulp.npow (A := A) 2 (Ulp.div (A := A) uf l4 (by norm_num) (by norm_num))
    (by norm_num) (by norm_num) (by norm_num) (by norm_num)) (by norm_num) (by norm_num) (by norm_num) (by norm_num) (by norm_num) (by norm_num)
  have f4 := Ulp.pow (A := A) (p := -4) (ph := -4) (d := 0) 4 uf
    (by rw [abs_le]; norm_num) (by simp) (by norm_num) (by norm_num) (by norm_num) (by norm_num) (by norm_num)
  have q1 := Ulp.pow (A := A) (p := -1) (ph := -1) (d := 0) 1 q
    (by rw [abs_le]; norm_num) (by simp) (by norm_num) (by norm_num) (by norm_num) (by norm_num) (by norm_num)
  have s1 := Ulp.mul (A := A) l1 q (by norm_num) (by norm_num)
  have s2 := Ulp.mul (A := A) (Ulp.mul (A := A) l2 f4 (by norm_num) (by norm_num)) q1 (by norm_num) (by norm_num)
  have s3 := Ulp.mul (A := A) l3 f4 (by norm_num) (by norm_num)
  have t1 := Ulp.add' (A := A) (q := 170) (n := 30) s1 s2 (by norm_num) (by norm_num) (by norm_num) (by norm_num) (by norm_num) (by norm_num)
  have t2 := Ulp.add' (A := A) (q := 172) (n := 31) t1 s3 (by norm_num) (by norm_num) (by norm_num) (by norm_num) (by norm_num) (by norm_num)
  have e : ∀ x : ℝ, x ^ (-4 : ℤ) = x ^ (-4 : ℝ) := fun x => by rw [← rpow_intCast]; norm_num
  have e' : ∀ x : ℝ, x ^ (-1 : ℤ) = x ^ (-1 : ℝ) := fun x => by rw [← rpow_intCast]; norm_num
  rw [e, e']
  exact t2.mono (by norm_num) (by norm_num)

end Legwork.fl
