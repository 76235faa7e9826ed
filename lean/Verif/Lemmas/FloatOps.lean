import Verif.Lemmas.Float
import Verif.Model.Float
import Verif.Spec.Rounding

/-!
# Rounding errors of the operations, in machine epsilons

`Ulp r k xh x`: `xh` approximates `x > 0` up to `k` machine epsilons (of the logarithm), and `x` lies between `exp (-r)`
and `exp r`.
-/

namespace Legwork.fl

open Real Legwork.Spec

/-- Approximation up to `k` machine epsilons. -/
def Ulp (r k xh x : ℝ) : Prop := Apx r (k * eps) xh x

namespace Ulp

variable {A : Arith} {r s k l xh x yh y : ℝ}

theorem keps_le (hk : k ≤ 2 ^ 45) : k * eps ≤ 1 / 2 ^ 7 := by
  calc k * eps ≤ 2 ^ 45 * (1 / 2 ^ 52) := mul_le_mul hk eps_le eps_pos.le (by norm_num)
    _ = _ := by norm_num

theorem pos (h : Ulp r k xh x) : 0 < x := Apx.pos h
theorem posh (h : Ulp r k xh x) : 0 < xh := Apx.posh h
theorem k_nonneg (h : Ulp r k xh x) : 0 ≤ k := nonneg_of_mul_nonneg_left (Apx.δ_nonneg h) eps_pos

theorem mono (h : Ulp r k xh x) (hr : r ≤ s) (hk : k ≤ l) : Ulp s l xh x :=
  Apx.mono h hr (mul_le_mul_of_nonneg_right hk eps_pos.le)

theorem self (hx : 0 < x) (h : |log x| ≤ r) : Ulp r 0 x x := by
  unfold Ulp; rw [zero_mul]; exact Apx.self hx h

theorem rnd (h : Ulp r k xh x) (hr : r ≤ 689) (hk : k ≤ 2 ^ 45) : Ulp r (k + 1) (A.rnd xh) x := by
  unfold Ulp; rw [add_mul, one_mul]
  exact Apx.rnd A h (by have := keps_le hk; norm_num at this; linarith)

theorem mul (h : Ulp r k xh x) (h' : Ulp s l yh y) (hr : r + s ≤ 689) (hk : k + l ≤ 2 ^ 45) :
    Ulp (r + s) (k + l + 1) (A.mul xh yh) (x * y) := by
  have := Apx.mul h h'
  rw [← add_mul] at this
  exact rnd this hr hk

theorem div (h : Ulp r k xh x) (h' : Ulp s l yh y) (hr : r + s ≤ 689) (hk : k + l ≤ 2 ^ 45) :
    Ulp (r + s) (k + l + 1) (A.div xh yh) (x / y) := by
  have := Apx.div h h'
  rw [← add_mul] at this
  exact rnd this hr hk

theorem add (h : Ulp r k xh x) (h' : Ulp r k yh y) (hr : r ≤ 688) (hk : k ≤ 2 ^ 45) :
    Ulp (r + 7 / 10) (k + 1) (A.add xh yh) (x + y) :=
  rnd (Apx.add h h') (by linarith) hk

theorem pow {p ph d : ℝ} (q : ℝ) (h : Ulp r k xh x) (hq : |p| ≤ q) (hp : |ph - p| ≤ d * eps) (hr : q * r ≤ 600)
    (hr' : r ≤ 689) (hd : d ≤ 10) (hk : k ≤ 2 ^ 45) (hk' : q * k ≤ 2 ^ 45) :
    Ulp (q * r) (q * k + d * (r + 1) + 5) (A.pow xh ph) (x ^ p) := by
  have hr0 := Apx.r_nonneg h
  have hk0 := h.k_nonneg
  have hd0 : 0 ≤ d := nonneg_of_mul_nonneg_left ((abs_nonneg _).trans hp) eps_pos
  have he := keps_le hk
  have he' := keps_le hk'
  have hde : d * eps ≤ 10 * (1 / 2 ^ 52) := mul_le_mul hd eps_le eps_pos.le (by norm_num)
  have e0 := eps_pos
  have h1 : d * eps * (r + k * eps) ≤ d * eps * (r + 1) := by
    gcongr; norm_num at he; linarith
  have h2 : |p| * (k * eps) ≤ q * k * eps := by
    rw [mul_assoc]; gcongr
  have h3 : |p| * r ≤ q * r := by gcongr
  refine Apx.mono (Apx.pow A h hp ?_) h3 ?_
  · have h4 : d * eps * (r + 1) ≤ 10 * (1 / 2 ^ 52) * 690 := mul_le_mul hde (by linarith) (by linarith) (by norm_num)
    norm_num at h4 he'
    linarith
  · calc |p| * (k * eps) + d * eps * (r + k * eps) + 5 * eps ≤ q * k * eps + d * eps * (r + 1) + 5 * eps := by linarith
      _ = _ := by ring

/-- An integer power. -/
theorem npow (n : ℕ) (h : Ulp r k xh x) (hr : n * r ≤ 600) (hr' : r ≤ 689) (hk : k ≤ 2 ^ 45) (hk' : n * k ≤ 2 ^ 45) :
    Ulp (n * r) (n * k + 5) (A.pow xh n) (x ^ n) := by
  have := pow (A := A) (p := n) (ph := n) (d := 0) n h (by simp) (by simp) hr hr' (by norm_num) hk hk'
  rw [rpow_natCast] at this
  simpa using this

/-- The relative error. -/
theorem within (h : Ulp r k xh x) (hk : k ≤ 2 ^ 20) {k' : ℝ} (hk' : k + 1 ≤ k') : WithinUlps k' xh x := by
  unfold WithinUlps
  rw [abs_of_pos h.pos]
  exact Apx.rel_eps h hk hk'

/-- The relative error, without a bound on its size. -/
theorem within' (h : Ulp r k xh x) (hk : k ≤ 2 ^ 45) {k' : ℝ} (hk' : 101 / 100 * k ≤ k') : WithinUlps k' xh x := by
  unfold WithinUlps
  rw [abs_of_pos h.pos]
  have h1 := keps_le hk
  refine (Apx.rel h (h1.trans (by norm_num))).trans ?_
  have h0 := Apx.δ_nonneg h
  have hp := h.pos
  have he : (2 : ℝ) ^ (-52 : ℤ) = eps := rfl
  rw [he]
  gcongr
  have : (k * eps) ^ 2 ≤ 1 / 100 * (k * eps) := by
    rw [sq]; gcongr; exact h1.trans (by norm_num)
  calc _ ≤ 101 / 100 * k * eps := by linarith
    _ ≤ _ := by gcongr

/-- Back from the relative error. -/
theorem of_within {m : ℝ} (hx : 0 < x) (hm : |log x| ≤ r) (h : WithinUlps m xh x) (hm' : m ≤ 2 ^ 40) (hk : m * (101 / 100) ≤ k) :
    Ulp r k xh x := by
  unfold WithinUlps at h
  rw [abs_of_pos hx] at h
  have he : (2 : ℝ) ^ (-52 : ℤ) = eps := rfl
  rw [he] at h
  have hb := keps_le (k := m) (hm'.trans (by norm_num))
  have hb' : m * eps ≤ 1 / 2 ^ 12 := by
    calc m * eps ≤ 2 ^ 40 * (1 / 2 ^ 52) := mul_le_mul hm' eps_le eps_pos.le (by norm_num)
      _ = _ := by norm_num
  have h0 : 0 ≤ m * eps := nonneg_of_mul_nonneg_left ((abs_nonneg _).trans h) hx
  obtain ⟨h1, h2⟩ := log_near hx (lt_of_le_of_lt hb' (by norm_num)) h
  refine ⟨hx, h1, hm, h2.trans ?_⟩
  have : m * eps / (1 - m * eps) ≤ m * eps * (101 / 100) := by
    rw [div_le_iff₀ (by norm_num at hb'; linarith)]
    norm_num at hb'
    nlinarith
  refine this.trans ?_
  calc _ = m * (101 / 100) * eps := by ring
    _ ≤ _ := by gcongr

end Ulp

theorem ten_le : (10 : ℝ) ≤ 2 ^ 1000 :=
  le_trans (by norm_num : (10 : ℝ) ≤ 2 ^ 4) (pow_le_pow_right₀ (by norm_num) (by norm_num))

theorem lit_err (A : Arith) (a b : ℝ) (hp : |a / b| ≤ 10) : |A.div a b - a / b| ≤ (|a / b| * (51 / 100) + 1 / 1000) * eps := by
  refine (A.rnd_err (a / b) (hp.trans ten_le)).trans ?_
  have h1 : (2 : ℝ) ^ (-1075 : ℤ) ≤ 1 / 1000 * eps := by
    unfold eps
    calc (2 : ℝ) ^ (-1075 : ℤ) ≤ 2 ^ (-62 : ℤ) := zpow_le_zpow_right₀ (by norm_num) (by norm_num)
      _ ≤ _ := by norm_num
  have h2 : (2 : ℝ) ^ (-53 : ℤ) * |a / b| ≤ |a / b| * (51 / 100) * eps := by
    unfold eps
    have := abs_nonneg (a / b)
    calc (2 : ℝ) ^ (-53 : ℤ) * |a / b| = |a / b| * 2 ^ (-53 : ℤ) := mul_comm _ _
      _ ≤ |a / b| * (51 / 100 * 2 ^ (-52 : ℤ)) := by gcongr; norm_num
      _ = _ := by ring
  linarith

/-- Powers of ten have small logarithms. -/
theorem log_ten_le : log 10 ≤ 23026 / 10000 := by
  rw [log_ten_eq]
  linarith [log_two_lt_d9, log_five_lt_d9]

theorem Ulp.of_ten {x : ℝ} (n : ℕ) (h1 : 1 / 10 ^ n ≤ x) (h2 : x ≤ 10 ^ n) : Ulp (n * (23026 / 10000)) 0 x x := by
  unfold Ulp; rw [zero_mul]
  refine Apx.of_mem (10 ^ n) (one_le_pow₀ (by norm_num)) h1 h2 ?_
  rw [log_pow]
  exact mul_le_mul_of_nonneg_left log_ten_le (by positivity)

/-- A power whose exponent is a quotient of two literals. -/
theorem Ulp.powlit {A : Arith} {r k xh x : ℝ} (a b q : ℝ) (h : Ulp r k xh x) (hq : |a / b| ≤ q) (hq' : q ≤ 10) (hr : q * r ≤ 600)
    (hr' : r ≤ 689) (hk : k ≤ 2 ^ 40) :
    Ulp (q * r) (q * k + (q * (51 / 100) + 1 / 1000) * (r + 1) + 5) (A.pow xh (A.div a b)) (x ^ (a / b)) := by
  have h0 := h.k_nonneg
  have hq0 := (abs_nonneg _).trans hq
  refine Ulp.pow q h hq ((lit_err A a b (hq.trans hq')).trans ?_) hr hr' (by linarith) (hk.trans (by norm_num)) ?_
  · have := eps_pos
    gcongr
  · calc q * k ≤ 10 * 2 ^ 40 := mul_le_mul hq' hk h0 (by norm_num)
      _ ≤ _ := by norm_num

/-- A rounded literal. -/
theorem Ulp.lit {A : Arith} {x : ℝ} (n : ℕ) (hn : n ≤ 200) (h1 : 1 / 10 ^ n ≤ x) (h2 : x ≤ 10 ^ n) :
    Ulp (n * (23026 / 10000)) 1 (A.rnd x) x := by
  have hn' : (n : ℝ) ≤ 200 := by exact_mod_cast hn
  simpa using Ulp.rnd (A := A) (Ulp.of_ten n h1 h2) (by linarith) (by norm_num)

theorem Ulp.divlit {A : Arith} (a b : ℝ) (n : ℕ) (hn : n ≤ 200) (h1 : 1 / 10 ^ n ≤ a / b) (h2 : a / b ≤ 10 ^ n) :
    Ulp (n * (23026 / 10000)) 1 (A.div a b) (a / b) := Ulp.lit n hn h1 h2

theorem Ulp.pi {A : Arith} : Ulp (23026 / 10000) 1 A.pi Real.pi := by
  have := Ulp.lit (A := A) (x := Real.pi) 1 (by norm_num) (by norm_num; linarith [Real.two_le_pi])
    (by norm_num; linarith [Real.pi_le_four])
  simpa [Arith.pi] using this

theorem Ulp.twoPi {A : Arith} : Ulp 5 2 (A.mul 2 A.pi) (2 * Real.pi) :=
  (Ulp.mul (Ulp.of_ten (x := 2) 1 (by norm_num) (by norm_num)) Ulp.pi (by norm_num) (by norm_num)).mono
    (by norm_num) (by norm_num)

theorem Ulp.G {A : Arith} : Ulp 26 1 (A.rnd Consts.codata2018.G) Consts.codata2018.G :=
  (Ulp.lit 11 (by norm_num) (by norm_num [Consts.codata2018]) (by norm_num [Consts.codata2018])).mono (by norm_num) (le_refl _)

theorem Ulp.c {A : Arith} : Ulp 21 1 (A.rnd Consts.codata2018.c) Consts.codata2018.c :=
  (Ulp.lit 9 (by norm_num) (by norm_num [Consts.codata2018]) (by norm_num [Consts.codata2018])).mono (by norm_num) (le_refl _)

end Legwork.fl
