import Verif.Model.Units
import Verif.Spec.Units

/-!
# Arithmetic on quantities agrees with arithmetic on SI values
-/

namespace Legwork.units

open Real Legwork.Spec

theorem qty_of_denotes {v : Val} {d : Dim} {x : ℝ} (h : Denotes v d x) (hd : d ≠ 0) :
    ∃ q : Quantity, v = .qty q ∧ q.unit.dim = d ∧ q.value * q.unit.scale = x := by
  cases v with
  | num y => exact absurd h.1 hd
  | qty q => exact ⟨q, rfl, h.1, h.2⟩

theorem denotes_num (x : ℝ) : Denotes (.num x) 0 x := ⟨rfl, rfl⟩

theorem denotes_mul {a b : Val} {d d' : Dim} {x y : ℝ} (ha : Denotes a d x) (hb : Denotes b d' y) :
    Denotes (a * b) (d + d') (x * y) := by
  cases a <;> cases b <;> obtain ⟨rfl, rfl⟩ := ha <;> obtain ⟨rfl, rfl⟩ := hb
  · exact ⟨by simp, rfl⟩
  · exact ⟨by simp, by simp [mul_assoc]⟩
  · refine ⟨by simp, ?_⟩
    simp; ring
  · refine ⟨rfl, ?_⟩
    show _ * _ * (_ * _) = _
    ring

theorem denotes_div {a b : Val} {d d' : Dim} {x y : ℝ} (ha : Denotes a d x) (hb : Denotes b d' y) :
    Denotes (a / b) (d - d') (x / y) := by
  cases a <;> cases b <;> obtain ⟨rfl, rfl⟩ := ha <;> obtain ⟨rfl, rfl⟩ := hb
  · exact ⟨by simp, rfl⟩
  · refine ⟨rfl, ?_⟩
    show _ / _ * (1 / _) = _
    rw [div_mul_div_comm, mul_one]
  · refine ⟨by simp, ?_⟩
    show _ / _ * _ = _
    ring
  · refine ⟨rfl, ?_⟩
    show _ / _ * (_ / _) = _
    rw [div_mul_div_comm]

/-- A power of a product with a positive factor, whatever the sign of the other one. -/
theorem mul_rpow_pos (v : ℝ) {k : ℝ} (hk : 0 < k) (p : ℝ) : v ^ p * k ^ p = (v * k) ^ p := by
  rcases le_or_gt 0 v with h | h
  · rw [Real.mul_rpow h hk.le]
  · rw [Real.rpow_def_of_neg h, Real.rpow_def_of_neg (mul_neg_of_neg_of_pos h hk), Real.rpow_def_of_pos hk,
      Real.log_mul h.ne hk.ne', add_mul, Real.exp_add]
    ring

theorem denotes_rpow {a : Val} {d : Dim} {x : ℝ} (p : ℚ) (ha : Denotes a d x) :
    Denotes (a ^ p) (p • d) (x ^ (p : ℝ)) := by
  cases a with
  | num y => obtain ⟨rfl, rfl⟩ := ha; exact ⟨by simp, rfl⟩
  | qty q =>
    obtain ⟨rfl, rfl⟩ := ha
    exact ⟨rfl, mul_rpow_pos _ q.unit.pos _⟩

theorem denotes_pow {a : Val} {d : Dim} {x : ℝ} (n : ℕ) (ha : Denotes a d x) :
    Denotes (a ^ (n : ℚ)) ((n : ℚ) • d) (x ^ n) := by
  cases a with
  | num y =>
    obtain ⟨rfl, rfl⟩ := ha
    refine ⟨by simp, ?_⟩
    show _ ^ _ = _
    rw [Rat.cast_natCast, Real.rpow_natCast]
  | qty q =>
    obtain ⟨rfl, rfl⟩ := ha
    refine ⟨rfl, ?_⟩
    show _ ^ _ * _ ^ _ = _
    rw [Rat.cast_natCast, Real.rpow_natCast, Real.rpow_natCast, mul_pow]

theorem to_ok {q : Quantity} {u : PyUnit} (h : q.unit.dim = u.dim) :
    q.to u = .ok ⟨q.value * q.unit.scale / u.scale, u⟩ := if_pos h

theorem to_error {q : Quantity} {u : PyUnit} (h : q.unit.dim ≠ u.dim) : q.to u = .error .UnitConversionError :=
  if_neg h

theorem denotes_add {a b : Val} {d : Dim} {x y : ℝ} (ha : Denotes a d x) (hb : Denotes b d y) :
    ∃ r, a.add b = .ok r ∧ Denotes r d (x + y) := by
  cases a with
  | num a =>
    obtain ⟨rfl, rfl⟩ := ha
    cases b with
    | num b => obtain ⟨-, rfl⟩ := hb; exact ⟨_, rfl, rfl, rfl⟩
    | qty q =>
      obtain ⟨h, rfl⟩ := hb
      refine ⟨_, if_pos h, rfl, ?_⟩
      simp [one]
  | qty p =>
    obtain ⟨rfl, rfl⟩ := ha
    cases b with
    | num b =>
      obtain ⟨h, rfl⟩ := hb
      refine ⟨_, if_pos h, ?_, ?_⟩
      · exact h.symm
      · simp [one]
    | qty q =>
      obtain ⟨h, rfl⟩ := hb
      have h1 : (Val.qty p).add (.qty q) = .ok (.qty ⟨p.value + q.value * q.unit.scale / p.unit.scale, p.unit⟩) := by
        show (q.to p.unit).map _ = _
        rw [to_ok h]; rfl
      refine ⟨_, h1, rfl, ?_⟩
      have := p.unit.pos.ne'
      field_simp

theorem denotes_neg {a : Val} {d : Dim} {x : ℝ} (ha : Denotes a d x) : Denotes a.neg d (-x) := by
  cases a <;> obtain ⟨rfl, rfl⟩ := ha
  · exact ⟨rfl, rfl⟩
  · exact ⟨rfl, by simp⟩

theorem denotes_sub {a b : Val} {d : Dim} {x y : ℝ} (ha : Denotes a d x) (hb : Denotes b d y) :
    ∃ r, a.sub b = .ok r ∧ Denotes r d (x - y) := by
  rw [sub_eq_add_neg]
  exact denotes_add ha (denotes_neg hb)

theorem denotes_to {a : Val} {d : Dim} {x : ℝ} {u : PyUnit} (ha : Denotes a d x) (hd : d ≠ 0) (hu : d = u.dim) :
    a.to u = .ok (.qty ⟨x / u.scale, u⟩) := by
  obtain ⟨q, rfl, rfl, rfl⟩ := qty_of_denotes ha hd
  show (q.to u).map _ = _
  rw [to_ok hu]; rfl

theorem denotes_simplify {a : Val} {d : Dim} {x : ℝ} {u : PyUnit} (ha : Denotes a d x) (hd : d ≠ 0)
    (hu : d = u.dim) : a.simplify u = .ok (.qty ⟨x / u.scale, u⟩) := by
  obtain ⟨q, rfl, rfl, rfl⟩ := qty_of_denotes ha hd
  show (q.to u).map _ = _
  rw [to_ok hu]; rfl

theorem denotes_valueIn {a : Val} {d : Dim} {x : ℝ} {u : PyUnit} (ha : Denotes a d x) (hd : d ≠ 0)
    (hu : d = u.dim) : a.valueIn u = .ok (x / u.scale) := by
  unfold Val.valueIn
  rw [denotes_to ha hd hu]; rfl

theorem denotes_decompose {q : Quantity} {d : Dim} {x : ℝ} (ha : Denotes (.qty q) d x) :
    (Val.qty q).decompose_value = .ok x := by
  obtain ⟨-, rfl⟩ := ha; rfl

theorem denotes_G (K : Consts) : Denotes (G K) (-1, 3, -2) K.G := ⟨rfl, mul_one _⟩
theorem denotes_c (K : Consts) : Denotes (c K) (0, 1, -1) K.c := ⟨rfl, mul_one _⟩

theorem denotes_qty (x : ℝ) (u : PyUnit) : Denotes (.qty ⟨x / u.scale, u⟩) u.dim x :=
  ⟨rfl, div_mul_cancel₀ _ u.pos.ne'⟩

theorem returns_of {r : Except PyErr Val} {x : ℝ} {u : PyUnit} (h : r = .ok (.qty ⟨x / u.scale, u⟩)) :
    Returns r x u := ⟨_, h, rfl, div_mul_cancel₀ _ u.pos.ne'⟩

theorem eq_of_returns {r : Except PyErr Val} {x : ℝ} {u : PyUnit} (h : Returns r x u) :
    r = .ok (.qty ⟨x / u.scale, u⟩) := by
  obtain ⟨⟨v, w⟩, rfl, rfl, rfl⟩ := h
  have := w.pos.ne'
  rw [mul_div_cancel_right₀ _ this]

theorem returns_unique {r r' : Except PyErr Val} {x : ℝ} {u : PyUnit} (h : Returns r x u) (h' : Returns r' x u) :
    r = r' := (eq_of_returns h).trans (eq_of_returns h').symm

theorem denotes_cast {a : Val} {d d' : Dim} {x y : ℝ} (h : Denotes a d x) (hd : d = d') (hx : x = y) :
    Denotes a d' y := hd ▸ hx ▸ h

end Legwork.units
