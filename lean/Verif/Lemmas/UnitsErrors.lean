import Verif.Lemmas.UnitsPsd

/-!
# Wrong dimensions are refused
-/

namespace Legwork.units

open Real Legwork.Spec

variable {K : Consts}

theorem dim_num (x : ℝ) : (Val.num x).unit.dim = 0 := rfl

theorem dim_mul (a b : Val) : (a * b).unit.dim = a.unit.dim + b.unit.dim := by
  cases a <;> cases b
  · exact (add_zero _).symm
  · exact (zero_add _).symm
  · exact (add_zero _).symm
  · rfl

theorem dim_div (a b : Val) : (a / b).unit.dim = a.unit.dim - b.unit.dim := by
  cases a <;> cases b
  · exact (sub_zero _).symm
  · rfl
  · exact (sub_zero _).symm
  · rfl

theorem dim_pow (a : Val) (p : ℚ) : (a ^ p).unit.dim = p • a.unit.dim := by
  cases a
  · exact (smul_zero _).symm
  · rfl

theorem dim_G : (G K).unit.dim = (-1, 3, -2) := rfl
theorem dim_c : (c K).unit.dim = (0, 1, -1) := rfl

theorem add_qty (p q : Quantity) :
    (q.unit.dim = p.unit.dim ∧ ∃ r, (Val.qty p).add (.qty q) = .ok (.qty r) ∧ r.unit.dim = p.unit.dim) ∨
    (q.unit.dim ≠ p.unit.dim ∧ (Val.qty p).add (.qty q) = .error .UnitConversionError) := by
  by_cases h : q.unit.dim = p.unit.dim
  · refine .inl ⟨h, ⟨p.value + q.value * q.unit.scale / p.unit.scale, p.unit⟩, ?_, rfl⟩
    show (q.to p.unit).map _ = _
    rw [to_ok h]; rfl
  · refine .inr ⟨h, ?_⟩
    show (q.to p.unit).map _ = _
    rw [to_error h]; rfl

theorem to_cases {a : Val} {u : PyUnit} (h : ∃ q, a = .qty q) :
    ((∃ r, a.to u = .ok r) ↔ a.unit.dim = u.dim) ∧
    (a.to u = .error .UnitConversionError ↔ a.unit.dim ≠ u.dim) ∧ a.simplify u = a.to u := by
  obtain ⟨q, rfl⟩ := h
  by_cases h : q.unit.dim = u.dim
  · have e : (Val.qty q).to u = .ok (.qty ⟨q.value * q.unit.scale / u.scale, u⟩) := by
      show (q.to u).map _ = _
      rw [to_ok h]; rfl
    rw [e]
    exact ⟨⟨fun _ => h, fun _ => ⟨_, rfl⟩⟩, ⟨fun h => (by cases h), fun hn => absurd h hn⟩, e⟩
  · have e : (Val.qty q).to u = .error .UnitConversionError := by
      show (q.to u).map _ = _
      rw [to_error h]; rfl
    rw [e]
    exact ⟨⟨fun ⟨_, h⟩ => (by cases h), fun hn => absurd hn h⟩, ⟨fun _ => h, fun _ => rfl⟩, e⟩

/-- A call succeeds exactly under a condition, and is a unit error otherwise. -/
def OkIff (r : Except PyErr Val) (p : Prop) : Prop := ((∃ v, r = .ok v) ↔ p) ∧ (r = .error .UnitConversionError ↔ ¬ p)

theorem OkIff.congr {r : Except PyErr Val} {p q : Prop} (h : OkIff r p) (e : p ↔ q) : OkIff r q :=
  ⟨h.1.trans e, h.2.trans (not_congr e)⟩

theorem simplify_okIff {a : Val} {u : PyUnit} (h : ∃ q, a = .qty q) : OkIff (a.simplify u) (a.unit.dim = u.dim) := by
  obtain ⟨c1, c2, c3⟩ := to_cases (u := u) h
  rw [c3]; exact ⟨c1, c2⟩

theorem to_okIff {a : Val} {u : PyUnit} (h : ∃ q, a = .qty q) : OkIff (a.to u) (a.unit.dim = u.dim) :=
  ⟨(to_cases h).1, (to_cases h).2.1⟩

/-- A call that adds the two masses and then converts a result fails exactly if the masses have different dimensions
or the result has the wrong one. -/
theorem sum_then {m₁ m₂ : Quantity} {g : Val → Val} {u : PyUnit} {D : Dim → Dim} (hq : ∀ t, ∃ q, g (.qty t) = .qty q)
    (hD : ∀ t : Quantity, (g (.qty t)).unit.dim = D t.unit.dim) :
    OkIff ((Val.qty m₁).add (.qty m₂) >>= fun t => (g t).simplify u)
      (m₂.unit.dim = m₁.unit.dim ∧ D m₁.unit.dim = u.dim) := by
  rcases add_qty m₁ m₂ with ⟨h, r, hr, hd⟩ | ⟨h, hr⟩
  · rw [hr]
    refine (simplify_okIff (hq r)).congr ?_
    rw [hD, hd]
    exact ⟨fun h' => ⟨h, h'⟩, fun h' => h'.2⟩
  · rw [hr]
    exact ⟨⟨fun ⟨_, h⟩ => (by cases h), fun hn => absurd hn.1 h⟩, ⟨fun _ hn => h hn.1, fun _ => rfl⟩⟩

theorem dim_ext {a b : Dim} : a = b ↔ a.1 = b.1 ∧ a.2.1 = b.2.1 ∧ a.2.2 = b.2.2 := by
  rw [Prod.ext_iff, Prod.ext_iff]

theorem chirp_mass_okIff (m₁ m₂ : Quantity) :
    OkIff (chirp_mass (.qty m₁) (.qty m₂)) (m₁.unit.dim = massDim ∧ m₂.unit.dim = massDim) := by
  refine (sum_then (D := fun d => (3 / 5 : ℚ) • (m₁.unit.dim + m₂.unit.dim) - (1 / 5 : ℚ) • d)
    (g := fun t => (Val.qty m₁ * .qty m₂) ^ (3 / 5 : ℚ) / t ^ (1 / 5 : ℚ)) (u := Msun)
    (fun t => ⟨_, rfl⟩) (fun t => by rw [dim_div, dim_pow, dim_pow, dim_mul]; rfl)).congr ?_
  show _ ∧ _ = massDim ↔ _
  constructor
  · rintro ⟨h, h'⟩
    have : m₁.unit.dim = massDim := by
      rw [← h', h]
      module
    exact ⟨this, h.trans this⟩
  · rintro ⟨h, h'⟩
    rw [h, h']
    refine ⟨rfl, ?_⟩
    module

theorem get_a_okIff (f m₁ m₂ : Quantity) :
    OkIff (get_a_from_f_orb K (.qty f) (.qty m₁) (.qty m₂)) (m₂.unit.dim = m₁.unit.dim ∧
      (1 / 3 : ℚ) • ((-1, 3, -2) + m₁.unit.dim - (2 : ℚ) • f.unit.dim) = lengthDim) := by
  refine sum_then (D := fun d => (1 / 3 : ℚ) • ((-1, 3, -2) + d - (2 : ℚ) • f.unit.dim))
    (g := fun t => (G K * t / (.num (2 * π) * .qty f) ^ (2 : ℚ)) ^ (1 / 3 : ℚ)) (u := AU)
    (fun t => ⟨_, rfl⟩) (fun t => ?_)
  rw [dim_pow, dim_div, dim_pow, dim_mul, dim_mul, dim_num, zero_add]; rfl

theorem get_f_okIff (a m₁ m₂ : Quantity) :
    OkIff (get_f_orb_from_a K (.qty a) (.qty m₁) (.qty m₂)) (m₂.unit.dim = m₁.unit.dim ∧
      (1 / 2 : ℚ) • ((-1, 3, -2) + m₁.unit.dim - (3 : ℚ) • a.unit.dim) = freqDim) := by
  refine sum_then (D := fun d => (1 / 2 : ℚ) • ((-1, 3, -2) + d - (3 : ℚ) • a.unit.dim))
    (g := fun t => (G K * t / .qty a ^ (3 : ℚ)) ^ (1 / 2 : ℚ) / .num (2 * π)) (u := Hz)
    (fun t => ⟨_, rfl⟩) (fun t => ?_)
  rw [dim_div, dim_pow, dim_div, dim_pow, dim_mul, dim_num, sub_zero]; rfl

theorem beta_okIff (m₁ m₂ : Quantity) :
    OkIff (beta K (.qty m₁) (.qty m₂)) (m₁.unit.dim = massDim ∧ m₂.unit.dim = massDim) := by
  refine (sum_then (D := fun d => (3 : ℚ) • (-1, 3, -2) - (5 : ℚ) • (0, 1, -1) + m₁.unit.dim + m₂.unit.dim + d)
    (g := fun t => .num (64 / 5) * G K ^ (3 : ℚ) / c K ^ (5 : ℚ) * .qty m₁ * .qty m₂ * t) (u := m4_s)
    (fun t => ⟨_, rfl⟩) (fun t => ?_)).congr ?_
  · simp only [dim_mul, dim_div, dim_pow, dim_num, zero_add]; rfl
  have hdim : m4_s.dim = betaDim := by
    show (4 : ℚ) • (0, 1, 0) - (0, 0, 1) = _
    dims
  rw [hdim]
  constructor
  · rintro ⟨h, h'⟩
    rw [h] at h'
    have : m₁.unit.dim = massDim := by
      generalize m₁.unit.dim = d at h'
      obtain ⟨x, y, z⟩ := d
      simp [Prod.ext_iff, betaDim, massDim] at h' ⊢
      refine ⟨?_, ?_, ?_⟩ <;> linarith [h'.1, h'.2.1, h'.2.2]
    exact ⟨this, h.trans this⟩
  · rintro ⟨h, h'⟩
    rw [h, h']
    exact ⟨rfl, by dims⟩

theorem length_okIff (a : Quantity) (e : ℝ) :
    OkIff (c_0 (.qty a) e) (a.unit.dim = lengthDim) ∧ OkIff (get_a_from_ecc e (.qty a)) (a.unit.dim = lengthDim) :=
  ⟨simplify_okIff (u := AU) ⟨_, rfl⟩, simplify_okIff (u := AU) ⟨_, rfl⟩⟩

theorem fn_dot_okIff {n : ℤ} (hn : 1 ≤ n) (m f : Quantity) (e : ℝ) :
    OkIff (fn_dot K (.qty m) (.qty f) e n)
      ((5 / 3 : ℚ) • ((-1, 3, -2) + m.unit.dim) - (5 : ℚ) • (0, 1, -1) + (11 / 3 : ℚ) • f.unit.dim = freqRateDim) := by
  unfold fn_dot
  rw [if_neg (by omega)]
  refine (simplify_okIff (u := Hz / yr) ⟨_, rfl⟩).congr ?_
  have hdim : (Hz / yr).dim = freqRateDim := by
    show ((0, 0, -1) : Dim) - (0, 0, 1) = _
    dims
  rw [hdim]
  simp only [dim_mul, dim_div, dim_pow, dim_num, zero_add, add_zero]
  exact Iff.rfl

end Legwork.units
