import Verif.Lemmas.ScCurve
import Verif.Lemmas.Slope
import Verif.Lemmas.Snr
import Verif.Lemmas.Pointwise

/-!
# Interpolating a slowly varying noise curve
-/

namespace Legwork

open Legwork.Spec Legwork.source

theorem gridCurve_of {W : World} {d : Dict} {sc : ℝ → WithTop ℝ} (h : CurveOf W d sc) : GridCurve (psd_of_dict W d) sc :=
  ⟨h.on_grid, h.chord, h.outside⟩

/-- Every curve that is defined on the band has an interpolation. -/
theorem gridCurve_exists {N : ℝ → Except PyErr (WithTop ℝ)} (hN : ∀ f, 1e-7 ≤ f → f ≤ 2 → ∃ y, N f = .ok y) :
    ∃ sc, GridCurve N sc := by
  have hgrid : ∀ i < 10000, 1e-7 ≤ scGrid i ∧ scGrid i ≤ 2 := fun i hi =>
    ⟨scGrid_zero ▸ scGrid_le (Nat.zero_le i), scGrid_last ▸ scGrid_le (by omega)⟩
  have hex : ∀ i, ∃ y, i < 10000 → N (scGrid i) = .ok y := fun i => by
    by_cases hi : i < 10000
    · obtain ⟨y, hy⟩ := hN _ (hgrid i hi).1 (hgrid i hi).2
      exact ⟨y, fun _ => hy⟩
    · exact ⟨⊤, fun h => absurd h hi⟩
  choose y hy using hex
  have hl : ((List.range 10000).map y).length = 10000 := by rw [List.length_map, List.length_range]
  have hg : ∀ i (hi : i < 10000), interp_sc (frequency_range.zip ((List.range 10000).map y)) (scGrid i) = y i := by
    intro i hi
    rw [interp_sc_grid hl hi, List.getElem_map, List.getElem_range]
  refine ⟨interp_sc (frequency_range.zip ((List.range 10000).map y)), ⟨fun i hi => ?_, fun i hi f h1 h2 a b ha hb => ?_,
    fun f hf => ?_⟩⟩
  · rw [hg i hi, hy i hi]
  · rw [hg _ (by omega)] at ha hb
    rw [interp_sc_between hl hi h1 h2, List.getElem_map, List.getElem_map, List.getElem_range, List.getElem_range, ha, hb]
    exact sc_cell_real h1 h2 a b
  · rw [interp_sc_eq hl, scGrid_zero, scGrid_last]
    rcases hf with hf | hf
    · rw [if_pos hf]
    · rw [if_neg (by norm_num at hf ⊢; linarith), if_pos hf]

/-- Neighbouring frequencies of the grid differ by less than 0.17%. -/
theorem scGrid_step (i : ℕ) : scGrid (i + 1) / scGrid i ≤ 1.0017 := by
  have h1 : scGrid (i + 1) / scGrid i = (10 : ℝ) ^ ((Real.logb 10 2 - (-7)) / 9999) := by
    unfold scGrid
    rw [← Real.rpow_sub (by norm_num)]
    congr 1
    push_cast
    ring
  have h2 : (10 : ℝ) ^ (Real.logb 10 2 - (-7)) = 2e7 := by
    rw [Real.rpow_sub (by norm_num), Real.rpow_logb (by norm_num) (by norm_num) (by norm_num),
      Real.rpow_neg (by norm_num)]
    norm_num
  rw [h1, div_eq_mul_one_div, Real.rpow_mul (by norm_num), h2]
  have h3 : (2e7 : ℝ) ≤ 1.0017 ^ 9999 := by
    have a : (1.0171 : ℝ) ≤ 1.0017 ^ 10 := by norm_num
    have b : (1.1847 : ℝ) ≤ 1.0017 ^ 100 := by
      calc (1.1847 : ℝ) ≤ 1.0171 ^ 10 := by norm_num
        _ ≤ (1.0017 ^ 10) ^ 10 := by gcongr
        _ = 1.0017 ^ 100 := by rw [← pow_mul]
    calc (2e7 : ℝ) ≤ 1.1847 ^ 99 * 1.0171 ^ 9 * 1.0017 ^ 9 := by norm_num
      _ ≤ (1.0017 ^ 100) ^ 99 * (1.0017 ^ 10) ^ 9 * 1.0017 ^ 9 := by gcongr
      _ = 1.0017 ^ 9999 := by rw [← pow_mul, ← pow_mul, ← pow_add, ← pow_add]
  calc (2e7 : ℝ) ^ (1 / 9999 : ℝ) ≤ (1.0017 ^ 9999 : ℝ) ^ (1 / 9999 : ℝ) :=
        Real.rpow_le_rpow (by norm_num) h3 (by norm_num)
    _ = 1.0017 := by
      rw [← Real.rpow_natCast, ← Real.rpow_mul (by norm_num)]
      norm_num

theorem within_refl {q x : ℝ} (hq : 1 ≤ q) (hx : 0 ≤ x) : WithinFactor q x x :=
  ⟨le_mul_of_one_le_left hx hq, le_mul_of_one_le_left hx hq⟩

theorem within_grid {N : ℝ → Except PyErr (WithTop ℝ)} {sc : ℝ → WithTop ℝ} (h : GridCurve N sc) {k : ℝ} (hk : 0 ≤ k)
    {S : ℝ → ℝ} (hS : SlopeAtMost k S 1e-7 2) (hN : ∀ f, 1e-7 ≤ f → f ≤ 2 → N f = .ok (S f : ℝ)) {f : ℝ}
    (h1 : 1e-7 ≤ f) (h2 : f ≤ 2) : ∃ y : ℝ, sc f = y ∧ WithinFactor (1.0017 ^ k) y (S f) := by
  have hgrid : ∀ i < 10000, 1e-7 ≤ scGrid i ∧ scGrid i ≤ 2 := fun i hi =>
    ⟨scGrid_zero ▸ scGrid_le (Nat.zero_le i), scGrid_last ▸ scGrid_le (by omega)⟩
  have hon : ∀ i < 10000, sc (scGrid i) = (S (scGrid i) : ℝ) := by
    intro i hi
    have := h.on_grid i hi
    rw [hN _ (hgrid i hi).1 (hgrid i hi).2] at this
    exact (Except.ok.inj this).symm
  have hq : (1 : ℝ) ≤ 1.0017 ^ k := Real.one_le_rpow (by norm_num) hk
  rcases scGrid_locate (scGrid_zero ▸ h1) (scGrid_last ▸ h2) with ⟨i, hi, rfl⟩ | ⟨i, hi, hl, hr⟩
  · exact ⟨_, hon i hi, within_refl hq (hS.1 _ h1 h2).le⟩
  · refine ⟨_, h.chord i hi f hl hr _ _ (hon i (by omega)) (hon (i + 1) (by omega)), ?_⟩
    set x := scGrid i
    set x' := scGrid (i + 1)
    have hx := hgrid i (by omega)
    have hx' := hgrid (i + 1) (by omega)
    have p : 0 < x := lt_of_lt_of_le (by norm_num) hx.1
    have hstep : x' / x ≤ 1.0017 := scGrid_step i
    have r1 : (f / x) ^ k ≤ 1.0017 ^ k := by
      apply Real.rpow_le_rpow (by positivity) _ hk
      exact (div_le_div_of_nonneg_right hr.le p.le).trans hstep
    have r2 : (x' / f) ^ k ≤ 1.0017 ^ k := by
      have : 0 < f := p.trans hl
      have : 0 < x' := this.trans hr
      apply Real.rpow_le_rpow (by positivity) _ hk
      exact (div_le_div_of_nonneg_left this.le p hl.le).trans hstep
    obtain ⟨a1, a2⟩ := hS.2 x f hx.1 hl.le h2
    obtain ⟨b1, b2⟩ := hS.2 f x' h1 hr.le hx'.2
    have sf := hS.1 f h1 h2
    have sx := hS.1 x hx.1 hx.2
    have sx' := hS.1 x' hx'.1 hx'.2
    have c1 : S f ≤ 1.0017 ^ k * S x := a1.trans (mul_le_mul_of_nonneg_right r1 sx.le)
    have c2 : S x ≤ 1.0017 ^ k * S f := a2.trans (mul_le_mul_of_nonneg_right r1 sf.le)
    have c3 : S x' ≤ 1.0017 ^ k * S f := b1.trans (mul_le_mul_of_nonneg_right r2 sf.le)
    have c4 : S f ≤ 1.0017 ^ k * S x' := b2.trans (mul_le_mul_of_nonneg_right r2 sx'.le)
    have w0 : 0 ≤ (f - x) / (x' - x) := div_nonneg (by linarith) (by linarith)
    have w1 : (f - x) / (x' - x) ≤ 1 := (div_le_one (by linarith)).2 (by linarith)
    generalize (f - x) / (x' - x) = w at w0 w1 ⊢
    have e : S x + (S x' - S x) * w = (1 - w) * S x + w * S x' := by ring
    rw [e]
    have v0 : 0 ≤ 1 - w := by linarith
    constructor
    · calc (1 - w) * S x + w * S x' ≤ (1 - w) * (1.0017 ^ k * S f) + w * (1.0017 ^ k * S f) := by gcongr
        _ = _ := by ring
    · calc S f = (1 - w) * S f + w * S f := by ring
        _ ≤ (1 - w) * (1.0017 ^ k * S x) + w * (1.0017 ^ k * S x') := by gcongr
        _ = _ := by ring

theorem within_divNoise {q x y y' : ℝ} (hx : 0 ≤ x) (hy : 0 < y) (hy' : 0 < y') (h : WithinFactor q y' y) :
    WithinFactor q (snr.divNoise x (y' : ℝ)) (snr.divNoise x (y : ℝ)) := by
  change WithinFactor q (x / y') (x / y)
  constructor
  · rw [div_le_iff₀ hy', mul_assoc, div_mul_eq_mul_div, mul_div_assoc', le_div_iff₀ hy]
    nlinarith [mul_le_mul_of_nonneg_left h.2 hx]
  · rw [div_le_iff₀ hy, mul_assoc, div_mul_eq_mul_div, mul_div_assoc', le_div_iff₀ hy']
    nlinarith [mul_le_mul_of_nonneg_left h.1 hx]

theorem within_sqrt {k x y : ℝ} (h : WithinFactor (1.0017 ^ k) x y) : WithinFactor (1.0017 ^ (k / 2)) (√x) (√y) := by
  have e : (√(1.0017 ^ k) : ℝ) = 1.0017 ^ (k / 2) := by
    rw [Real.sqrt_eq_rpow, ← Real.rpow_mul (by norm_num)]
    congr 1
    ring
  have hq : (0 : ℝ) ≤ 1.0017 ^ k := by positivity
  refine ⟨?_, ?_⟩
  · rw [← e, ← Real.sqrt_mul hq]
    exact Real.sqrt_le_sqrt h.1
  · rw [← e, ← Real.sqrt_mul hq]
    exact Real.sqrt_le_sqrt h.2

theorem within_sum {q : ℝ} {α : Type*} {l : List α} {F F' : α → ℝ} (h : ∀ x ∈ l, WithinFactor q (F' x) (F x)) :
    WithinFactor q (l.map F').sum (l.map F).sum := by
  induction l with
  | nil => simp [WithinFactor]
  | cons a l ih =>
    obtain ⟨h1, h2⟩ := h a (by simp)
    obtain ⟨i1, i2⟩ := ih fun x hx => h x (by simp [hx])
    simp only [List.map_cons, List.sum_cons, WithinFactor, mul_add]
    exact ⟨add_le_add h1 i1, add_le_add h2 i2⟩

theorem within_trapezoid {q : ℝ} : ∀ {ys ys' xs : List ℝ}, List.Forall₂ (fun y y' => WithinFactor q y' y) ys ys' →
    xs.Pairwise (· ≤ ·) → WithinFactor q (snr.trapezoid ys' xs) (snr.trapezoid ys xs)
  | [], _, xs, .nil, _ => by simp [snr.trapezoid, WithinFactor]
  | [_], _, xs, .cons _ .nil, _ => by simp [snr.trapezoid, WithinFactor]
  | _ :: _ :: _, _, [], .cons _ (.cons _ _), _ => by simp [snr.trapezoid, WithinFactor]
  | _ :: _ :: _, _, [_], .cons _ (.cons _ _), _ => by simp [snr.trapezoid, WithinFactor]
  | y₀ :: y₁ :: ys, y₀' :: y₁' :: ys', x₀ :: x₁ :: xs, .cons h0 (.cons h1 hs), hx => by
    obtain ⟨i1, i2⟩ := within_trapezoid (.cons h1 hs) (List.pairwise_cons.1 hx).2
    have hd : 0 ≤ x₁ - x₀ := by linarith [(List.pairwise_cons.1 hx).1 x₁ (by simp)]
    unfold snr.trapezoid
    constructor
    · nlinarith [mul_le_mul_of_nonneg_left h0.1 hd, mul_le_mul_of_nonneg_left h1.1 hd]
    · nlinarith [mul_le_mul_of_nonneg_left h0.2 hd, mul_le_mul_of_nonneg_left h1.2 hd]

/-- Results related entry by entry. -/
theorem mapM_related {α β γ : Type} {R : β → γ → Prop} {f : α → Except PyErr β} {g : α → Except PyErr γ} :
    ∀ {l : List α}, (∀ a ∈ l, ∀ b, f a = .ok b → ∃ c, g a = .ok c ∧ R b c) → ∀ {bs}, l.mapM f = .ok bs →
      ∃ cs, l.mapM g = .ok cs ∧ List.Forall₂ R bs cs
  | [], _, bs, h => by
    rw [mapM_nil_ok] at h
    subst h
    exact ⟨[], mapM_nil_ok.2 rfl, .nil⟩
  | a :: l, hR, bs, h => by
    obtain ⟨b, bs', h1, h2, rfl⟩ := mapM_cons_ok.1 h
    obtain ⟨c, hc, hbc⟩ := hR a (by simp) b h1
    obtain ⟨cs, hcs, hr⟩ := mapM_related (fun a' ha => hR a' (by simp [ha])) h2
    exact ⟨c :: cs, mapM_cons_ok.2 ⟨c, cs, hc, hcs, rfl⟩, .cons hbc hr⟩

theorem within_sum_list {q : ℝ} : ∀ {ys ys' : List ℝ}, List.Forall₂ (fun y y' => WithinFactor q y' y) ys ys' →
    WithinFactor q ys'.sum ys.sum
  | _, _, .nil => by simp [WithinFactor]
  | _, _, .cons h hs => by
    obtain ⟨i1, i2⟩ := within_sum_list hs
    simp only [List.sum_cons, WithinFactor, mul_add]
    exact ⟨add_le_add h.1 i1, add_le_add h.2 i2⟩

end Legwork
