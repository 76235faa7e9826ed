import Mathlib.Analysis.SpecialFunctions.Pow.Deriv
import Mathlib.Analysis.Calculus.Deriv.MeanValue
import Verif.Spec.Slope

/-!
# Slopes on a log-log plot
-/

namespace Legwork

open Legwork.Spec Set

variable {k lo hi : ℝ} {S : ℝ → ℝ}

theorem SlopeAtMost.of_deriv (hlo : 0 < lo) {d : ℝ → ℝ} (hS : ∀ f ∈ Icc lo hi, HasDerivAt S (d f) f)
    (h0 : ∀ f ∈ Icc lo hi, 0 < S f) (hd : ∀ f ∈ Icc lo hi, |f * d f| ≤ k * S f) : SlopeAtMost k S lo hi := by
  have hpos : ∀ f ∈ Icc lo hi, 0 < f := fun f hf => hlo.trans_le hf.1
  have hder : ∀ j : ℝ, ∀ f ∈ Icc lo hi, HasDerivAt (fun f => f ^ j * S f) (j * f ^ (j - 1) * S f + f ^ j * d f) f :=
    fun j f hf => (Real.hasDerivAt_rpow_const (.inl (hpos f hf).ne')).mul (hS f hf)
  have hval : ∀ j : ℝ, ∀ f ∈ Icc lo hi, j * f ^ (j - 1) * S f + f ^ j * d f = f ^ (j - 1) * (j * S f + f * d f) := by
    intro j f hf
    have : f ^ j = f ^ (j - 1) * f := by
      rw [Real.rpow_sub_one (hpos f hf).ne', div_mul_cancel₀ _ (hpos f hf).ne']
    rw [this]
    ring
  have hmono : MonotoneOn (fun f => f ^ k * S f) (Icc lo hi) := by
    apply monotoneOn_of_deriv_nonneg (convex_Icc _ _)
    · exact fun f hf => (hder k f hf).continuousAt.continuousWithinAt
    · exact fun f hf => (hder k f (interior_subset hf)).differentiableAt.differentiableWithinAt
    · intro f hf
      have hf := interior_subset hf
      rw [(hder k f hf).deriv, hval k f hf]
      have := hpos f hf
      exact mul_nonneg (by positivity) (by linarith [(abs_le.1 (hd f hf)).1])
  have hanti : AntitoneOn (fun f => f ^ (-k) * S f) (Icc lo hi) := by
    apply antitoneOn_of_deriv_nonpos (convex_Icc _ _)
    · exact fun f hf => (hder (-k) f hf).continuousAt.continuousWithinAt
    · exact fun f hf => (hder (-k) f (interior_subset hf)).differentiableAt.differentiableWithinAt
    · intro f hf
      have hf := interior_subset hf
      rw [(hder (-k) f hf).deriv, hval (-k) f hf]
      have := hpos f hf
      exact mul_nonpos_of_nonneg_of_nonpos (by positivity) (by linarith [(abs_le.1 (hd f hf)).2])
  refine ⟨fun f h1 h2 => h0 f ⟨h1, h2⟩, fun f f' h1 h2 h3 => ?_⟩
  have hf : f ∈ Icc lo hi := ⟨h1, h2.trans h3⟩
  have hf' : f' ∈ Icc lo hi := ⟨h1.trans h2, h3⟩
  have p := hpos f hf
  have p' := hpos f' hf'
  have q : 0 < f ^ k := by positivity
  have q' : 0 < f' ^ k := by positivity
  rw [Real.div_rpow p'.le p.le]
  constructor
  · have := hanti hf hf' h2
    simp only [Real.rpow_neg p.le, Real.rpow_neg p'.le] at this
    calc S f' = f' ^ k * ((f' ^ k)⁻¹ * S f') := by field_simp
      _ ≤ f' ^ k * ((f ^ k)⁻¹ * S f) := mul_le_mul_of_nonneg_left this q'.le
      _ = f' ^ k / f ^ k * S f := by field_simp
  · have := hmono hf hf' h2
    simp only at this
    rw [div_mul_eq_mul_div, le_div_iff₀ q]
    linarith

theorem SlopeAtMost.mono {k' : ℝ} (h : SlopeAtMost k S lo hi) (hlo : 0 < lo) (hk : k ≤ k') : SlopeAtMost k' S lo hi := by
  refine ⟨h.1, fun f f' h1 h2 h3 => ?_⟩
  have p : 0 < f := hlo.trans_le h1
  have : (f' / f) ^ k ≤ (f' / f) ^ k' := Real.rpow_le_rpow_of_exponent_le ((one_le_div p).2 h2) hk
  obtain ⟨a, b⟩ := h.2 f f' h1 h2 h3
  exact ⟨a.trans (mul_le_mul_of_nonneg_right this (h.1 f h1 (h2.trans h3)).le),
    b.trans (mul_le_mul_of_nonneg_right this (h.1 f' (h1.trans h2) h3).le)⟩

theorem SlopeAtMost.congr {S' : ℝ → ℝ} (h : SlopeAtMost k S lo hi) (hS : ∀ f, lo ≤ f → f ≤ hi → S' f = S f) :
    SlopeAtMost k S' lo hi := by
  refine ⟨fun f h1 h2 => by rw [hS f h1 h2]; exact h.1 f h1 h2, fun f f' h1 h2 h3 => ?_⟩
  rw [hS f h1 (h2.trans h3), hS f' (h1.trans h2) h3]
  exact h.2 f f' h1 h2 h3

end Legwork

namespace Legwork

open Legwork.Spec Set

/-- At `f`, the function is positive and its logarithmic slope lies in `[l, u]`. -/
structure HasSlope (S : ℝ → ℝ) (f l u : ℝ) : Prop where
  pos : 0 < S f
  der : ∃ d, HasDerivAt S d f ∧ l * S f ≤ f * d ∧ f * d ≤ u * S f

namespace HasSlope

variable {S S' : ℝ → ℝ} {f l u l' u' : ℝ}

theorem weaken (h : HasSlope S f l u) (hl : l' ≤ l) (hu : u ≤ u') : HasSlope S f l' u' := by
  obtain ⟨p, d, hd, h1, h2⟩ := h
  exact ⟨p, d, hd, by nlinarith, by nlinarith⟩

theorem const {c : ℝ} (hc : 0 < c) (f : ℝ) : HasSlope (fun _ => c) f 0 0 :=
  ⟨hc, 0, hasDerivAt_const f c, by simp, by simp⟩

theorem id (hf : 0 < f) : HasSlope (fun f => f) f 1 1 := ⟨hf, 1, hasDerivAt_id f, by simp, by simp⟩

theorem add (h : HasSlope S f l u) (h' : HasSlope S' f l u) : HasSlope (fun f => S f + S' f) f l u := by
  obtain ⟨p, d, hd, h1, h2⟩ := h
  obtain ⟨p', d', hd', h1', h2'⟩ := h'
  exact ⟨add_pos p p', d + d', hd.add hd', by rw [mul_add, mul_add]; exact add_le_add h1 h1',
    by rw [mul_add, mul_add]; exact add_le_add h2 h2'⟩

theorem mul (h : HasSlope S f l u) (h' : HasSlope S' f l' u') :
    HasSlope (fun f => S f * S' f) f (l + l') (u + u') := by
  obtain ⟨p, d, hd, h1, h2⟩ := h
  obtain ⟨p', d', hd', h1', h2'⟩ := h'
  refine ⟨mul_pos p p', d * S' f + S f * d', hd.mul hd', ?_, ?_⟩
  · have a := mul_le_mul_of_nonneg_right h1 p'.le
    have b := mul_le_mul_of_nonneg_left h1' p.le
    calc (l + l') * (S f * S' f) = l * S f * S' f + S f * (l' * S' f) := by ring
      _ ≤ f * d * S' f + S f * (f * d') := add_le_add a b
      _ = _ := by ring
  · have a := mul_le_mul_of_nonneg_right h2 p'.le
    have b := mul_le_mul_of_nonneg_left h2' p.le
    calc f * (d * S' f + S f * d') = f * d * S' f + S f * (f * d') := by ring
      _ ≤ u * S f * S' f + S f * (u' * S' f) := add_le_add a b
      _ = _ := by ring

theorem inv (h : HasSlope S f l u) : HasSlope (fun f => (S f)⁻¹) f (-u) (-l) := by
  obtain ⟨p, d, hd, h1, h2⟩ := h
  refine ⟨inv_pos.2 p, -d / S f ^ 2, hd.inv p.ne', ?_, ?_⟩
  · have : f * (-d / S f ^ 2) = -(f * d) * ((S f)⁻¹ * (S f)⁻¹) := by field_simp
    rw [this]
    have e : -u * (S f)⁻¹ = -(u * S f) * ((S f)⁻¹ * (S f)⁻¹) := by field_simp
    rw [e]
    exact mul_le_mul_of_nonneg_right (neg_le_neg h2) (by positivity)
  · have : f * (-d / S f ^ 2) = -(f * d) * ((S f)⁻¹ * (S f)⁻¹) := by field_simp
    rw [this]
    have e : -l * (S f)⁻¹ = -(l * S f) * ((S f)⁻¹ * (S f)⁻¹) := by field_simp
    rw [e]
    exact mul_le_mul_of_nonneg_right (neg_le_neg h1) (by positivity)

theorem div (h : HasSlope S f l u) (h' : HasSlope S' f l' u') :
    HasSlope (fun f => S f / S' f) f (l - u') (u - l') := by
  have := h.mul h'.inv
  simp only [← div_eq_mul_inv, ← sub_eq_add_neg] at this
  exact this

theorem pow (h : HasSlope S f l u) (n : ℕ) : HasSlope (fun f => S f ^ n) f (n * l) (n * u) := by
  induction n with
  | zero => simpa using const one_pos f
  | succ n ih =>
    have := ih.mul h
    simp only [← pow_succ] at this
    exact this.weaken (by push_cast; linarith) (by push_cast; linarith)

end HasSlope

theorem SlopeAtMost.of_hasSlope {S : ℝ → ℝ} {k lo hi : ℝ} (hlo : 0 < lo)
    (h : ∀ f ∈ Icc lo hi, HasSlope S f (-k) k) : SlopeAtMost k S lo hi := by
  choose! d hd h1 h2 using fun f hf => (h f hf).der
  exact SlopeAtMost.of_deriv hlo hd (fun f hf => (h f hf).pos)
    fun f hf => abs_le.2 ⟨by rw [← neg_mul]; exact h1 f hf, h2 f hf⟩

end Legwork
