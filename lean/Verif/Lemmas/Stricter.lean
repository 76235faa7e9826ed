import Verif.Lemmas.Harmonics
import Verif.Lemmas.Strain
import Verif.Lemmas.Reclass

/-!
# The harmonics functions and the matching of parameters under a stricter luminosity tolerance
-/

namespace Legwork.np

/-- Interpolation between larger values gives a larger value. -/
theorem interpWith_le : ∀ {xs ys zs : List ℝ}, xs.Pairwise (· < ·) → List.Forall₂ (· ≤ ·) ys zs → ∀ {x : ℝ},
    (∀ x₀, (xs.zip ys).head? = some x₀ → x₀.1 ≤ x) → (∀ x₁, (xs.zip ys).getLast? = some x₁ → x ≤ x₁.1) →
    interpWith 0 line (xs.zip ys) x ≤ interpWith 0 line (xs.zip zs) x
  | [], _, _, _, _, _, _, _ => by simp [interpWith]
  | _ :: _, [], _, _, h, _, _, _ => by cases h; simp [interpWith]
  | [a], y :: ys, _, _, h, _, _, _ => by
    cases h with
    | cons h _ => simpa [interpWith] using h
  | _ :: _ :: _, [y], _, _, h, _, _, _ => by
    cases h with
    | cons h h' => cases h'; simpa [interpWith] using h
  | a :: b :: xs, y :: y' :: ys, _, hinc, h, x, h0, h1 => by
    cases h with
    | @cons _ z _ _ hyz h' =>
      cases h' with
      | @cons _ z' _ zs hyz' h'' =>
        have hab : a < b := (List.pairwise_cons.1 hinc).1 b (by simp)
        have hlen := h''.length_eq
        have hnil : (xs.zip ys = []) ↔ (xs.zip zs = []) := by
          simp only [List.zip_eq_nil_iff]
          rw [← List.length_eq_zero_iff (l := ys), ← List.length_eq_zero_iff (l := zs), hlen]
        simp only [List.zip_cons_cons, interpWith, hnil]
        have hax : a ≤ x := h0 (a, y) (by simp)
        split_ifs with hc
        · have hxb : x ≤ b := by
            rcases hc with hc | hc
            · exact hc.le
            · exact h1 (b, y') (by simp [hnil.2 hc])
          unfold line
          have hd : 0 < b - a := sub_pos.2 hab
          have e : ∀ u v : ℝ, (v - u) / (b - a) * (x - a) + u = (u * (b - x) + v * (x - a)) / (b - a) := by
            intro u v; field_simp; ring
          rw [e, e]
          apply div_le_div_of_nonneg_right _ hd.le
          exact add_le_add (mul_le_mul_of_nonneg_right hyz (sub_nonneg.2 hxb))
            (mul_le_mul_of_nonneg_right hyz' (sub_nonneg.2 hax))
        · rw [not_or, not_lt] at hc
          have := interpWith_le (xs := b :: xs) (ys := y' :: ys) (zs := z' :: zs) (List.pairwise_cons.1 hinc).2
            (.cons hyz' h'') (x := x) (by intro q hq; simp at hq; subst hq; exact hc.1)
            (by intro q hq; apply h1; simpa [List.getLast?_cons] using hq)
          simpa using this

theorem zip_head_last {xs ys zs : List ℝ} (h : ys.length = zs.length) :
    ((xs.zip ys).head?.map Prod.fst = (xs.zip zs).head?.map Prod.fst) ∧
    ((xs.zip ys).getLast?.map Prod.fst = (xs.zip zs).getLast?.map Prod.fst) := by
  have e : (xs.zip ys).map Prod.fst = (xs.zip zs).map Prod.fst := by
    induction xs generalizing ys zs with
    | nil => rfl
    | cons x xs ih =>
      cases ys <;> cases zs <;> simp_all
      exact ih h
  exact ⟨by rw [← List.head?_map, ← List.head?_map, e], by rw [← List.getLast?_map, ← List.getLast?_map, e]⟩

theorem interp1d_le {xs ys zs : List ℝ} (hinc : xs.Pairwise (· < ·)) (h : List.Forall₂ (· ≤ ·) ys zs) {b u v : ℝ}
    (huv : u ≤ v) (x : ℝ) : interp1d (xs.zip ys) b u x ≤ interp1d (xs.zip zs) b v x := by
  obtain ⟨e1, e2⟩ := zip_head_last (xs := xs) h.length_eq
  have key := interpWith_le hinc h (x := x)
  unfold interp1d
  rcases h1 : (xs.zip ys).head? with _ | p <;> rcases h2 : (xs.zip zs).head? with _ | p' <;>
    rcases h3 : (xs.zip ys).getLast? with _ | q <;> rcases h4 : (xs.zip zs).getLast? with _ | q' <;>
    simp only [h1, h2, h3, h4, Option.map_none, Option.map_some, Option.some.injEq, reduceCtorEq] at e1 e2 <;>
    simp only [le_refl]
  rw [e1, e2]
  split_ifs with ha hb
  · exact le_rfl
  · exact huv
  · refine key (fun y hy => ?_) (fun y hy => ?_)
    · rw [h1] at hy; cases hy; rw [e1]; exact not_lt.1 ha
    · rw [h3] at hy; cases hy; rw [e2]; exact not_lt.1 hb

end Legwork.np

namespace Legwork.source

open Legwork.Spec Legwork.utils

/-- One step of the loop uses no fewer harmonics for a stricter tolerance. -/
theorem step_stricter {tol tol' : ℝ} (ht : tol' ≤ tol) {n p p' : ℕ} {e : ℝ} (he : 0 ≤ peters_f e) {row : List ℝ}
    (hr : row.length = n) (hpp : p ≤ p') (hp : p' ≤ n) :
    harmonics_step tol n p e row ≤ harmonics_step tol' n p' e row := by
  obtain ⟨h1, h2, h3, h4⟩ := step_spec tol (e := e) hr (hpp.trans hp)
  obtain ⟨k1, k2, k3, k4⟩ := step_spec tol' (e := e) hr hp
  rcases k3 with k3 | k3
  · by_contra hc
    have := h4 _ (hpp.trans k1) (not_le.1 hc)
    nlinarith
  · rw [k3]; exact h2

theorem loop_stricter {tol tol' : ℝ} (ht : tol' ≤ tol) {n : ℕ} : ∀ {l : List (ℝ × List ℝ)} {p p' : ℕ},
    (∀ x ∈ l, x.2.length = n ∧ 0 ≤ peters_f x.1) → p ≤ p' → p' ≤ n →
    List.Forall₂ (· ≤ ·) (harmonics_loop tol n p l) (harmonics_loop tol' n p' l)
  | [], _, _, _, _, _ => .nil
  | (e, row) :: l, p, p', hl, hpp, hp => by
    obtain ⟨hr, he⟩ := hl (e, row) (by simp)
    have hstep := step_stricter ht he hr hpp hp
    exact .cons hstep (loop_stricter ht (fun x hx => hl x (by simp [hx])) hstep (step_spec tol' (e := e) hr hp).2.1)

theorem needed_stricter {T : LumTable} (hT : ValidTable T) (he : ∀ e ∈ T.e_range, 0 ≤ e ∧ e < 1) {tol tol' : ℝ}
    (ht : tol' ≤ tol) : List.Forall₂ (· ≤ ·) (harmonics_needed T tol) (harmonics_needed T tol') := by
  unfold harmonics_needed
  rcases hzip : T.e_range.zip T.g_vals with _ | ⟨x, l⟩
  · exact .nil
  · refine .cons le_rfl (loop_stricter ht (fun y hy => ?_) le_rfl hT.two_columns)
    have hy : y ∈ T.e_range.zip T.g_vals := by rw [hzip]; simp [hy]
    obtain ⟨h0, h1⟩ := he _ (List.of_mem_zip hy).1
    exact ⟨hT.columns _ (List.of_mem_zip hy).2, (strain.peters_f_pos h0 h1).le⟩

theorem maxNat_le {xs ys : List ℕ} (h : List.Forall₂ (· ≤ ·) xs ys) : maxNat xs ≤ maxNat ys := by
  rcases (maxNat_spec xs).2 with h0 | h0
  · rw [h0]; exact Nat.zero_le _
  · obtain ⟨i, hi, e⟩ := List.getElem_of_mem h0
    rw [← e]
    exact (h.get hi (h.length_eq ▸ hi)).trans ((maxNat_spec ys).1 _ (List.getElem_mem _))

open PyM hiding bind

variable {W : World} {s : ℕ} {h k : Heap}

/-- What setting the tolerance changes: fields of the object that matching does not look at. -/
structure OtherTol (h k : Heap) (s : ℕ) : Prop where
  par : k.par = h.par
  src : ∃ t q m e, k.src s = { h.src s with gw_lum_tol := t, harmonics_required := q, max_strain_harmonic := m, ecc_tol := e }

theorem otherTol_of_set {tol : ℝ} (hset : set_gw_lum_tol W s tol h = (.ok (), k)) : OtherTol h k s := by
  rcases set_gw_lum_tol_run W s tol h with ⟨-, hr⟩ | ⟨-, ⟨e, -, hr⟩ | ⟨e, -, hr⟩⟩
  · rw [hr] at hset
    obtain ⟨-, rfl⟩ := Prod.mk.inj hset
    exact ⟨rfl, _, _, _, _, rfl⟩
  · rw [hr] at hset
    cases (Prod.mk.inj hset).1
  · rw [hr] at hset
    obtain ⟨-, rfl⟩ := Prod.mk.inj hset
    exact ⟨rfl, some tol, some (harmonics_required W.table tol), some (max_strain_harmonic W.table tol), some e, by simp⟩

/-- Matching does not look at the tolerances. -/
theorem match_otherTol {a f : SnrArgs} {r : Bool} {h₁ : Heap} (ht : OtherTol h k s) (hown : Owned h s) (hownk : Owned k s)
    (hm : match_params W s a r h = (.ok f, h₁)) :
    ∃ k₁, match_params W s a r k = (.ok f, k₁) ∧ OtherTol h₁ k₁ s := by
  obtain ⟨hpar, t, q, m, e, hsrc⟩ := ht
  obtain ⟨p, f₀, hp, hf₀, hff, hu⟩ := match_params_ok hm
  have hpk : (k.src s).sc_params = some p := by rw [hsrc]; exact hp
  rw [← hpar] at hf₀
  rcases (update_iff hp hown).1 hu with ⟨ha, rfl⟩ | ⟨ha, hI, sc, hc, rfl⟩ | ⟨ha, hI, rfl⟩ <;> rw [← hpar] at ha
  · exact ⟨_, match_of_update hpk hf₀ hff (params_update_same W ha), hpar, _, _, _, _, hsrc⟩
  · rw [← hpar] at hc
    refine ⟨_, match_of_update hpk hf₀ hff ((update_iff hpk hownk).2
      (Or.inr (Or.inl ⟨ha, by rw [hsrc]; exact hI, sc, hc, rfl⟩))), ?_, t, q, m, e, ?_⟩
    · change (k.setPar p _).par = (h.setPar p _).par
      simp [hpar]
    · simp [hsrc]
  · refine ⟨_, match_of_update hpk hf₀ hff ((update_iff hpk hownk).2
      (Or.inr (Or.inr ⟨ha, by rw [hsrc]; exact hI, rfl⟩))), ?_, t, q, m, e, ?_⟩
    · change (k.setPar p _).par = (h.setPar p _).par
      simp [hpar]
    · simp [hsrc]

end Legwork.source
