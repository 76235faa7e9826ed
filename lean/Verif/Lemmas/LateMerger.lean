import Verif.Lemmas.BranchAccuracy

/-!
# The approximation of the merger time for large eccentricities is too large
-/

namespace Legwork.evol

open Real Legwork.utils Legwork.PolyCheck Legwork.Spec

/-- The polynomial below the approximation for large eccentricities. -/
theorem large_check_strict : checks (resid [768 / 425, -1 / 10]) 0 [1 / 2, 1] = true := by decide +kernel

/-- The approximation for large eccentricities is too large. -/
theorem t_exact_lt_large {a β e : ℝ} (ha : 0 < a) (hβ : 0 < β) (h0 : 0 < e) (h1 : e < 1) :
    t_exact (c_0 a e) β e < t_large (c_0 a e) β e := by
  have := gap_nonneg (p := [768 / 425, -1 / 10]) (fun s hs0 hs1 =>
    checks_sound large_check_strict (x := s) (by simpa using hs0.le) (by simpa using hs1)) (c_0 a e) h0 h1
  unfold gap at this
  rw [Props.C02_a_roundtrip h0 h1, ev_cons, ev_cons, ev_nil] at this
  rw [t_exact_eq, t_large_eq h0 h1, pow7 h0 h1,
    show a ^ 4 / (4 * β) * (768 / 425 * √(1 - e ^ 2) ^ 7) = 768 / 425 * √(1 - e ^ 2) ^ 7 * a ^ 4 / (4 * β) by ring]
  have hS := (sqrt_mem h0 h1).1
  apply div_lt_div_of_pos_right _ (by positivity)
  push_cast at this
  have hp : 0 < √(1 - e ^ 2) * √(1 - e ^ 2) ^ 7 * a ^ 4 := by positivity
  nlinarith

end Legwork.evol
