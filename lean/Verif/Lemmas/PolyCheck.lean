import Mathlib.Data.Real.Basic
import Mathlib.Tactic.Ring
import Mathlib.Tactic.Linarith
import Mathlib.Tactic.FieldSimp
import Mathlib.Tactic.Positivity

/-!
# A checker for polynomial inequalities on an interval

Polynomials are lists of rational coefficients, lowest power first. `check p a b` substitutes
`x = (a + b y) / (1 + y)` and asks whether the resulting polynomial in `y` has non-negative coefficients;
if so, `p ≥ 0` on `[a, b)`. The answer is computed by Lean's kernel.
-/

namespace Legwork.PolyCheck

/-- Value of a polynomial. -/
def ev : List ℚ → ℝ → ℝ
  | [], _ => 0
  | c :: p, x => c + x * ev p x

def add : List ℚ → List ℚ → List ℚ
  | [], q => q
  | p, [] => p
  | a :: p, b :: q => (a + b) :: add p q

def smul (c : ℚ) : List ℚ → List ℚ
  | [] => []
  | a :: p => (c * a) :: smul c p

def mul : List ℚ → List ℚ → List ℚ
  | [], _ => []
  | a :: p, q => add (smul a q) (0 :: mul p q)

def pow (p : List ℚ) : ℕ → List ℚ
  | 0 => [1]
  | n + 1 => mul p (pow p n)

@[simp] theorem ev_nil (x : ℝ) : ev [] x = 0 := rfl
@[simp] theorem ev_cons (c : ℚ) (p : List ℚ) (x : ℝ) : ev (c :: p) x = c + x * ev p x := rfl

@[simp] theorem ev_add (p q : List ℚ) (x : ℝ) : ev (add p q) x = ev p x + ev q x := by
  induction p generalizing q with
  | nil => simp [add]
  | cons a p ih =>
    cases q with
    | nil => simp [add]
    | cons b q => simp only [add, ev_cons, ih]; push_cast; ring

@[simp] theorem ev_smul (c : ℚ) (p : List ℚ) (x : ℝ) : ev (smul c p) x = c * ev p x := by
  induction p with
  | nil => simp [smul]
  | cons a p ih => simp only [smul, ev_cons, ih]; push_cast; ring

@[simp] theorem ev_mul (p q : List ℚ) (x : ℝ) : ev (mul p q) x = ev p x * ev q x := by
  induction p with
  | nil => simp [mul]
  | cons a p ih => simp only [mul, ev_add, ev_smul, ev_cons, ih]; push_cast; ring

@[simp] theorem ev_pow (p : List ℚ) (n : ℕ) (x : ℝ) : ev (pow p n) x = ev p x ^ n := by
  induction n with
  | zero => simp [pow]
  | succ n ih => simp only [pow, ev_mul, ih]; ring

/-- `(1 + y)^n p((a + b y) / (1 + y))` together with `(1 + y)^n`, for `n` the length of `p`. -/
def hom (a b : ℚ) : List ℚ → List ℚ × List ℚ
  | [] => ([], [1])
  | c :: p =>
    let r := hom a b p
    let D := add r.2 (0 :: r.2)
    (add (smul c D) (mul [a, b] r.1), D)

theorem ev_hom (a b : ℚ) (p : List ℚ) (y x : ℝ) (hx : (1 + y) * x = a + b * y) :
    ev (hom a b p).2 y = (1 + y) ^ p.length ∧ ev (hom a b p).1 y = (1 + y) ^ p.length * ev p x := by
  induction p with
  | nil => simp [hom]
  | cons c p ih =>
    obtain ⟨h1, h2⟩ := ih
    have hD : ev (add (hom a b p).2 (0 :: (hom a b p).2)) y = (1 + y) ^ (p.length + 1) := by
      rw [ev_add, ev_cons, h1]; push_cast; ring
    refine ⟨hD, ?_⟩
    show ev (add (smul c _) (mul [a, b] (hom a b p).1)) y = _
    rw [ev_add, ev_smul, ev_mul, hD, h2]
    simp only [ev_cons, ev_nil, List.length_cons]
    have : (a : ℝ) + y * (b + y * 0) = (1 + y) * x := by rw [hx]; ring
    rw [this]; ring

def nonneg (p : List ℚ) : Bool := p.all fun c => decide (0 ≤ c)

theorem ev_nonneg {p : List ℚ} (h : nonneg p = true) {y : ℝ} (hy : 0 ≤ y) : 0 ≤ ev p y := by
  induction p with
  | nil => simp
  | cons c p ih =>
    simp only [nonneg, List.all_cons, Bool.and_eq_true, decide_eq_true_eq] at h
    have h0 : (0 : ℝ) ≤ c := by exact_mod_cast h.1
    have := ih h.2
    rw [ev_cons]; positivity

/-- Is the polynomial non-negative on `[a, b)`? -/
def check (p : List ℚ) (a b : ℚ) : Bool := nonneg (hom a b p).1

theorem check_sound {p : List ℚ} {a b : ℚ} (h : check p a b = true) {x : ℝ} (ha : (a : ℝ) ≤ x) (hb : x < b) :
    0 ≤ ev p x := by
  have hbx : 0 < (b : ℝ) - x := by linarith
  have hy : 0 ≤ (x - a) / (b - x) := div_nonneg (by linarith) hbx.le
  have hx : (1 + (x - a) / (b - x)) * x = a + b * ((x - a) / (b - x)) := by field_simp; ring
  have h1 := ev_nonneg h hy
  rw [(ev_hom a b p _ x hx).2] at h1
  exact nonneg_of_mul_nonneg_right h1 (by positivity)

/-- The same on `[a₀, a₁), [a₁, a₂), …`. -/
def checks (p : List ℚ) : ℚ → List ℚ → Bool
  | _, [] => true
  | a, b :: bs => check p a b && checks p b bs

theorem checks_sound {p : List ℚ} {bs : List ℚ} {a : ℚ} (h : checks p a bs = true) {x : ℝ} (ha : (a : ℝ) ≤ x)
    (hb : x < ((a :: bs).getLast (by simp) : ℚ)) : 0 ≤ ev p x := by
  induction bs generalizing a with
  | nil => simp at hb; linarith
  | cons b bs ih =>
    simp only [checks, Bool.and_eq_true] at h
    rcases lt_or_ge x (b : ℝ) with hxb | hxb
    · exact check_sound h.1 ha hxb
    · exact ih h.2 hxb (by simpa using hb)

/-- `(1 + t²)^n p(v / (1 + t²))` for `p` of length at most `n + 1`, as a polynomial in `t`. -/
def subst (v w : List ℚ) : List ℚ → ℕ → List ℚ
  | [], _ => []
  | c :: p, n => add (smul c (pow w n)) (mul v (subst v w p (n - 1)))

theorem ev_subst (v w : List ℚ) (p : List ℚ) (n : ℕ) (hn : p.length ≤ n + 1) (t x : ℝ)
    (hx : ev w t * x = ev v t) : ev (subst v w p n) t = ev w t ^ n * ev p x := by
  induction p generalizing n with
  | nil => simp [subst]
  | cons c p ih =>
    simp only [List.length_cons] at hn
    cases n with
    | zero =>
      have : p = [] := List.eq_nil_of_length_eq_zero (by omega)
      subst this
      simp [subst]
    | succ n =>
      rw [subst, ev_add, ev_smul, ev_pow, ev_mul, Nat.add_sub_cancel, ih n (by omega), ev_cons, ← hx]
      ring

end Legwork.PolyCheck
