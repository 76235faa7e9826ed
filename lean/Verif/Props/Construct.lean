import Verif.Spec.Construct
import Verif.Lemmas.SizesRun
import Verif.Lemmas.Example

/-!
# The constructor (C50)
-/

namespace Legwork.Props

open Legwork.source Legwork.Spec Legwork.utils
open PyM hiding bind

variable {W : World} {cls : Cls} {a a₀ : InitArgs} {c : Cols} {h h' h₀ h₀' : Heap} {s s₀ : ℕ}

theorem valuesOf_eq (x : Raw) : x.toList = valuesOf x := by cases x <;> rfl

theorem places_eq (x : RawPos) : x.toList = places x := by cases x <;> rfl

theorem units_iff (x : Raw) : x.hasUnits = true ↔ WithUnits x := by cases x <;> rfl

theorem len_ok {x : Raw} (hx : IsArray x) : x.len = .ok (count x) := by cases x <;> [cases hx; rfl]

theorem len_error {x : Raw} (hx : ¬ IsArray x) : x.len = .error .TypeError := by
  cases x <;> [rfl; exact absurd trivial hx]

/-! ### The steps of the constructor -/

theorem fill_angle_ok_iff {m : Raw} {rand : ℕ → ℝ} {o : Option Raw} :
    (∃ x, fill_angle m rand o = .ok x) ↔ (o = none → IsArray m) := by
  rcases o with _ | y
  · by_cases hm : IsArray m
    · simp [fill_angle, len_ok hm, hm, bind, Except.bind, pure, Except.pure]
    · simp [fill_angle, len_error hm, hm, bind, Except.bind]
  · simp [fill_angle, pure, Except.pure]

theorem fill_angle_error {m : Raw} {rand : ℕ → ℝ} (hm : ¬ IsArray m) :
    fill_angle m rand none = .error .TypeError := by
  simp [fill_angle, len_error hm, bind, Except.bind]

theorem fill_angle_drawn {m x : Raw} {rand : ℕ → ℝ} (hx : fill_angle m rand none = .ok x) :
    x.toList = (List.range (count m)).map rand := by
  have hm : IsArray m := fill_angle_ok_iff.1 ⟨x, hx⟩ rfl
  simp only [fill_angle, len_ok hm, bind, Except.bind, pure, Except.pure, Except.ok.injEq] at hx
  rw [← hx]
  rfl

theorem place_ok_iff {p : List (ℝ × ℝ)} {d : List ℝ} :
    (∃ x, place p d = .ok x) ↔ (p.length = d.length ∨ p.length = 1 ∨ d.length = 1) := by
  unfold place
  by_cases h1 : p.length = d.length
  · simp [h1, pure, Except.pure]
  · rw [if_neg h1]
    match p with
    | [] => by_cases h2 : d.length = 1 <;> simp [h2, pure, Except.pure, throw, throwThe, MonadExceptOf.throw]; simpa using h1
    | [q] => simp [pure, Except.pure]
    | q :: r :: t =>
      by_cases h2 : d.length = 1 <;> simp [h2, pure, Except.pure, throw, throwThe, MonadExceptOf.throw]
      simpa using h1

theorem place_error {p : List (ℝ × ℝ)} {d : List ℝ} (hp : ¬ ∃ x, place p d = .ok x) :
    place p d = .error .ValueError := by
  unfold place at *
  by_cases h1 : p.length = d.length
  · rw [if_pos h1] at hp
    exact absurd ⟨_, rfl⟩ hp
  · rw [if_neg h1] at hp ⊢
    match p, hp with
    | [q], hp => exact absurd ⟨_, rfl⟩ hp
    | [], hp =>
      by_cases h2 : d.length = 1
      · simp only [if_pos h2] at hp
        exact absurd ⟨_, rfl⟩ hp
      · simp only [if_neg h2]; rfl
    | q :: r :: t, hp =>
      by_cases h2 : d.length = 1
      · simp only [if_pos h2] at hp
        exact absurd ⟨_, rfl⟩ hp
      · simp only [if_neg h2]; rfl

theorem broadcast2_some {α : Type} [Inhabited α] {f : ℝ → α → ℝ} {x : List ℝ} {y : List α}
    (hx : x.length = y.length ∨ x.length = 1) :
    broadcast2 f x y = .ok ((List.range y.length).map fun i =>
      f (x.getD (if x.length = 1 then 0 else i) 0) (y.getD i default)) := by
  unfold broadcast2
  by_cases h1 : x.length = y.length
  · rw [if_pos h1]
    refine congrArg Except.ok (List.ext_getElem (by simp [h1]) fun i h2 h3 => ?_)
    have h4 : i < y.length := by simpa using h3
    have h5 : i < x.length := by omega
    by_cases h6 : x.length = 1
    · have : i = 0 := by omega
      subst this
      simp [h6, List.getD_eq_getElem?_getD, h4, h5]
    · simp [h6, List.getD_eq_getElem?_getD, h4, h5]
  · rw [if_neg h1]
    obtain ⟨v, rfl⟩ := List.length_eq_one_iff.1 (hx.resolve_left h1)
    refine congrArg Except.ok (List.ext_getElem (by simp) fun i h2 h3 => ?_)
    have h4 : i < y.length := by simpa using h3
    simp [List.getD_eq_getElem?_getD, h4]

theorem broadcast2_cases {α : Type} {f : ℝ → α → ℝ} (x : List ℝ) (y : List α) :
    (broadcast2 f x y = .error .ValueError ∧ x.length ≠ y.length ∧ x.length ≠ 1 ∧ y.length ≠ 1) ∨
      ∃ z, broadcast2 f x y = .ok z ∧ (x.length = y.length ∧ z.length = y.length ∨
        x.length = 1 ∧ z.length = y.length ∨ y.length = 1 ∧ z.length = x.length) := by
  unfold broadcast2
  by_cases h1 : x.length = y.length
  · rw [if_pos h1]
    exact Or.inr ⟨_, rfl, Or.inl ⟨h1, by simp [h1]⟩⟩
  · rw [if_neg h1]
    match x, y, h1 with
    | [v], ys, _ => exact Or.inr ⟨_, rfl, Or.inr (Or.inl ⟨rfl, by simp⟩)⟩
    | [], [w], _ => exact Or.inr ⟨_, rfl, Or.inr (Or.inr ⟨rfl, by simp⟩)⟩
    | v :: v' :: vs, [w], _ => exact Or.inr ⟨_, rfl, Or.inr (Or.inr ⟨rfl, by simp⟩)⟩
    | [], [], h1 => exact absurd rfl h1
    | [], w :: w' :: ws, _ => exact Or.inl ⟨rfl, by simp⟩
    | v :: v' :: vs, [], _ => exact Or.inl ⟨rfl, by simp⟩
    | v :: v' :: vs, w :: w' :: ws, h1 => exact Or.inl ⟨rfl, h1, by simp⟩

theorem get_f_orb_add (K : Consts) (x m n : ℝ) : get_f_orb_from_a K x (m + n) 0 = get_f_orb_from_a K x m n := by
  simp [get_f_orb_from_a]

theorem broadcast2_same' {α : Type} {f : ℝ → α → ℝ} {x : List ℝ} {y : List α} (hl : x.length = y.length) :
    broadcast2 f x y = .ok (x.zipWith f y) := by
  unfold broadcast2
  rw [if_pos hl]
  rfl

/-- The frequencies of separations with units. -/
theorem f_orb_of_a_ok {K : Consts} {x m n : Raw} (hu : WithUnits x ∧ WithUnits m ∧ WithUnits n)
    (hm : count n = count m) (hx : count x = count m ∨ count x = 1) :
    ∃ f, f_orb_of_a K x m n = .ok f ∧ WithUnits f ∧ count f = count m ∧ ∀ i < count m,
      (valuesOf f).getD i 0 = get_f_orb_from_a K ((valuesOf x).getD (if count x = 1 then 0 else i) 0)
        ((valuesOf m).getD i 0) ((valuesOf n).getD i 0) := by
  obtain ⟨u1, u2, u3⟩ := hu
  have v1 := (units_iff x).2 u1
  have v2 := (units_iff m).2 u2
  have v3 := (units_iff n).2 u3
  have hs : ∀ l : List ℝ, l = (List.range (count m)).map (fun i =>
        get_f_orb_from_a K ((valuesOf x).getD (if count x = 1 then 0 else i) 0)
          ((valuesOf m).getD i 0 + (valuesOf n).getD i 0) 0) →
      ∀ f : Raw, valuesOf f = l → count f = count m ∧ ∀ i < count m,
      (valuesOf f).getD i 0 = get_f_orb_from_a K ((valuesOf x).getD (if count x = 1 then 0 else i) 0)
        ((valuesOf m).getD i 0) ((valuesOf n).getD i 0) := by
    rintro l rfl f hf
    refine ⟨by simp [count, hf], fun i hi => ?_⟩
    rw [hf, ← get_f_orb_add]
    simp [List.getD_eq_getElem?_getD, hi]
  have hb : broadcast2 (fun x y => x + y) m.toList n.toList = .ok ((List.range (count m)).map fun i =>
      (valuesOf m).getD i 0 + (valuesOf n).getD i 0) := by
    rw [valuesOf_eq, valuesOf_eq, broadcast2_some (Or.inl hm.symm)]
    refine congrArg Except.ok (List.ext_getElem (by simpa [count] using hm) fun i h1 h2 => ?_)
    have h3 : i < (valuesOf n).length := by simpa using h1
    have h4 : i < (valuesOf m).length := by simpa [count] using h2
    by_cases h6 : (valuesOf m).length = 1
    · have : i = 0 := by omega
      subst this
      simp [h6, List.getD_eq_getElem?_getD, h3]
    · simp [h6, List.getD_eq_getElem?_getD, h3]
  have hb2 : broadcast2 (fun a m => get_f_orb_from_a K a m 0) x.toList ((List.range (count m)).map fun i =>
      (valuesOf m).getD i 0 + (valuesOf n).getD i 0) = .ok ((List.range (count m)).map (fun i =>
        get_f_orb_from_a K ((valuesOf x).getD (if count x = 1 then 0 else i) 0)
          ((valuesOf m).getD i 0 + (valuesOf n).getD i 0) 0)) := by
    rw [valuesOf_eq, broadcast2_some (by simpa [count] using hx)]
    refine congrArg Except.ok (List.ext_getElem (by simp) fun i h1 h2 => ?_)
    have h3 : i < (valuesOf m).length := by simpa [count] using h2
    simp [List.getD_eq_getElem?_getD, h3, count]
  unfold f_orb_of_a
  rw [if_neg (by simp [v2, v3])]
  split
  · rename_i x' ua y' u1' z' u2'
    simp only [Raw.hasUnits] at v1 v2 v3
    subst v1 v2 v3
    refine ⟨_, rfl, rfl, rfl, fun i hi => ?_⟩
    have : i = 0 := by simpa [count, valuesOf] using hi
    subst this
    rfl
  · rw [hb]
    simp only [ok_bind]
    rw [hb2]
    simp only [ok_bind, v1, v2, v3, Bool.and_self, if_true]
    exact ⟨_, rfl, rfl, hs _ rfl _ rfl⟩

theorem f_orb_of_a_units {K : Consts} {x m n f : Raw} (hf : f_orb_of_a K x m n = .ok f) :
    WithUnits x ∧ WithUnits m ∧ WithUnits n ∧ (count n = count m → count x = count m ∨ count x = 1 ∨
      count m = 1 ∧ count f = count x) := by
  unfold f_orb_of_a at hf
  by_cases h0 : m.hasUnits ≠ n.hasUnits
  · rw [if_pos h0] at hf
    cases hf
  rw [if_neg h0] at hf
  split at hf
  · split_ifs at hf with h1
    simp only [Bool.and_eq_true] at h1
    exact ⟨h1.1.1, h1.1.2, h1.2, fun _ => Or.inr (Or.inl rfl)⟩
  · obtain ⟨l, hl, hf⟩ := except_bind_ok.1 hf
    obtain ⟨l', hl', hf⟩ := except_bind_ok.1 hf
    split_ifs at hf with h1
    cases hf
    simp only [Bool.and_eq_true] at h1
    refine ⟨(units_iff _).1 h1.1.1, (units_iff _).1 h1.1.2, (units_iff _).1 h1.2, fun hc => ?_⟩
    rw [valuesOf_eq] at hl hl'
    rw [valuesOf_eq, broadcast2_same' (show (valuesOf m).length = (valuesOf n).length from hc.symm)] at hl
    cases hl
    rcases broadcast2_cases (f := fun a m => get_f_orb_from_a K a m 0) (valuesOf x)
      ((valuesOf m).zipWith (fun x y => x + y) (valuesOf n)) with ⟨he, -⟩ | ⟨z, hz, hz'⟩
    · rw [he] at hl'; cases hl'
    · rw [hz] at hl'
      cases hl'
      have : (valuesOf n).length = (valuesOf m).length := hc
      simp only [List.length_zipWith, this, min_self] at hz'
      rcases hz' with ⟨h2, -⟩ | ⟨h2, -⟩ | ⟨h2, h3⟩
      · exact Or.inl h2
      · exact Or.inr (Or.inl h2)
      · exact Or.inr (Or.inr ⟨h2, h3⟩)

theorem f_orb_of_a_lengths {K : Consts} {x m n : Raw} (hu : WithUnits x ∧ WithUnits m ∧ WithUnits n) :
    f_orb_of_a K x m n = .error .ValueError ∨ ∃ f, f_orb_of_a K x m n = .ok f ∧ WithUnits f ∧
      (count n = count m → count x = count m ∨ count x = 1 ∨ count m = 1 ∧ count f = count x) := by
  obtain ⟨u1, u2, u3⟩ := hu
  have v1 := (units_iff x).2 u1
  have v2 := (units_iff m).2 u2
  have v3 := (units_iff n).2 u3
  rcases hf : f_orb_of_a K x m n with e | f
  · left
    unfold f_orb_of_a at hf
    rw [if_neg (by simp [v2, v3])] at hf
    split at hf
    · simp only [Raw.hasUnits] at v1 v2 v3
      subst v1 v2 v3
      cases hf
    · rcases broadcast2_cases (f := fun x y => x + y) m.toList n.toList with ⟨h1, -⟩ | ⟨l, h1, -⟩
      · rw [h1] at hf
        rw [← hf]; rfl
      · rw [h1, ok_bind] at hf
        rcases broadcast2_cases (f := fun a m => get_f_orb_from_a K a m 0) x.toList l with ⟨h2, -⟩ | ⟨l', h2, -⟩
        · rw [h2] at hf
          rw [← hf]; rfl
        · rw [h2, ok_bind, v1, v2, v3] at hf
          cases hf
  · right
    refine ⟨f, rfl, ?_, (f_orb_of_a_units hf).2.2.2⟩
    unfold f_orb_of_a at hf
    rw [if_neg (by simp [v2, v3])] at hf
    split at hf
    · simp only [Raw.hasUnits] at v1 v2 v3
      subst v1 v2 v3
      cases hf
      rfl
    · obtain ⟨l, -, hf⟩ := except_bind_ok.1 hf
      obtain ⟨l', -, hf⟩ := except_bind_ok.1 hf
      rw [v1, v2, v3] at hf
      cases hf
      rfl

theorem f_orb_of_a_error {K : Consts} {x m n : Raw} (hu : ¬ (WithUnits x ∧ WithUnits m ∧ WithUnits n))
    (hm : count n = count m) (hx : count x = count m ∨ count x = 1) :
    f_orb_of_a K x m n = .error .UnitConversionError := by
  have hb : (x.hasUnits && m.hasUnits && n.hasUnits) ≠ true := by
    simp only [ne_eq, Bool.and_eq_true, units_iff, and_assoc]
    exact hu
  unfold f_orb_of_a
  by_cases h0 : m.hasUnits ≠ n.hasUnits
  · rw [if_pos h0]; rfl
  rw [if_neg h0]
  split
  · simp only [Raw.hasUnits] at hb
    rw [if_neg hb]; rfl
  · rw [valuesOf_eq, valuesOf_eq, valuesOf_eq, broadcast2_same' (show (valuesOf m).length = (valuesOf n).length from hm.symm),
      ok_bind, broadcast2_some, ok_bind, if_neg hb]
    · rfl
    · have : (valuesOf n).length = (valuesOf m).length := hm
      simpa [this, count] using hx

/-- Positions and angles are accepted exactly as specified. -/
theorem init_orientation_ok_iff : (∃ o, init_orientation a = .ok o) ↔
    (a.position = none → a.inclination = none ∧ a.polarisation = none) ∧
    (a.position ≠ none → ∀ e ∈ valuesOf a.ecc, e = 0) ∧
    (∀ p, a.position = some p → (places p).length = count a.dist ∨ (places p).length = 1 ∨ count a.dist = 1) ∧
    (a.position ≠ none → a.inclination = none ∨ a.polarisation = none → IsArray a.m_1) := by
  constructor
  · rintro ⟨⟨pos, pol, inc⟩, ho⟩
    rcases init_orientation_ok ho with ⟨h1, h2, h3, -⟩ | ⟨p, i, q, x, hp, hi, hq, he, hx, -⟩
    · simp [h1, h2, h3]
    · refine ⟨by simp [hp], fun _ => by rwa [valuesOf_eq] at he, fun p' hp' => ?_, fun _ hn => ?_⟩
      · rw [hp] at hp'
        cases hp'
        rw [places_eq, valuesOf_eq] at hx
        exact place_ok_iff.1 ⟨x, hx⟩
      · rcases hn with hn | hn
        · exact fill_angle_ok_iff.1 ⟨i, hi⟩ hn
        · exact fill_angle_ok_iff.1 ⟨q, hq⟩ hn
  · rintro ⟨h1, h2, h3, h4⟩
    unfold init_orientation
    rcases hp : a.position with _ | p
    · obtain ⟨h5, h6⟩ := h1 hp
      simp [h5, h6, pure, Except.pure]
    · have hne : a.position ≠ none := by simp [hp]
      obtain ⟨i, hi⟩ := fill_angle_ok_iff (m := a.m_1) (rand := a.rand_inclination) |>.2 fun hn => h4 hne (Or.inl hn)
      obtain ⟨q, hq⟩ := fill_angle_ok_iff (m := a.m_1) (rand := a.rand_polarisation) |>.2 fun hn => h4 hne (Or.inr hn)
      obtain ⟨x, hx⟩ := place_ok_iff.2 (h3 p hp)
      have he : ¬ ∃ e ∈ a.ecc.toList, e ≠ 0 := by
        rw [valuesOf_eq]
        rintro ⟨e, he, h0⟩
        exact h0 (h2 hne e he)
      simp only
      rw [hi, ok_bind, hq, ok_bind, if_neg he, places_eq, valuesOf_eq, hx, ok_bind]
      exact ⟨_, rfl⟩

theorem init_cols_ok_iff : (∃ c, init_cols W a = .ok c) ↔ Usable a := by
  constructor
  · rintro ⟨c, hc⟩
    obtain ⟨h1, h2, h3, h4, ⟨f, h5, h6, h7⟩, ⟨u1, u2, u3⟩, ⟨l1, l2, l3, l4⟩, -, h9, -, -⟩ := init_cols_iff.1 hc
    rw [units_iff] at u1 u2 u3 h7
    simp only [Cols.n_sources, h1, h2, h3, h4, h6, valuesOf_eq] at l1 l2 l3 l4
    obtain ⟨o1, o2, o3, o4⟩ := init_orientation_ok_iff.1 ⟨_, h9⟩
    refine ⟨?_, ⟨u1, u2, u3⟩, ⟨l1, l2, l4⟩, o1, o2, fun p hp => ?_, o4⟩
    · unfold init_f_orb at h5
      rcases hf : a.f_orb with _ | f'
      · rcases hx : a.a with _ | x
        · rw [hf, hx] at h5; cases h5
        · rw [hf, hx] at h5
          simp only at h5
          obtain ⟨v1, v2, v3, v4⟩ := f_orb_of_a_units h5
          refine Or.inr ⟨rfl, x, rfl, v1, ?_⟩
          rcases v4 l1 with v | v | ⟨v, v'⟩
          · exact Or.inl v
          · exact Or.inr v
          · exact Or.inr (by rw [← v', ← v]; exact l3)
      · rw [hf] at h5
        cases h5
        exact Or.inl ⟨_, rfl, h7, l3⟩
    · have := o3 p hp
      rw [show count a.dist = count a.m_1 from l2] at this
      exact this
  · intro hu
    obtain ⟨⟨pos, pol, inc⟩, ho⟩ := init_orientation_ok_iff.2 ⟨hu.angles, hu.circular, fun p hp => by
      rw [hu.lengths.2.1]; exact hu.positions p hp, hu.drawn⟩
    obtain ⟨f, hf, hfu, hfl⟩ : ∃ f, init_f_orb W.K a = .ok f ∧ WithUnits f ∧ count f = count a.m_1 := by
      rcases hu.orbit with ⟨f, hf, h1, h2⟩ | ⟨hf, x, hx, h1, h2⟩
      · exact ⟨f, by simp [init_f_orb, hf, pure, Except.pure], h1, h2⟩
      · obtain ⟨f, h3, h4, h5, -⟩ := f_orb_of_a_ok (K := W.K) ⟨h1, hu.units.1, hu.units.2.1⟩ hu.lengths.1 h2
        exact ⟨f, by simp [init_f_orb, hf, hx, h3], h4, h5⟩
    refine ⟨{ m_1 := a.m_1.toList, m_2 := a.m_2.toList, dist := a.dist.toList, f_orb := f.toList, ecc := a.ecc.toList,
              weights := a.weights.map Raw.toList, position := pos, inclination := inc, polarisation := pol,
              merged := List.replicate a.m_1.toList.length false }, init_cols_iff.2 ?_⟩
    refine ⟨rfl, rfl, rfl, rfl, ⟨f, hf, rfl, (units_iff f).2 hfu⟩, ?_, ?_, rfl, ho, rfl, rfl⟩
    · simp only [units_iff]
      exact hu.units
    · simp only [Cols.n_sources, valuesOf_eq]
      exact ⟨hu.lengths.1, hu.lengths.2.1, hfl, hu.lengths.2.2⟩

/-! ### C50: what is accepted and what comes out -/

theorem builtFrom_of_cols {e : ℝ} {sc : Option (ℝ → WithTop ℝ)} {p : ℕ} (hc : init_cols W a = .ok c) :
    BuiltFrom W.K cls a (newObject W cls a c e sc p) := by
  have hu : Usable a := init_cols_ok_iff.1 ⟨c, hc⟩
  obtain ⟨h1, h2, h3, h4, ⟨f, h5, h6, h7⟩, -, ⟨l1, l2, l3, l4⟩, h8, h9, h10, h11⟩ := init_cols_iff.1 hc
  have hn : c.n_sources = count a.m_1 := by rw [Cols.n_sources, h1, valuesOf_eq]; rfl
  rw [valuesOf_eq] at h1 h2 h3 h4 h6
  have hd : a.dist.toList.length = count a.m_1 := by rw [valuesOf_eq]; exact hu.lengths.2.1
  have ho := init_orientation_ok h9
  refine ⟨rfl, h1, h2, h3, h4, ?_, ?_, ?_, ?_, ?_, ?_, ?_, ?_, ?_, ?_, ⟨?_, h11, rfl, rfl⟩, rfl, rfl, rfl, rfl⟩
  · intro f' hf'
    rw [init_f_orb, hf'] at h5
    cases h5
    exact h6
  · intro hf
    refine ⟨by rw [← hn, ← l3]; rfl, fun x hx => ?_⟩
    rw [init_f_orb, hf, hx] at h5
    simp only at h5
    rcases hu.orbit with ⟨f', hf', -⟩ | ⟨-, x', hx', v1, v2⟩
    · rw [hf] at hf'; cases hf'
    · rw [hx] at hx'
      cases hx'
      obtain ⟨f', h12, -, -, h13⟩ := f_orb_of_a_ok (K := W.K) ⟨v1, hu.units.1, hu.units.2.1⟩ hu.lengths.1 v2
      rw [h5] at h12
      cases h12
      simp only [newObject, h6]
      exact h13
  · simp only [newObject, h8]
    rcases a.weights with _ | w
    · rfl
    · simp [valuesOf_eq]
  · intro hp
    rcases ho with ⟨-, -, -, q1, q2, q3⟩ | ⟨p, i, q, x, hp', -⟩
    · exact ⟨q1, q3, q2⟩
    · rw [hp] at hp'; cases hp'
  · intro p hp hl
    rcases ho with ⟨hp', -⟩ | ⟨p', i, q, x, hp', -, -, -, hx, q1, -⟩
    · rw [hp] at hp'; cases hp'
    · rw [hp] at hp'
      cases hp'
      simp only [newObject, q1]
      unfold place at hx
      rw [places_eq, if_pos (by rw [hd, hl])] at hx
      cases hx
      rfl
  · intro q hp
    rcases ho with ⟨hp', -⟩ | ⟨p', i, q', x, hp', -, -, -, hx, q1, -⟩
    · rw [hp] at hp'; cases hp'
    · rw [hp] at hp'
      cases hp'
      simp only [newObject, q1]
      unfold place at hx
      simp only [RawPos.toList, List.length_singleton, hd] at hx
      split_ifs at hx with h12
      · cases hx; rw [← h12]; rfl
      · cases hx; rfl
  all_goals rcases ho with ⟨hp', z1, z2, -⟩ | ⟨p', i, q', x, hp', hi, hq, -, hx, q1, q2, q3⟩
  · intro y hy; rw [z1] at hy; cases hy
  · intro y hy
    rw [hy] at hi
    cases hi
    simp only [newObject, q3, valuesOf_eq]
  · intro y hy; rw [z2] at hy; cases hy
  · intro y hy
    rw [hy] at hq
    cases hq
    simp only [newObject, q2, valuesOf_eq]
  · intro hne; exact absurd hp' hne
  · intro _ hn
    rw [hn] at hi
    simp only [newObject, q3, fill_angle_drawn hi]
  · intro hne; exact absurd hp' hne
  · intro _ hn
    rw [hn] at hq
    simp only [newObject, q2, fill_angle_drawn hq]
  · rw [← hn]; exact h10
  · rw [← hn]; exact h10

/-- The constructor only accepts usable arguments, and builds the collection described by them: the given values, a
given frequency in preference to a separation, numbers as arrays of length one, random angles where none were given. -/
theorem C50_built (hr : init W cls a h = (.ok s, h')) : Usable a ∧ BuiltFrom W.K cls a (h'.src s) := by
  obtain ⟨c, e, d, sc, hc, -, -, -, rfl, rfl⟩ := init_ok hr
  refine ⟨init_cols_ok_iff.1 ⟨c, hc⟩, ?_⟩
  simp only [heapAfterInit, Function.update_self]
  exact builtFrom_of_cols hc

/-- Conversely all usable arguments are accepted, provided the options that are not per source (tolerance and
sensitivity curve) are fine, that is, have been accepted together with any arguments at all. -/
theorem C50_accepts (hr : init W cls a₀ h₀ = (.ok s₀, h₀')) (ho : SameOptions a a₀) (hu : Usable a) :
    ∃ s h', init W cls a h = (.ok s, h') := by
  obtain ⟨c₀, e, d, sc, -, he, hd, hs, -⟩ := init_ok hr
  obtain ⟨c, hc⟩ := init_cols_ok_iff (W := W).2 hu
  rcases init_run W cls a h with ⟨_, _, _, _, -, -, -, -, h5⟩ | ⟨-, h1⟩
  · exact ⟨_, _, h5⟩
  · rw [ho.gw_lum_tol, ho.interpolate_sc, ho.sc_params, hc, he, hd] at h1
    rcases h1 with ⟨e, h1⟩ | ⟨e, h1⟩ | ⟨e, h1⟩ | ⟨h0, d', e, h1, h2⟩
    · cases h1
    · cases h1
    · cases h1
    · cases h1
      rcases hs with ⟨-, c', hc', -⟩ | ⟨h3, -⟩
      · rw [hc'] at h2; cases h2
      · rw [h0] at h3; cases h3

theorem init_error {e : PyErr} (he : init_cols W a = .error e) : init W cls a h = (.error e, h) := by
  unfold init
  rw [bind_run, lift_run, he]

/-- Arguments that are not usable are always rejected, before any object exists. -/
theorem C50_rejects (hu : ¬ Usable a) : ∃ e, init W cls a h = (.error e, h) := by
  rcases hc : init_cols W a with e | c
  · exact ⟨e, init_error hc⟩
  · exact absurd (init_cols_ok_iff.1 ⟨c, hc⟩) hu

/-! ### C50: which errors -/

/-- Neither a frequency nor a separation is a `ValueError`. -/
theorem C50_no_orbit (hf : a.f_orb = none) (ha : a.a = none) : init W cls a h = (.error .ValueError, h) := by
  refine init_error ?_
  unfold init_cols
  rw [if_pos (by simp [hf, ha])]
  rfl

/-- An inclination or polarisation without a position is a `ValueError`. -/
theorem C50_angle_without_position (hp : a.position = none) (hi : a.inclination ≠ none ∨ a.polarisation ≠ none) :
    init W cls a h = (.error .ValueError, h) := by
  refine init_error ?_
  unfold init_cols
  split_ifs with h0
  · rfl
  · have : init_orientation a = .error .ValueError := by
      unfold init_orientation
      simp only [hp]
      rcases ha : a.inclination with _ | x
      · rcases hb : a.polarisation with _ | y
        · simp [ha, hb] at hi
        · simp [throw, throwThe, MonadExceptOf.throw]
      · simp [throw, throwThe, MonadExceptOf.throw]
    rw [this]
    rfl

/-- A position with any eccentricity other than zero is a `ValueError`. (If an angle has to be drawn at random and the
masses are plain numbers, drawing it fails first, see `C50_scalar_with_position`.) -/
theorem C50_eccentric_with_position (hp : a.position ≠ none) (he : ∃ e ∈ valuesOf a.ecc, e ≠ 0)
    (hd : a.inclination = none ∨ a.polarisation = none → IsArray a.m_1) :
    init W cls a h = (.error .ValueError, h) := by
  refine init_error ?_
  unfold init_cols
  split_ifs with h0
  · rfl
  · obtain ⟨p, hp⟩ := Option.ne_none_iff_exists'.1 hp
    obtain ⟨i, hi⟩ := fill_angle_ok_iff (m := a.m_1) (rand := a.rand_inclination) |>.2 fun hn => hd (Or.inl hn)
    obtain ⟨q, hq⟩ := fill_angle_ok_iff (m := a.m_1) (rand := a.rand_polarisation) |>.2 fun hn => hd (Or.inr hn)
    have : init_orientation a = .error .ValueError := by
      unfold init_orientation
      rw [hp]
      simp only
      rw [hi, ok_bind, hq, ok_bind, valuesOf_eq, if_pos he]
      rfl
    rw [this]
    rfl

/-- A single source given as plain numbers with a position but without both angles is a `TypeError`, although the
documentation says that missing angles are drawn at random. -/
theorem C50_scalar_with_position (hf : a.f_orb ≠ none ∨ a.a ≠ none) (hp : a.position ≠ none)
    (hd : a.inclination = none ∨ a.polarisation = none) (hm : ¬ IsArray a.m_1) :
    init W cls a h = (.error .TypeError, h) := by
  refine init_error ?_
  unfold init_cols
  rw [if_neg (by simp only [Option.isNone_iff_eq_none, not_and_or]; exact hf)]
  obtain ⟨p, hp⟩ := Option.ne_none_iff_exists'.1 hp
  have : init_orientation a = .error .TypeError := by
    unfold init_orientation
    rw [hp]
    simp only
    rcases hi : a.inclination with _ | x
    · rw [fill_angle_error hm]
      rfl
    · rcases hq : a.polarisation with _ | y
      · rw [show fill_angle a.m_1 a.rand_inclination (some x) = .ok x from rfl, ok_bind, fill_angle_error hm]
        rfl
      · simp [hi, hq] at hd
  rw [this]
  rfl

/-- Positions, if any, that are accepted. -/
def PlacedWell (a : InitArgs) : Prop :=
  (a.position = none → a.inclination = none ∧ a.polarisation = none) ∧
    (a.position ≠ none → ∀ e ∈ valuesOf a.ecc, e = 0) ∧
    (∀ p, a.position = some p → (places p).length = count a.dist ∨ (places p).length = 1 ∨ count a.dist = 1) ∧
    (a.position ≠ none → a.inclination = none ∨ a.polarisation = none → IsArray a.m_1)

/-- With a frequency, missing units of the masses, the distance or the frequency are an `AssertionError`. -/
theorem C50_no_units {f : Raw} (hf : a.f_orb = some f) (hp : PlacedWell a)
    (hn : ¬ (WithUnits a.m_1 ∧ WithUnits a.m_2 ∧ WithUnits a.dist ∧ WithUnits f)) :
    init W cls a h = (.error .AssertionError, h) := by
  refine init_error ?_
  obtain ⟨⟨pos, pol, inc⟩, ho⟩ := init_orientation_ok_iff.2 hp
  unfold init_cols
  rw [if_neg (by simp [hf]), ho, ok_bind]
  simp only
  rw [show init_f_orb W.K a = .ok f by rw [init_f_orb, hf]; rfl, ok_bind, if_pos ?_]
  · rfl
  · simp only [Bool.and_eq_true, units_iff]
    tauto

/-- With a separation instead, a missing unit of the distance is an `AssertionError`, -/
theorem C50_no_distance_units {x : Raw} (hf : a.f_orb = none) (hx : a.a = some x) (hp : PlacedWell a)
    (hu : WithUnits x ∧ WithUnits a.m_1 ∧ WithUnits a.m_2) (hl : count a.m_2 = count a.m_1)
    (hl' : count x = count a.m_1 ∨ count x = 1) (hn : ¬ WithUnits a.dist) :
    init W cls a h = (.error .AssertionError, h) := by
  refine init_error ?_
  obtain ⟨⟨pos, pol, inc⟩, ho⟩ := init_orientation_ok_iff.2 hp
  obtain ⟨f, h1, -⟩ := f_orb_of_a_ok (K := W.K) hu hl hl'
  unfold init_cols
  rw [if_neg (by simp [hx]), ho, ok_bind]
  simp only
  rw [show init_f_orb W.K a = .ok f by rw [init_f_orb, hf, hx]; exact h1, ok_bind, if_pos ?_]
  · rfl
  · simp only [Bool.and_eq_true, units_iff]
    tauto

/-- but missing units of the masses or the separation are a `UnitConversionError`, not the documented
`AssertionError`. -/
theorem C50_no_separation_units {x : Raw} (hf : a.f_orb = none) (hx : a.a = some x) (hp : PlacedWell a)
    (hu : ¬ (WithUnits x ∧ WithUnits a.m_1 ∧ WithUnits a.m_2)) (hl : count a.m_2 = count a.m_1)
    (hl' : count x = count a.m_1 ∨ count x = 1) :
    init W cls a h = (.error .UnitConversionError, h) := by
  refine init_error ?_
  obtain ⟨⟨pos, pol, inc⟩, ho⟩ := init_orientation_ok_iff.2 hp
  unfold init_cols
  rw [if_neg (by simp [hx]), ho, ok_bind]
  simp only
  have : init_f_orb W.K a = .error .UnitConversionError := by
    rw [init_f_orb, hf, hx]
    simp only
    exact f_orb_of_a_error hu hl hl'
  rw [this]
  rfl

/-- Masses, distances, frequencies and eccentricities of different lengths are a `ValueError`. -/
theorem C50_lengths {f : Raw} (hf : a.f_orb = some f) (hp : PlacedWell a)
    (hu : WithUnits a.m_1 ∧ WithUnits a.m_2 ∧ WithUnits a.dist ∧ WithUnits f)
    (hn : ¬ (count a.m_2 = count a.m_1 ∧ count a.dist = count a.m_1 ∧ count f = count a.m_1 ∧
      count a.ecc = count a.m_1)) : init W cls a h = (.error .ValueError, h) := by
  refine init_error ?_
  obtain ⟨⟨pos, pol, inc⟩, ho⟩ := init_orientation_ok_iff.2 hp
  unfold init_cols
  rw [if_neg (by simp [hf]), ho, ok_bind]
  simp only
  rw [show init_f_orb W.K a = .ok f by rw [init_f_orb, hf]; rfl, ok_bind, if_neg ?_, if_pos ?_]
  · rfl
  · simp only [valuesOf_eq]
    exact hn
  · simp only [Bool.and_eq_true, units_iff]
    tauto

/-- With a separation too: the only lengths that may differ are one separation for many sources. -/
theorem C50_lengths_separation {x : Raw} (hf : a.f_orb = none) (hx : a.a = some x) (hp : PlacedWell a)
    (hu : WithUnits a.m_1 ∧ WithUnits a.m_2 ∧ WithUnits a.dist ∧ WithUnits x)
    (hn : ¬ (count a.m_2 = count a.m_1 ∧ count a.dist = count a.m_1 ∧ count a.ecc = count a.m_1 ∧
      (count x = count a.m_1 ∨ count x = 1))) : init W cls a h = (.error .ValueError, h) := by
  refine init_error ?_
  obtain ⟨⟨pos, pol, inc⟩, ho⟩ := init_orientation_ok_iff.2 hp
  unfold init_cols
  rw [if_neg (by simp [hx]), ho, ok_bind]
  simp only
  rw [show init_f_orb W.K a = f_orb_of_a W.K x a.m_1 a.m_2 by rw [init_f_orb, hf, hx]]
  rcases f_orb_of_a_lengths (K := W.K) ⟨hu.2.2.2, hu.1, hu.2.1⟩ with he | ⟨f, hf', hfu, hfl⟩
  · rw [he]; rfl
  · rw [hf', ok_bind, if_neg ?_, if_pos ?_]
    · rfl
    · simp only [valuesOf_eq]
      rintro ⟨h1, h2, h3, h4⟩
      refine hn ⟨h1, h2, h4, ?_⟩
      rcases hfl h1 with h5 | h5 | ⟨h5, h6⟩
      · exact Or.inl h5
      · exact Or.inr h5
      · exact Or.inr (by rw [← h6, ← h5]; exact h3)
    · simp only [Bool.and_eq_true, units_iff]
      exact not_not.2 ⟨⟨⟨hu.1, hu.2.1⟩, hu.2.2.1⟩, hfu⟩

/-! ### Examples -/

/-- The two binaries of the example are usable. -/
theorem example_usable : Usable Example.args := (C50_built Example.init_start).1

/-- A single binary given by plain numbers, a separation, a position and both angles: accepted, as arrays of length
one. -/
noncomputable def scalarArgs : InitArgs where
  m_1 := .scalar 2e30 true
  m_2 := .scalar 1e30 true
  ecc := .scalar 0 false
  dist := .scalar 1e20 true
  a := some (.scalar 1e9 true)
  position := some (.scalar (1, 0.5))
  inclination := some (.scalar 0.3 true)
  polarisation := some (.scalar 0.2 true)
  sc_params := some (Example.custom 0)

theorem scalarArgs_usable : Usable scalarArgs := by
  refine ⟨Or.inr ⟨rfl, _, rfl, rfl, Or.inl rfl⟩, ⟨rfl, rfl, rfl⟩, ⟨rfl, rfl, rfl⟩, ?_, ?_, ?_, ?_⟩
  · simp [scalarArgs]
  · simp [scalarArgs, valuesOf]
  · intro p _; exact Or.inr (Or.inr rfl)
  · simp [scalarArgs]

example : ∃ s h', init Example.world .Source scalarArgs Example.start = (.ok s, h') ∧
    BuiltFrom Example.world.K .Source scalarArgs (h'.src s) ∧ (h'.src s).cols.m_1 = [2e30] ∧
    (h'.src s).cols.position = some [(1, 0.5)] := by
  obtain ⟨s, h', hr⟩ := C50_accepts (a := scalarArgs) (h := Example.start) Example.init_start ⟨rfl, rfl, rfl⟩
    scalarArgs_usable
  have hb := (C50_built hr).2
  exact ⟨s, h', hr, hb, hb.m_1, hb.position_one _ rfl⟩

/-- Without the inclination it is a `TypeError`. -/
example : init Example.world .Source { scalarArgs with inclination := none } Example.start =
    (.error .TypeError, Example.start) :=
  C50_scalar_with_position (Or.inr (by simp [scalarArgs])) (by simp [scalarArgs]) (Or.inl rfl) (by simp [scalarArgs, IsArray])

/-- Without the unit of the separation it is a `UnitConversionError`. -/
example : init Example.world .Source { scalarArgs with a := some (.scalar 1e9 false) } Example.start =
    (.error .UnitConversionError, Example.start) :=
  C50_no_separation_units rfl rfl ⟨scalarArgs_usable.angles, scalarArgs_usable.circular, fun _ _ => Or.inr (Or.inr rfl),
    scalarArgs_usable.drawn⟩ (by simp [WithUnits]) rfl (Or.inl rfl)

/-- Without the unit of the distance it is an `AssertionError`. -/
example : init Example.world .Source { scalarArgs with dist := .scalar 1e20 false } Example.start =
    (.error .AssertionError, Example.start) :=
  C50_no_distance_units rfl rfl ⟨scalarArgs_usable.angles, scalarArgs_usable.circular, fun _ _ => Or.inr (Or.inr rfl),
    scalarArgs_usable.drawn⟩ ⟨rfl, rfl, rfl⟩ rfl (Or.inl rfl) (by simp [WithUnits])

/-- Two separations for a single binary are a `ValueError`. -/
example : init Example.world .Source { scalarArgs with a := some (.array [1e9, 2e9] true) } Example.start =
    (.error .ValueError, Example.start) :=
  C50_lengths_separation rfl rfl ⟨scalarArgs_usable.angles, scalarArgs_usable.circular,
    fun _ _ => Or.inr (Or.inr rfl), scalarArgs_usable.drawn⟩ ⟨rfl, rfl, rfl, rfl⟩ (by simp [count, valuesOf, scalarArgs])

/-- One separation for two binaries is accepted. -/
example : ∃ s h', init Example.world .Source { Example.args with f_orb := none, a := some (.scalar 1e9 true) }
    Example.start = (.ok s, h') :=
  C50_accepts Example.init_start ⟨rfl, rfl, rfl⟩
    ⟨Or.inr ⟨rfl, _, rfl, rfl, Or.inr rfl⟩, example_usable.units, example_usable.lengths, example_usable.angles,
      example_usable.circular, example_usable.positions, example_usable.drawn⟩

/-- A frequency too few is a `ValueError`, one without units an `AssertionError`, and so on. -/
example : init Example.world .Source { Example.args with f_orb := some (.array [1e-3] true) } Example.start =
    (.error .ValueError, Example.start) :=
  C50_lengths rfl ⟨example_usable.angles, example_usable.circular, by simp [Example.args], example_usable.drawn⟩
    ⟨rfl, rfl, rfl, rfl⟩ (by simp [count, valuesOf, Example.args])

example : init Example.world .Source { Example.args with f_orb := some (.array [1e-3, 1e-4] false) } Example.start =
    (.error .AssertionError, Example.start) :=
  C50_no_units rfl ⟨example_usable.angles, example_usable.circular, by simp [Example.args], example_usable.drawn⟩
    (by simp [WithUnits])

example : init Example.world .Source { Example.args with f_orb := none } Example.start =
    (.error .ValueError, Example.start) := C50_no_orbit rfl rfl

example : init Example.world .Source { Example.args with inclination := some (.array [1, 1] true) } Example.start =
    (.error .ValueError, Example.start) := C50_angle_without_position rfl (Or.inl (by simp))

/-- The second binary of the example is eccentric. -/
example : init Example.world .Source { Example.args with position := some (.array [(1, 0.5), (2, 0.1)]) } Example.start =
    (.error .ValueError, Example.start) :=
  C50_eccentric_with_position (by simp) ⟨0.3, by simp [valuesOf, Example.args], by norm_num⟩ fun _ => trivial

end Legwork.Props
