import Verif.Spec.Index
import Verif.Lemmas.SourceReach
import Verif.Lemmas.Pointwise

/-!
# Indexing
-/

namespace Legwork.source

open Legwork.Spec
open PyM hiding bind

/-- A mask means the entries `js` of every list of length `n`. -/
def MaskMeans (n : ℕ) (m : Sel) (js : List ℕ) : Prop :=
  (∀ j ∈ js, j < n) ∧ ∀ {α : Type} (d : α) (xs : List α), xs.length = n → pick m xs = .ok (entries d js xs)

theorem at?_pos {α : Type} (d : α) {xs : List α} {i : ℤ} {j : ℕ} (h : PosOf xs.length i j) : at? xs i = .ok (xs.getD j d) := by
  obtain ⟨h1, h2⟩ := h
  unfold at?
  have hj : (if i < 0 then i + (xs.length : ℤ) else i) = j := by split_ifs <;> omega
  simp only [hj]
  rw [if_pos (by omega)]
  simp only [Int.toNat_natCast]
  rw [List.getElem?_eq_getElem h1, List.getD_eq_getElem?_getD, List.getElem?_eq_getElem h1]
  rfl

theorem at?_no {α : Type} {xs : List α} {i : ℤ} (h : ¬ ∃ j, PosOf xs.length i j) : at? xs i = .error .IndexError := by
  unfold at?
  simp only
  split_ifs with h1 h2 h2
  · rw [List.getElem?_eq_none]
    · rfl
    · by_contra hlt
      exact h ⟨(i + xs.length).toNat, by omega, by omega⟩
  · rfl
  · rw [List.getElem?_eq_none]
    · rfl
    · by_contra hlt
      exact h ⟨i.toNat, by omega, by omega⟩
  · rfl

theorem pick_ints {n : ℕ} {is : List ℤ} {js : List ℕ} (h : List.Forall₂ (PosOf n) is js) : MaskMeans n (.ints is) js := by
  refine ⟨?_, fun d xs hl => ?_⟩
  · intro j hj
    induction h with
    | nil => cases hj
    | cons h1 _ ih =>
      rcases List.mem_cons.1 hj with rfl | hj
      · exact h1.1
      · exact ih hj
  · unfold pick
    induction h with
    | nil => rfl
    | cons h1 _ ih =>
      exact mapM_cons_ok.2 ⟨_, _, at?_pos d (hl.symm ▸ h1), ih, rfl⟩

theorem select_range {α : Type} (d : α) {bs : List Bool} {xs : List α} (h : bs.length = xs.length) :
    np.select bs xs = ((List.range xs.length).filter fun j => bs.getD j false).map fun j => xs.getD j d := by
  induction xs generalizing bs with
  | nil =>
    rw [List.length_nil, List.length_eq_zero_iff] at h
    subst h
    rfl
  | cons x xs ih =>
    rcases bs with _ | ⟨b, bs⟩
    · cases h
    have := ih (bs := bs) (by simpa using h)
    rw [List.length_cons, List.range_succ_eq_map, List.filter_cons, List.filter_map]
    rcases b with _ | _
    · simpa [np.select, Function.comp_def] using this
    · simpa [np.select, Function.comp_def] using this

theorem pick_bools {bs : List Bool} : MaskMeans bs.length (.bools bs) ((List.range bs.length).filter fun j => bs.getD j false) := by
  refine ⟨?_, fun d xs hl => ?_⟩
  · intro j hj
    exact List.mem_range.1 (List.mem_filter.1 hj).1
  · unfold pick index
    simp only
    rw [if_pos hl.symm]
    unfold entries
    rw [← hl]
    exact congrArg Except.ok (select_range d hl.symm)

/-! ### Slices -/

theorem eq_of_sorted {R : ℕ → ℕ → Prop} (hR : ∀ a b, R a b → ¬ R b a) {l l' : List ℕ} (h : l.Pairwise R) (h' : l'.Pairwise R)
    (hm : ∀ j, j ∈ l ↔ j ∈ l') : l = l' := by
  have hne : ∀ {a b}, R a b → a ≠ b := fun hab he => by subst he; exact hR _ _ hab hab
  have n1 : l.Nodup := h.imp hne
  have n2 : l'.Nodup := h'.imp hne
  refine List.Perm.eq_of_pairwise (fun a b _ _ h1 h2 => absurd h2 (hR a b h1)) h h' ?_
  exact (List.perm_ext_iff_of_nodup n1 n2).2 hm

/-- The entries of a slice. -/
def sliceList (n : ℕ) (start stop : Option ℤ) (step : ℤ) : List ℤ :=
  let (lo, hi) := slice_bounds n start stop step
  let count := if step > 0 then (hi - lo + step - 1) / step else (lo - hi - step - 1) / (-step)
  (List.range count.toNat).map fun k : ℕ => lo + k * step

theorem slice_ints_eq (n : ℕ) (start stop step : Option ℤ) : slice_ints n start stop step =
    if step.getD 1 = 0 then .error .ValueError else .ok (sliceList n start stop (step.getD 1)) := rfl

/-- Members of an arithmetic progression upwards. -/
theorem mem_up {lo hi step : ℤ} (hs : 0 < step) (x : ℤ) :
    x ∈ (List.range ((hi - lo + step - 1) / step).toNat).map (fun k : ℕ => lo + k * step) ↔ lo ≤ x ∧ x < hi ∧ step ∣ x - lo := by
  rw [List.mem_map]
  constructor
  · rintro ⟨k, hk, rfl⟩
    rw [List.mem_range] at hk
    have hk' : (k : ℤ) < (hi - lo + step - 1) / step := by omega
    have h1 : (k : ℤ) + 1 ≤ (hi - lo + step - 1) / step := hk'
    rw [Int.le_ediv_iff_mul_le hs] at h1
    have h2 : (0 : ℤ) ≤ k * step := mul_nonneg (Int.natCast_nonneg k) hs.le
    refine ⟨by linarith, by linarith [add_mul (k : ℤ) 1 step], ⟨k, by ring⟩⟩
  · rintro ⟨h1, h2, q, hq⟩
    have hq0 : 0 ≤ q := by
      by_contra hn
      have : step * q < 0 := mul_neg_of_pos_of_neg hs (by omega)
      linarith
    refine ⟨q.toNat, ?_, ?_⟩
    · rw [List.mem_range]
      have : q + 1 ≤ (hi - lo + step - 1) / step := by
        rw [Int.le_ediv_iff_mul_le hs]
        nlinarith
      omega
    · rw [Int.toNat_of_nonneg hq0]
      linarith [mul_comm step q]

theorem slice_spec {n : ℕ} {start stop : Option ℤ} {step : ℤ} (h0 : step ≠ 0) :
    (∀ x ∈ sliceList n start stop step, 0 ≤ x ∧ x < n) ∧
    SliceSelects n start stop step ((sliceList n start stop step).map Int.toNat) := by
  rcases lt_or_gt_of_ne h0 with hs | hs
  · -- backward
    set a : ℤ := min ((n : ℤ) - 1) (fromEnd n (start.getD (n - 1))) with ha
    set lo := (slice_bounds n start stop step).1 with hlo
    set hi := (slice_bounds n start stop step).2 with hhi
    have hlist : sliceList n start stop step =
        (List.range ((lo - hi - step - 1) / (-step)).toNat).map fun k : ℕ => lo + k * step := by
      unfold sliceList
      simp only [← hlo, ← hhi]
      rw [if_neg (by omega)]
    have hneg : ((List.range ((-hi - -lo + -step - 1) / (-step)).toNat).map fun k : ℕ => -lo + k * -step) =
        (sliceList n start stop step).map fun x => -x := by
      rw [hlist, List.map_map]
      have : (-hi - -lo + -step - 1) = (lo - hi - step - 1) := by ring
      rw [this]
      congr 1
      funext k
      simp only [Function.comp_apply]
      ring
    have hmem : ∀ x, x ∈ sliceList n start stop step ↔ x ≤ lo ∧ hi < x ∧ step ∣ lo - x := by
      intro x
      have := mem_up (lo := -lo) (hi := -hi) (step := -step) (by omega) (-x)
      rw [hneg, List.mem_map] at this
      have h1 : (∃ y ∈ sliceList n start stop step, -y = -x) ↔ x ∈ sliceList n start stop step :=
        ⟨fun ⟨y, hy, he⟩ => by rwa [neg_inj.1 he] at hy, fun hx => ⟨x, hx, rfl⟩⟩
      rw [h1] at this
      rw [this, neg_dvd]
      have h2 : -x - -lo = lo - x := by ring
      rw [h2]
      constructor
      · rintro ⟨g1, g2, g3⟩; exact ⟨by omega, by omega, g3⟩
      · rintro ⟨g1, g2, g3⟩; exact ⟨by omega, by omega, g3⟩
    have hbound : ∀ x : ℤ, (x ≤ lo ∧ hi < x ∧ step ∣ lo - x) ↔ 0 ≤ x ∧ x < n ∧ x ≤ a ∧ step ∣ a - x ∧
        ∀ b, stop = some b → fromEnd n b < x := by
      intro x
      have hl : (a ≤ -1 → lo ≤ -1) ∧ (0 ≤ a → lo = a) ∧ a < n := by
        rw [ha, hlo]
        unfold slice_bounds fromEnd
        simp only [hs, if_true]
        rcases start with _ | st
        · simp only [Option.map_none, Option.getD_none]
          split_ifs <;> omega
        · simp only [Option.map_some, Option.getD_some]
          split_ifs <;> omega
      have hh : (∀ x : ℤ, 0 ≤ x → x < n → (hi < x ↔ ∀ b, stop = some b → fromEnd n b < x)) ∧ -1 ≤ hi := by
        rw [hhi]
        unfold slice_bounds fromEnd
        simp only [hs, if_true]
        rcases stop with _ | st
        · simp only [Option.map_none, Option.getD_none]
          refine ⟨fun x hx hx' => iff_of_true (by omega) (fun b hb => by simp at hb), by omega⟩
        · simp only [Option.map_some, Option.getD_some, Option.some.injEq, forall_eq']
          refine ⟨fun x hx hx' => ?_, ?_⟩
          · split_ifs <;> omega
          · split_ifs <;> omega
      constructor
      · rintro ⟨g1, g2, g3⟩
        have h0x : 0 ≤ x := by omega
        have hla : lo = a := hl.2.1 (by by_contra hc; have := hl.1 (by omega); omega)
        refine ⟨h0x, by omega, by omega, hla ▸ g3, (hh.1 x h0x (by omega)).1 g2⟩
      · rintro ⟨g1, g2, g3, g4, g5⟩
        have hla : lo = a := hl.2.1 (by omega)
        exact ⟨by omega, (hh.1 x g1 g2).2 g5, hla ▸ g4⟩
    refine ⟨fun x hx => ?_, Or.inr ⟨hs, ?_, fun j => ?_⟩⟩
    · have := (hbound x).1 ((hmem x).1 hx)
      exact ⟨this.1, this.2.1⟩
    · rw [hlist, List.map_map, List.pairwise_map]
      refine (List.pairwise_lt_range).imp_of_mem ?_
      intro k l hk hl hkl
      have hm : lo + l * step ∈ sliceList n start stop step := by
        rw [hlist]
        exact List.mem_map.2 ⟨l, hl, rfl⟩
      have := (hbound _).1 ((hmem _).1 hm)
      have h2 : lo + l * step < lo + k * step := by
        have : (l : ℤ) * step < k * step := mul_lt_mul_of_neg_right (by omega) hs
        omega
      simp only [Function.comp_apply]
      omega
    · rw [List.mem_map]
      constructor
      · rintro ⟨x, hx, rfl⟩
        obtain ⟨g1, g2, g3, g4, g5⟩ := (hbound x).1 ((hmem x).1 hx)
        rw [Int.toNat_of_nonneg g1]
        exact ⟨by omega, g3, g4, g5⟩
      · rintro ⟨g2, g3, g4, g5⟩
        exact ⟨j, (hmem _).2 ((hbound _).2 ⟨by omega, by omega, g3, g4, g5⟩), by simp⟩
  · -- forward
    set a : ℤ := max 0 (fromEnd n (start.getD 0)) with ha
    set lo := (slice_bounds n start stop step).1 with hlo
    set hi := (slice_bounds n start stop step).2 with hhi
    have hs' : ¬ step < 0 := by omega
    have hlist : sliceList n start stop step =
        (List.range ((hi - lo + step - 1) / step).toNat).map fun k : ℕ => lo + k * step := by
      unfold sliceList
      simp only [← hlo, ← hhi]
      rw [if_pos hs]
    have hmem : ∀ x, x ∈ sliceList n start stop step ↔ lo ≤ x ∧ x < hi ∧ step ∣ x - lo := by
      intro x
      rw [hlist]
      exact mem_up hs x
    have hbound : ∀ x : ℤ, (lo ≤ x ∧ x < hi ∧ step ∣ x - lo) ↔ 0 ≤ x ∧ x < n ∧ a ≤ x ∧ step ∣ x - a ∧
        ∀ b, stop = some b → x < fromEnd n b := by
      intro x
      have hl : (a < n → lo = a) ∧ (n ≤ a → (n : ℤ) ≤ lo) ∧ 0 ≤ a := by
        rw [ha, hlo]
        unfold slice_bounds fromEnd
        simp only [hs', if_false]
        rcases start with _ | st
        · simp only [Option.map_none, Option.getD_none]
          split_ifs <;> omega
        · simp only [Option.map_some, Option.getD_some]
          split_ifs <;> omega
      have hh : (∀ x : ℤ, 0 ≤ x → x < n → (x < hi ↔ ∀ b, stop = some b → x < fromEnd n b)) ∧ hi ≤ n := by
        rw [hhi]
        unfold slice_bounds fromEnd
        simp only [hs', if_false]
        rcases stop with _ | st
        · simp only [Option.map_none, Option.getD_none]
          refine ⟨fun x hx hx' => iff_of_true (by omega) (fun b hb => by simp at hb), by omega⟩
        · simp only [Option.map_some, Option.getD_some, Option.some.injEq, forall_eq']
          refine ⟨fun x hx hx' => ?_, ?_⟩
          · split_ifs <;> omega
          · split_ifs <;> omega
      constructor
      · rintro ⟨g1, g2, g3⟩
        have hxn : x < n := by omega
        have hla : lo = a := hl.1 (by by_contra hc; have := hl.2.1 (by omega); omega)
        refine ⟨by omega, hxn, by omega, hla ▸ g3, (hh.1 x (by omega) hxn).1 g2⟩
      · rintro ⟨g1, g2, g3, g4, g5⟩
        have hla : lo = a := hl.1 (by omega)
        exact ⟨by omega, (hh.1 x g1 g2).2 g5, hla ▸ g4⟩
    refine ⟨fun x hx => ?_, Or.inl ⟨hs, ?_, fun j => ?_⟩⟩
    · have := (hbound x).1 ((hmem x).1 hx)
      exact ⟨this.1, this.2.1⟩
    · rw [hlist, List.map_map, List.pairwise_map]
      refine (List.pairwise_lt_range).imp_of_mem ?_
      intro k l hk hl hkl
      have hm : lo + k * step ∈ sliceList n start stop step := by
        rw [hlist]
        exact List.mem_map.2 ⟨k, hk, rfl⟩
      have := (hbound _).1 ((hmem _).1 hm)
      have h2 : lo + k * step < lo + l * step := by
        have : (k : ℤ) * step < l * step := mul_lt_mul_of_pos_right (by omega) hs
        omega
      simp only [Function.comp_apply]
      omega
    · rw [List.mem_map]
      constructor
      · rintro ⟨x, hx, rfl⟩
        obtain ⟨g1, g2, g3, g4, g5⟩ := (hbound x).1 ((hmem x).1 hx)
        rw [Int.toNat_of_nonneg g1]
        exact ⟨by omega, g3, g4, g5⟩
      · rintro ⟨g2, g3, g4, g5⟩
        exact ⟨j, (hmem _).2 ((hbound _).2 ⟨by omega, by omega, g3, g4, g5⟩), by simp⟩

theorem sliceSelects_unique {n : ℕ} {start stop : Option ℤ} {step : ℤ} {js js' : List ℕ}
    (h : SliceSelects n start stop step js) (h' : SliceSelects n start stop step js') : js = js' := by
  rcases h with ⟨h1, h2, h3⟩ | ⟨h1, h2, h3⟩ <;> rcases h' with ⟨h1', h2', h3'⟩ | ⟨h1', h2', h3'⟩
  · exact eq_of_sorted (fun a b h => by omega) h2 h2' fun j => by rw [h3, h3']
  · omega
  · omega
  · exact eq_of_sorted (R := (· > ·)) (fun a b h => by omega) h2 h2' fun j => by rw [h3, h3']

theorem posOf_toNat {n : ℕ} {is : List ℤ} (h : ∀ x ∈ is, 0 ≤ x ∧ x < n) : List.Forall₂ (PosOf n) is (is.map Int.toNat) := by
  induction is with
  | nil => exact .nil
  | cons x l ih =>
    have := h x (by simp)
    exact .cons ⟨by omega, by omega⟩ (ih fun y hy => h y (by simp [hy]))

/-- Indices with a meaning give the mask with that meaning. -/
theorem to_mask_selects {n : ℕ} {ind : Index} {js : List ℕ} (h : Selects n ind js) :
    ∃ m, to_mask n ind = .ok m ∧ MaskMeans n m js := by
  rcases ind with i | b | ⟨start, stop, step⟩ | is | bs | _
  · obtain ⟨j, hj, rfl⟩ := h
    exact ⟨_, rfl, pick_ints (.cons hj .nil)⟩
  · obtain ⟨rfl, rfl⟩ := h
    refine ⟨.bools [b], rfl, ?_⟩
    have := pick_bools (bs := [b])
    rcases b with _ | _ <;> exact this
  · have h0 : step.getD 1 ≠ 0 := by
      rcases h with ⟨h, -⟩ | ⟨h, -⟩ <;> omega
    refine ⟨.ints (sliceList n start stop (step.getD 1)), ?_, ?_⟩
    · unfold to_mask
      simp only
      rw [slice_ints_eq, if_neg h0]
      rfl
    · obtain ⟨h1, h2⟩ := slice_spec (n := n) (start := start) (stop := stop) h0
      rw [sliceSelects_unique h h2]
      exact pick_ints (posOf_toNat h1)
  · exact ⟨_, rfl, pick_ints h⟩
  · obtain ⟨rfl, rfl⟩ := h
    refine ⟨.bools bs, ?_, pick_bools⟩
    unfold to_mask
    simp only
    rw [if_neg (by simp)]
    rfl
  · cases h

/-! ### Indexing an object -/

theorem pick?_ok {n : ℕ} {m : Sel} {js : List ℕ} (hm : MaskMeans n m js) {α : Type} (d : α) (xs : Option (List α))
    (h : ∀ x, xs = some x → x.length = n) : pick? m xs = .ok (xs.map (entries d js)) := by
  rcases xs with _ | x
  · rfl
  · unfold pick?
    simp only
    rw [hm.2 d x (h x rfl)]
    rfl

theorem pick_cols_ok {m : Sel} {js : List ℕ} {c : Cols} (hm : MaskMeans c.n_sources m js) (hr : Rect c) :
    pick_cols m c = .ok (colsAt js c) := by
  unfold pick_cols
  rw [hm.2 0 c.m_1 rfl, hm.2 0 _ hr.m_2, hm.2 0 _ hr.dist, hm.2 0 _ hr.f_orb, hm.2 0 _ hr.ecc, hm.2 false _ hr.merged,
    pick?_ok hm 0 _ hr.weights, pick?_ok hm 0 _ hr.position, pick?_ok hm 0 _ hr.inclination,
    pick?_ok hm 0 _ hr.polarisation, pick?_ok hm 0 _ hr.t_merge]
  rfl

theorem getitem_mask_ok {W : World} {b : Bool} {h : Heap} {s : ℕ} {m : Sel} {js : List ℕ} (hi : Inv W b h)
    (hp : (h.src s).sc_params.isSome) (hz : Sized h s) (hm : MaskMeans (h.src s).cols.n_sources m js) :
    ∃ s' h', getitem_mask s m h = (.ok s', h') ∧ ItemOf h s js h' s' := by
  obtain ⟨p, hp⟩ := Option.isSome_iff_exists.1 hp
  obtain ⟨hpn, hps, hk⟩ := (hi.sc s).1 p hp
  obtain ⟨d, hd, hde⟩ := filled_params_of_keysOk hk
  have hok : ∃ s' h', getitem_mask s m h = (.ok s', h') := by
    unfold getitem_mask
    rw [bind_run]
    simp only [getSrc]
    rw [bind_run, lift_run, pick_cols_ok hm hz.rect]
    simp only
    have h1 : ∃ r' h', pick_snr m (h.src s).snr h = (.ok r', h') ∧ h'.harms = h.harms ∧ h'.par = h.par := by
      rcases hs : (h.src s).snr with _ | r
      · exact ⟨none, h, rfl, rfl, rfl⟩
      · refine ⟨some h.next, (h.setSnr h.next (entries (some 0) js (h.snrs r))).bump, ?_, rfl, rfl⟩
        unfold pick_snr
        simp only [bind_run, get_run, lift_run, hm.2 (some 0) _ (hz.snr r hs)]
        rfl
    obtain ⟨r1, h1, e1, e2, e3⟩ := h1
    rw [bind_ok e1]
    have h2 : ∃ r' h', pick_harm m (h.src s).max_snr_harmonic h1 = (.ok r', h') ∧ h'.par = h1.par := by
      rcases hs : (h.src s).max_snr_harmonic with _ | r
      · exact ⟨none, h1, rfl, rfl⟩
      · refine ⟨some h1.next, (h1.setHarm h1.next (entries 0 js (h1.harms r))).bump, ?_, rfl⟩
        unfold pick_harm
        have := hm.2 0 _ (hz.harm r hs)
        rw [← e2] at this
        simp only [bind_run, get_run, lift_run, this]
        rfl
    obtain ⟨r2, h2, e4, e5⟩ := h2
    rw [bind_ok e4, hp]
    simp only [attr]
    rw [bind_run, pure_run]
    simp only
    rw [bind_run]
    simp only [getPar]
    rw [bind_run]
    simp only [newSrc]
    rw [bind_run, new_params_run, e5, e3, hd]
    simp only
    rw [bind_run]
    simp only [modSrc, modify_run, pure_run]
    exact ⟨_, _, rfl⟩
  obtain ⟨s', h', hok⟩ := hok
  refine ⟨s', h', hok, ?_⟩
  rcases getitem_mask_run s m h with ⟨e, h'', he, -⟩ | ⟨cols, snr, harm, p', h₁, hc, hp', hg, hsn, hha, hne, hfd⟩
  · rw [he] at hok
    cases hok
  rw [hp] at hp'
  cases hp'
  rcases hfd with ⟨e, he⟩ | ⟨d', hd', hrun⟩
  · rw [hd] at he
    cases he
  rw [hd] at hd'
  cases hd'
  rw [hok] at hrun
  obtain ⟨e1, e2⟩ := Prod.mk.inj hrun
  cases e1
  subst e2
  rw [pick_cols_ok hm hz.rect] at hc
  cases hc
  have hnext := hg.next
  refine ⟨⟨hnext, ?_⟩, ?_, ?_, ?_, ?_, ⟨?_, ?_⟩, ?_, ?_, ?_, ?_, ?_, ?_⟩
  · simp only
    omega
  · simp
  · unfold snrValues
    simp only [Function.update_self]
    rcases hs : (h.src s).snr with _ | r
    · rw [hsn.none_iff.1 hs]
      rfl
    · rcases hsr : snr with _ | r'
      · rw [hsn.none_iff.2 hsr] at hs
        cases hs
      · obtain ⟨-, -, hpk⟩ := hsn.some_of r r' hs hsr
        rw [hm.2 (some 0) _ (hz.snr r hs)] at hpk
        simp only [Option.map_some]
        rw [Except.ok.inj hpk]
  · unfold harmValues
    simp only [Function.update_self]
    rcases hs : (h.src s).max_snr_harmonic with _ | r
    · rw [hha.none_iff.1 hs]
      rfl
    · rcases hsr : harm with _ | r'
      · rw [hha.none_iff.2 hsr] at hs
        cases hs
      · obtain ⟨-, -, hpk⟩ := hha.some_of r r' hs hsr
        rw [hm.2 0 _ (hz.harm r hs)] at hpk
        simp only [Option.map_some]
        rw [Except.ok.inj hpk]
  · refine ⟨?_, ?_, ?_, ?_, ?_, ?_, ?_, ?_, ?_, ?_, ?_⟩
    all_goals try simp only [Function.update_self]
    unfold paramValues
    simp only [Function.update_self, hp, Option.map_some, Option.some.injEq]
    funext key
    exact hde key
  · intro r hr
    simp only [Function.update_self] at hr
    rcases hs : (h.src s).snr with _ | r0
    · rw [hsn.none_iff.1 hs] at hr
      cases hr
    · obtain ⟨g1, g2, -⟩ := hsn.some_of r0 r hs hr
      simp only
      omega
  · intro r hr
    simp only [Function.update_self] at hr
    rcases hs : (h.src s).max_snr_harmonic with _ | r0
    · rw [hha.none_iff.1 hs] at hr
      cases hr
    · obtain ⟨g1, g2, -⟩ := hha.some_of r0 r hs hr
      simp only
      omega
  · refine ⟨h₁.next + 1, by simp, by omega, by simp, by simp⟩
  · intro x hx
    simp only [Function.update_of_ne hx]
  · intro q hq
    simp only
    rw [Function.update_of_ne (by omega)]
  · exact hg.snrs
  · exact hg.harms
  · rfl

theorem getitem_run (s : ℕ) (ind : Index) (h : Heap) : getitem s ind h =
    if (h.src s).cls = .VerificationBinaries then (.error .NotImplementedError, h)
    else match to_mask (h.src s).cols.n_sources ind with
      | .ok m => getitem_mask s m h
      | .error e => (.error e, h) := by
  unfold getitem
  rw [bind_run]
  simp only [getSrc]
  rcases hc : (h.src s).cls
  all_goals
    simp only [reduceCtorEq, if_true, if_false]
  all_goals try
    rw [bind_run, lift_run]
    rcases to_mask (h.src s).cols.n_sources ind with e | m <;> rfl
  rfl

theorem getitem_ok {W : World} {b : Bool} {h : Heap} {s : ℕ} {ind : Index} {js : List ℕ} (hi : Inv W b h)
    (hv : (h.src s).cls ≠ .VerificationBinaries) (hp : (h.src s).sc_params.isSome) (hz : Sized h s)
    (hsel : Selects (h.src s).cols.n_sources ind js) :
    ∃ s' h', getitem s ind h = (.ok s', h') ∧ ItemOf h s js h' s' := by
  obtain ⟨m, hm, hmm⟩ := to_mask_selects hsel
  rw [getitem_run, if_neg hv, hm]
  exact getitem_mask_ok hi hp hz hmm

/-- Masks that do not fit fail on the first attribute. -/
theorem getitem_mask_error {h : Heap} {s : ℕ} {m : Sel} {e : PyErr} (he : pick m (h.src s).cols.m_1 = .error e) :
    getitem_mask s m h = (.error e, h) := by
  unfold getitem_mask
  rw [bind_run]
  simp only [getSrc]
  rw [bind_run, lift_run]
  have : pick_cols m (h.src s).cols = .error e := by
    unfold pick_cols
    rw [he]
    rfl
  rw [this]

theorem mapM_error {α β : Type} {f : α → Except PyErr β} {e : PyErr} (hf : ∀ x, (∃ y, f x = .ok y) ∨ f x = .error e)
    {xs : List α} (h : ∃ x ∈ xs, f x = .error e) : xs.mapM f = .error e := by
  induction xs with
  | nil => obtain ⟨x, hx, -⟩ := h; cases hx
  | cons x xs ih =>
    rw [List.mapM_cons]
    rcases hf x with ⟨y, hy⟩ | hx
    · rw [hy]
      obtain ⟨z, hz, hze⟩ := h
      rcases List.mem_cons.1 hz with rfl | hz
      · rw [hy] at hze
        cases hze
      · rw [ok_bind, ih ⟨z, hz, hze⟩]
        rfl
    · rw [hx]
      rfl

theorem pick_ints_error {α : Type} {is : List ℤ} {xs : List α} (h : ∃ i ∈ is, ¬ ∃ j, PosOf xs.length i j) :
    pick (.ints is) xs = .error .IndexError := by
  refine mapM_error (fun i => ?_) ?_
  · by_cases hj : ∃ j, PosOf xs.length i j
    · obtain ⟨j, hj⟩ := hj
      have hne : xs ≠ [] := by
        rintro rfl
        exact absurd hj.1 (by simp)
      exact Or.inl ⟨_, at?_pos (xs.head hne) hj⟩
    · exact Or.inr (at?_no hj)
  · obtain ⟨i, hi, hj⟩ := h
    exact ⟨i, hi, at?_no hj⟩

theorem posOf_exists {n : ℕ} {i : ℤ} : (∃ j, PosOf n i j) ↔ -(n : ℤ) ≤ i ∧ i < n := by
  constructor
  · rintro ⟨j, hj, h | h⟩ <;> omega
  · rintro ⟨h1, h2⟩
    by_cases h : i < 0
    · exact ⟨(i + n).toNat, by omega, by omega⟩
    · exact ⟨i.toNat, by omega, by omega⟩

end Legwork.source
