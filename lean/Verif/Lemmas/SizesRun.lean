import Verif.Lemmas.Sizes
import Verif.Lemmas.Away

/-!
# Collections stay consistent: constructor, indexing, all calls
-/

namespace Legwork.source

open Legwork.Spec Legwork.evol Legwork.utils Legwork.Props
open PyM hiding bind

variable {W : World} {c : Cols} {h h' : Heap} {s : ℕ} {a : InitArgs}

/-- What the constructor's checks establish. -/
structure Accepted (W : World) (a : InitArgs) (c : Cols) : Prop where
  m_1 : c.m_1 = a.m_1.toList
  m_2 : c.m_2 = a.m_2.toList
  dist : c.dist = a.dist.toList
  ecc : c.ecc = a.ecc.toList
  f_orb : ∃ f, init_f_orb W.K a = .ok f ∧ c.f_orb = f.toList ∧ f.hasUnits = true
  units : a.m_1.hasUnits = true ∧ a.m_2.hasUnits = true ∧ a.dist.hasUnits = true
  lengths : c.m_2.length = c.n_sources ∧ c.dist.length = c.n_sources ∧ c.f_orb.length = c.n_sources ∧
    c.ecc.length = c.n_sources
  weights : c.weights = a.weights.map Raw.toList
  orient : init_orientation a = .ok (c.position, c.polarisation, c.inclination)
  merged : c.merged = List.replicate c.n_sources false
  t_merge : c.t_merge = none

theorem init_cols_iff : init_cols W a = .ok c ↔ Accepted W a c := by
  constructor
  · intro h
    unfold init_cols at h
    split_ifs at h with h0
    obtain ⟨⟨pos, pol, inc⟩, ho, h⟩ := except_bind_ok.1 h
    obtain ⟨f, hf, h⟩ := except_bind_ok.1 h
    simp only at h
    split_ifs at h with hu hl
    cases h
    simp only [Bool.and_eq_true, not_not] at hu hl
    exact ⟨rfl, rfl, rfl, rfl, ⟨f, hf, rfl, hu.2⟩, ⟨hu.1.1.1, hu.1.1.2, hu.1.2⟩, ⟨hl.1, hl.2.1, hl.2.2.1, hl.2.2.2⟩,
      rfl, ho, rfl, rfl⟩
  · rintro ⟨h1, h2, h3, h4, ⟨f, h5, h6, h7⟩, ⟨u1, u2, u3⟩, ⟨l1, l2, l3, l4⟩, h8, h9, h10, h11⟩
    unfold init_cols
    have h0 : ¬ (a.f_orb.isNone ∧ a.a.isNone) := by
      rintro ⟨x, y⟩
      unfold init_f_orb at h5
      rcases ha : a.f_orb with _ | f
      · rcases hb : a.a with _ | f
        · rw [ha, hb] at h5
          cases h5
        · rw [hb] at y; cases y
      · rw [ha] at x; cases x
    rw [if_neg h0, h9, ok_bind]
    simp only
    rw [h5, ok_bind, if_neg (by simp [u1, u2, u3, h7])]
    unfold Cols.n_sources at *
    rw [← h1, ← h2, ← h3, ← h4, ← h6, if_neg (by simp [l1, l2, l3, l4])]
    cases c
    simp only at *
    subst h8 h10 h11
    rfl

theorem place_length {pos : List (ℝ × ℝ)} {dist : List ℝ} {x : List (ℝ × ℝ)} (h : place pos dist = .ok x)
    (hl : pos.length = dist.length ∨ pos.length = 1) : x.length = dist.length := by
  unfold place at h
  by_cases h1 : pos.length = dist.length
  · rw [if_pos h1] at h
    cases h; exact h1
  · rw [if_neg h1] at h
    obtain ⟨p, rfl⟩ := List.length_eq_one_iff.1 (hl.resolve_left h1)
    simp only at h
    cases h
    simp

theorem fill_angle_length {m_1 x : Raw} {rand : ℕ → ℝ} {o : Option Raw} (h : fill_angle m_1 rand o = .ok x)
    (hl : ∀ y, o = some y → y.toList.length = m_1.toList.length) : x.toList.length = m_1.toList.length := by
  unfold fill_angle at h
  rcases o with _ | y
  · simp only at h
    obtain ⟨n, hn, h⟩ := except_bind_ok.1 h
    cases h
    rcases m_1 with z | zs
    · cases hn
    · cases hn
      simp [Raw.toList]
  · cases h
    exact hl _ rfl

/-- What `init_orientation` gives. -/
theorem init_orientation_ok {pos : Option (List (ℝ × ℝ))} {pol inc : Option (List ℝ)}
    (h : init_orientation a = .ok (pos, pol, inc)) :
    (a.position = none ∧ a.inclination = none ∧ a.polarisation = none ∧ pos = none ∧ pol = none ∧ inc = none) ∨
    ∃ p i q x, a.position = some p ∧ fill_angle a.m_1 a.rand_inclination a.inclination = .ok i ∧
      fill_angle a.m_1 a.rand_polarisation a.polarisation = .ok q ∧ (∀ e ∈ a.ecc.toList, e = 0) ∧
      place p.toList a.dist.toList = .ok x ∧ pos = some x ∧ pol = some q.toList ∧ inc = some i.toList := by
  unfold init_orientation at h
  rcases hp : a.position with _ | p
  · rw [hp] at h
    simp only at h
    split_ifs at h with h1 h2
    cases h
    simp only [Bool.not_eq_true, Option.isSome_eq_false_iff, Option.isNone_iff_eq_none] at h1 h2
    exact Or.inl ⟨rfl, h1, h2, rfl, rfl, rfl⟩
  · rw [hp] at h
    simp only at h
    obtain ⟨i, hi, h⟩ := except_bind_ok.1 h
    obtain ⟨q, hq, h⟩ := except_bind_ok.1 h
    split_ifs at h with he
    obtain ⟨x, hx, h⟩ := except_bind_ok.1 h
    cases h
    refine Or.inr ⟨p, i, q, x, rfl, hi, hq, ?_, hx, rfl, rfl, rfl⟩
    simpa using he

theorem rowAt_ecc_zero (h : ∀ e ∈ c.ecc, e = 0) (i : ℕ) : (rowAt c i).ecc = 0 := by
  simp only [rowAt, List.getD_eq_getElem?_getD]
  rcases hi : c.ecc[i]? with _ | e
  · rfl
  · exact h e (List.mem_of_getElem? hi)

theorem accepted_rect {cls : Cls} (hc : Accepted W a c) (hs : SizeOk h (.init cls a)) : Rect c := by
  obtain ⟨s1, s2, s3, s4⟩ := hs
  have hn : c.n_sources = a.m_1.toList.length := by rw [Cols.n_sources, hc.m_1]
  have hd : a.dist.toList.length = c.n_sources := by rw [← hc.dist]; exact hc.lengths.2.1
  refine ⟨hc.lengths.1, hc.lengths.2.1, hc.lengths.2.2.1, hc.lengths.2.2.2, by rw [hc.merged, List.length_replicate],
    ?_, ?_, ?_, ?_, ?_, ?_⟩
  · intro x hx
    rw [hc.weights] at hx
    rcases hw : a.weights with _ | y
    · rw [hw] at hx; cases hx
    · rw [hw] at hx
      cases hx
      rw [hn]
      exact s1 _ hw
  all_goals rcases init_orientation_ok hc.orient with ⟨-, -, -, h1, h2, h3⟩ | ⟨p, i, q, x, h0, hi, hq, -, hx, h1, h2, h3⟩
  · simp [h1]
  · rw [h1]
    rintro y ⟨⟩
    rw [place_length hx, hd]
    rw [hd, hn]
    exact s4 _ h0
  · simp [h3]
  · rw [h3]
    rintro y ⟨⟩
    rw [hn]
    exact fill_angle_length hi s2
  · simp [h2]
  · rw [h2]
    rintro y ⟨⟩
    rw [hn]
    exact fill_angle_length hq s3
  · simp [hc.t_merge]
  · simp [hc.t_merge]
  · simp [h1]
  · simp [h2, h3]

theorem accepted_coherent (hc : Accepted W a c) : Coherent c := by
  refine ⟨?_, ?_, ?_⟩
  · intro i _ t ht
    simp [rowAt, hc.t_merge] at ht
  · intro hp
    refine rowAt_ecc_zero ?_
    rcases init_orientation_ok hc.orient with ⟨-, -, -, h1, -, -⟩ | ⟨p, i, q, x, h0, hi, hq, he, -⟩
    · rw [h1] at hp; cases hp
    · rwa [hc.ecc]
  · intro hp
    rcases init_orientation_ok hc.orient with ⟨-, -, -, h1, h2, h3⟩ | ⟨p, i, q, x, h0, hi, hq, he, -, h1, -⟩
    · exact ⟨h3, h2⟩
    · rw [h1] at hp; cases hp

theorem neat_newSrc (hn : Neat W s c h) {x : Src} (h1 : x.sc_params = none) (h2 : x.gw_lum_tol = none)
    (h3 : x.snr = none) (h4 : x.max_snr_harmonic = none) (h5 : x.g = none) (h6 : x.ecc_tol = none) (hr : Rect x.cols)
    (hk : Coherent x.cols) :
    Neat W h.next x.cols (newSrc x h).2 := by
  refine ⟨(inv_atoms W false).newSrc x h1 h2 h3 h4 h5 h6 h hn.inv, fun y => ?_, by simp [newSrc]⟩
  simp only [newSrc]
  by_cases he : y = h.next
  · subst he
    refine ⟨⟨?_, ?_, ?_⟩, ?_⟩
    · simpa using hr
    · simp [h3]
    · simp [h4]
    · simpa using hk
  · exact (hn.tidy y).frame (by simp [he]) (by simp [he]) (by simp [he]) (fun _ _ => rfl) fun _ _ => rfl

theorem init_tidy {cls : Cls} (hn : Neat W s c h) (hs : SizeOk h (.init cls a)) :
    ∃ s c, Neat W s c (init W cls a h).2 := by
  unfold init
  rw [bind_run, lift_run]
  rcases hc : init_cols W a with e | cols
  · exact ⟨s, c, hn⟩
  · have hc' := init_cols_iff.1 hc
    simp only
    rw [bind_run]
    have := neat_newSrc hn (x := { cls := cls, cols := cols, stat_tol := a.stat_tol, n_proc := a.n_proc,
                                   interpolate_sc := a.interpolate_sc }) rfl rfl rfl rfl rfl rfl (accepted_rect hc' hs)
                                   (accepted_coherent hc')
    exact ⟨h.next, cols, ((neat_setTol _ _).bind fun _ => (neat_assign _ _).bind fun _ => (neat_set_g _ _).bind fun _ =>
      Preserves.pure _ _) _ this⟩

theorem coherent_colsAt (hk : Coherent c) (js : List ℕ) : Coherent (colsAt js c) := by
  have key : ∀ i, (∃ j, rowAt (colsAt js c) i = rowAt c j) ∨
      (rowAt (colsAt js c) i).merged = false ∧ (rowAt (colsAt js c) i).ecc = 0 := by
    intro i
    rcases hj : js[i]? with _ | j
    · right
      simp [rowAt, colsAt, entries, hj]
    · left
      refine ⟨j, ?_⟩
      simp [rowAt, colsAt, entries, hj, Function.comp_def]
  refine ⟨fun i hm t ht => ?_, fun hp i => ?_, fun hp => ?_⟩
  · rcases key i with ⟨j, hj⟩ | ⟨h1, -⟩
    · rw [hj] at hm ht
      exact hk.merged j hm t ht
    · rw [h1] at hm; cases hm
  · rcases key i with ⟨j, hj⟩ | ⟨-, h1⟩
    · rw [hj]
      exact hk.circular (by simpa [colsAt] using hp) j
    · exact h1
  · have := hk.angles (by simpa [colsAt] using hp)
    simpa [colsAt] using this

theorem neat_grown (hn : Neat W s c h) (hi : Inv W false h') (hg : Grown h h') : Neat W s c h' := by
  refine ⟨hi, fun x => ?_, by rw [hg.src]; exact hn.cols⟩
  refine (hn.tidy x).frame (by rw [hg.src]) (by rw [hg.src]) (by rw [hg.src]) (fun r hr => ?_) fun r hr => ?_
  · rw [hg.snrs r ((hn.inv.addr x).1 r hr).1]
  · rw [hg.harms r ((hn.inv.addr x).2 r hr).1]

theorem getitem_unselected {ind : Index} (hv : (h.src s).cls ≠ .VerificationBinaries)
    (hsel : ¬ ∃ js, Selects (h.src s).cols.n_sources ind js) : (getitem s ind h).2 = h := by
  obtain ⟨r1, r2, r3, r4, r5, r6⟩ := C38_rejected hv
  rw [C38_meaning] at hsel
  rcases ind with i | b | ⟨start, stop, step⟩ | is | bs | _ <;> simp only at hsel
  · rw [r2 i hsel]
  · rw [r6 b hsel]
  · rw [not_not] at hsel
    subst hsel
    rw [r4]
  · rw [r1 is (by simpa using hsel)]
  · rw [r3 bs hsel]
  · rw [r5]

theorem getitem_tidy {ind : Index} {s₁ : ℕ} (hn : Neat W s c h) : ∃ s c, Neat W s c (getitem s₁ ind h).2 := by
  have hi := (inv_atoms W false).getitem' s₁ ind h hn.inv
  by_cases hv : (h.src s₁).cls = .VerificationBinaries
  · rw [C38_verification hv |>.1]
    exact ⟨s, c, hn⟩
  by_cases hsel : ∃ js, Selects (h.src s₁).cols.n_sources ind js
  swap
  · rw [getitem_unselected hv hsel]
    exact ⟨s, c, hn⟩
  obtain ⟨js, hjs⟩ := hsel
  by_cases hp : (h.src s₁).sc_params.isSome
  · obtain ⟨s', h', hr, hit⟩ := getitem_ok hn.inv hv hp (hn.tidy s₁).sized hjs
    rw [hr] at hi ⊢
    refine ⟨s', (h'.src s').cols, hi, fun x => ?_, rfl⟩
    by_cases he : x = s'
    · subst he
      refine ⟨(C38_sized (hn.tidy s₁).sized hit).2, ?_⟩
      rw [hit.cols]
      exact coherent_colsAt (hn.tidy s₁).settled js
    · have hx := hit.src x he
      refine (hn.tidy x).frame (by rw [hx]) (by rw [hx]) (by rw [hx]) (fun r hr => ?_) fun r hr => ?_
      · rw [hit.snrs r ((hn.inv.addr x).1 r hr).1]
      · rw [hit.harms r ((hn.inv.addr x).2 r hr).1]
  · refine ⟨s, c, ?_⟩
    rw [getitem_run, if_neg hv] at hi ⊢
    obtain ⟨m, hm, -⟩ := to_mask_selects hjs
    rw [hm] at hi ⊢
    simp only at hi ⊢
    rcases getitem_mask_run s₁ m h with ⟨e, h', hr, hg⟩ | ⟨_, _, _, p, _, _, hp', _⟩
    · rw [hr] at hi ⊢
      exact neat_grown hn hi hg
    · rw [hp'] at hp
      exact absurd rfl hp

theorem evolvedOf_lengths (c : Cols) (T : ℕ → ℝ) : (evolvedOf W c T).ecc.length = c.n_sources ∧
    (evolvedOf W c T).f_orb.length = c.n_sources ∧ (evolvedOf W c T).merged.length = c.n_sources ∧
    (evolvedOf W c T).t_merge.length = c.n_sources := by simp [evolvedOf]

theorem evolveNew_tidy {t : EvolTime} (hn : Neat W s c h) : ∃ x y, Neat W x y (evolve_sources_new W s t h).2 := by
  have hr : Rect (h.src s).cols := (hn.tidy s).sized.rect
  have hi := evolve_sources_new_inv (s := s) (t := t) hn.inv (by simp)
  have hcom := evolve_common_times (W := W) (t := t) hr
  rcases evolve_sources_new_run W s t h with ⟨e, hrun⟩ | ⟨e, h₁, tol, p, he, htol, hp, hrun⟩
  · rw [hrun, hcom]
    exact ⟨s, _, neat_timed hn⟩
  rcases timesOf_exists (h.src s).cols.n_sources t with ⟨T, hT⟩ | ⟨ts, rfl, hts⟩
  swap
  · rw [hcom] at he
    unfold calc_evolve at he
    rw [times_all_error (n := (timed W.K (h.src s).cols).n_sources) hts] at he
    cases he
  rw [evolve_common_ok hr hT] at he
  obtain ⟨he, hh⟩ := Prod.mk.inj he
  cases he
  have hn₁ : Neat W s (timed W.K c) h₁ := by rw [← hh]; exact neat_timed hn
  have hc₁ : (h₁.src s).cols = timed W.K c := hn₁.cols
  rw [hn.cols] at hrun
  have hsz : SizeOk h₁ (.init .Source (evolved_args (h₁.src s) tol (h₁.par p).dict (evolvedOf W c T))) := by
    refine ⟨by simp [evolved_args], ?_, ?_, ?_⟩ <;> intro x hx <;> simp only [evolved_args, hc₁] at hx ⊢
    · rcases hi : (timed W.K c).inclination with _ | y
      · rw [hi] at hx; cases hx
      · rw [hi] at hx; cases hx
        exact hn₁.rect.inclination y hi
    · rcases hi : (timed W.K c).polarisation with _ | y
      · rw [hi] at hx; cases hx
      · rw [hi] at hx; cases hx
        exact hn₁.rect.polarisation y hi
    · rcases hi : (timed W.K c).position with _ | y
      · rw [hi] at hx; cases hx
      · rw [hi] at hx; cases hx
        exact Or.inl (hn₁.rect.position y hi)
  rcases hrun with ⟨err, h₂, hin, hrun⟩ | ⟨s', h₂, hin, hrun⟩
  · rw [hrun]
    obtain ⟨s₂, c₂, h2⟩ := init_tidy hn₁ hsz
    rw [hin] at h2
    exact ⟨s₂, c₂, h2⟩
  · rw [hrun] at hi ⊢
    obtain ⟨s₂, c₂, h2⟩ := init_tidy hn₁ hsz
    rw [hin] at h2
    obtain ⟨cols, ecc_tol, d, sc, hic, -, -, -, rfl, rfl⟩ := init_ok hin
    have hacc := init_cols_iff.1 hic
    have hrect := accepted_rect hacc hsz
    have hcol : ((heapAfterInit W .Source (evolved_args (h₁.src s) tol (h₁.par p).dict (evolvedOf W c T)) cols ecc_tol d sc
        h₁).src h₁.next).cols = cols := by simp [heapAfterInit, newObject]
    have hnn : cols.n_sources = c.n_sources := by
      rw [Cols.n_sources, hacc.m_1]
      simp only [evolved_args, hc₁]
      rfl
    obtain ⟨-, -, l3, l4⟩ := evolvedOf_lengths (W := W) c T
    refine ⟨h₁.next, _, hi, fun x => ?_, rfl⟩
    by_cases hx : x = h₁.next
    · subst hx
      refine ⟨⟨?_, ?_, ?_⟩, ?_⟩
      · simp only [setSrc_src, Function.update_self, hcol]
        refine ⟨hrect.m_2, hrect.dist, hrect.f_orb, hrect.ecc, ?_, hrect.weights, hrect.position, hrect.inclination,
          hrect.polarisation, ?_, hrect.angles⟩
        · exact l3.trans hnn.symm
        · rintro y ⟨⟩
          exact l4.trans hnn.symm
      · intro r hr
        simp [heapAfterInit, newObject] at hr
      · intro r hr
        simp [heapAfterInit, newObject] at hr
      · have hk := coherent_evolved (W := W) hn.coherent T
        simp only [setSrc_src, Function.update_self, hcol]
        refine ⟨fun i hm t ht => hk.merged i hm t ht, fun hp i => ?_, (accepted_coherent hacc).angles⟩
        exact (accepted_coherent hacc).circular hp i
    · refine (h2.tidy x).frame (by simp [hx]) (by simp [hx]) (by simp [hx]) (fun _ _ => rfl) fun _ _ => rfl

/-- The arguments found in a file that fits together have suitable lengths. -/
theorem load_sizes {Φ : Files} {f : H5} {ig isc : Option Bool} {np : Option ℕ} {cls : Cls} (hf : FileFits f)
    (hl : load_args Φ f ig isc np = .ok a) (hc : Accepted W a c) :
    SizeOk h (.init cls a) ∧ ∃ m, f.data.lookup "m_1" = some m ∧ Entries m.data = c.n_sources := by
  have hraw : ∀ {name : String} {x : Raw}, read_raw f name = .ok (some x) →
      ∃ d, f.data.lookup name = some d ∧ Entries d.data = x.toList.length := by
    intro name x hx
    unfold read_raw at hx
    split at hx
    · cases hx
    · rename_i xs u hd
      cases hx
      exact ⟨_, hd, rfl⟩
    · cases hx
  have hneed : ∀ {name : String} {x : Raw}, read_needed f name = .ok x → read_raw f name = .ok (some x) := by
    intro name x hx
    unfold read_needed at hx
    obtain ⟨o, ho, hx⟩ := except_bind_ok.1 hx
    rcases o with _ | y
    · cases hx
    · cases hx
      exact ho
  unfold load_args at hl
  obtain ⟨m_1, h1, hl⟩ := except_bind_ok.1 hl
  obtain ⟨m_2, -, hl⟩ := except_bind_ok.1 hl
  obtain ⟨dist, h3, hl⟩ := except_bind_ok.1 hl
  obtain ⟨f_orb, -, hl⟩ := except_bind_ok.1 hl
  obtain ⟨ecc, -, hl⟩ := except_bind_ok.1 hl
  obtain ⟨weights, h6, hl⟩ := except_bind_ok.1 hl
  obtain ⟨incl, h7, hl⟩ := except_bind_ok.1 hl
  obtain ⟨pol, h8, hl⟩ := except_bind_ok.1 hl
  obtain ⟨pos, h9, hl⟩ := except_bind_ok.1 hl
  rcases hsc : f.sc with _ | l
  · rw [hsc] at hl; cases hl
  rw [hsc] at hl
  simp only at hl
  obtain ⟨d, -, hl⟩ := except_bind_ok.1 hl
  obtain ⟨_, -, hl⟩ := except_bind_ok.1 hl
  obtain ⟨_, -, hl⟩ := except_bind_ok.1 hl
  obtain ⟨_, -, hl⟩ := except_bind_ok.1 hl
  obtain ⟨_, -, hl⟩ := except_bind_ok.1 hl
  obtain ⟨_, -, hl⟩ := except_bind_ok.1 hl
  cases hl
  obtain ⟨m, hm, he⟩ := hraw (hneed h1)
  have hfit := (hf m hm).1
  have hn : c.n_sources = m_1.toList.length := by rw [Cols.n_sources, hc.m_1]
  have hd : dist.toList.length = c.n_sources := by
    have := hc.lengths.2.1
    rw [hc.dist] at this
    exact this
  refine ⟨⟨?_, ?_, ?_, ?_⟩, m, hm, by rw [hn, he]⟩
  · rintro x hx
    simp only at hx
    subst hx
    obtain ⟨d, hd, hx⟩ := hraw h6
    rw [← hx, ← he]
    exact hfit "weights" (by simp) d hd
  · rintro x hx
    simp only at hx
    subst hx
    obtain ⟨d, hd, hx⟩ := hraw h7
    rw [← hx, ← he]
    exact hfit "inclination" (by simp) d hd
  · rintro x hx
    simp only at hx
    subst hx
    obtain ⟨d, hd, hx⟩ := hraw h8
    rw [← hx, ← he]
    exact hfit "polarisation" (by simp) d hd
  · rintro x hx
    simp only at hx
    subst hx
    left
    unfold read_position at h9
    obtain ⟨o, ho, h9⟩ := except_bind_ok.1 h9
    rcases o with _ | lon
    · cases h9
    · simp only at h9
      obtain ⟨lat, -, h9⟩ := except_bind_ok.1 h9
      split_ifs at h9 with hll
      obtain ⟨xs, hp, h9⟩ := except_bind_ok.1 h9
      cases h9
      obtain ⟨d, hd', hx⟩ := hraw ho
      have := hfit "position_lon" (by simp) d hd'
      have hlen := place_length hp (Or.inl (by rw [List.length_zip, ← hll, min_self, ← hx, this, he, ← hn, hd]))
      simp only [RawPos.toList]
      rw [hlen, hd, hn]

theorem neat_modcols (hn : Neat W s c h) (f : Cols → Cols) (hc : (f c).n_sources = c.n_sources) (hr : Rect (f c))
    (hk : Coherent (f c)) : Neat W s (f c) (modSrc s (fun x => { x with cols := f x.cols }) h).2 := by
  have h0 := hn.cols
  subst h0
  exact neat_cols hn hc hr hk

theorem restore_tidy {f : H5} (hf : FileFits f) {m : DSet} (hm : f.data.lookup "m_1" = some m)
    (hl : Entries m.data = c.n_sources) (hmg : ∀ i : ℕ, c.merged[i]? ≠ some true)
    (ht : c.t_merge = none) (hn : Neat W s c h) :
    ∃ c, Neat W s c (restore f s h).2 := by
  obtain ⟨hfit, hco⟩ := hf m hm
  -- the merger times
  obtain ⟨c₁, h₁, e1, n1, m1, t1, l1⟩ : ∃ c₁ h₁, restore_t_merge f s h = (.ok (), h₁) ∧ Neat W s c₁ h₁ ∧ c₁.merged = c.merged ∧
      (c₁.t_merge = none ∨ ∃ xs u, f.data.lookup "t_merge" = some ⟨.reals xs, u⟩ ∧ c₁.t_merge = some xs) ∧
      c₁.n_sources = c.n_sources := by
    have hcase : (∃ xs u, f.data.lookup "t_merge" = some ⟨.reals xs, u⟩ ∧
        restore_t_merge f s = modSrc s fun x => { x with cols := { x.cols with t_merge := some xs } }) ∨
        restore_t_merge f s = pure () := by
      unfold restore_t_merge
      split
      · exact Or.inl ⟨_, _, by assumption, rfl⟩
      · exact Or.inr rfl
    rcases hcase with ⟨xs, u, hx, he⟩ | he <;> rw [he]
    · clear he
      have hxs : xs.length = c.n_sources := by
        rw [← hl]
        exact hfit "t_merge" (by simp) _ hx
      refine ⟨{ c with t_merge := some xs }, _, rfl, ?_, rfl, Or.inr ⟨xs, u, hx, rfl⟩, rfl⟩
      have hk := hn.coherent
      refine neat_modcols hn (fun c => { c with t_merge := some xs }) rfl ?_ ⟨?_, hk.circular, hk.angles⟩
      · have hr := hn.rect
        exact { hr with t_merge := by rintro x ⟨⟩; exact hxs }
      · intro i hi
        exfalso
        have : (rowAt { c with t_merge := some xs } i).merged = c.merged.getD i false := rfl
        rw [this, List.getD_eq_getElem?_getD] at hi
        rcases hg : c.merged[i]? with _ | b
        · rw [hg] at hi; cases hi
        · rw [hg] at hi
          cases hi
          exact hmg i hg
    · exact ⟨c, h, rfl, hn, rfl, Or.inl ht, rfl⟩
  have n2 : Preserves (Neat W s c₁) (restore_snr f s) := by
    unfold restore_snr
    split
    · rename_i xs u hx
      exact (neat_store_snr (by rw [l1, ← hl]; exact hfit "snr" (by simp) _ hx)).bind fun _ => Preserves.pure _ _
    · exact Preserves.pure _ _
  have n3 : Preserves (Neat W s c₁) (restore_harm f s) := by
    unfold restore_harm
    split
    · rename_i xs u hx
      exact (neat_store_harm (by rw [l1, ← hl]; exact hfit "max_snr_harmonic" (by simp) _ hx)).bind fun _ => Preserves.pure _ _
    · exact Preserves.pure _ _
  have n4 : ∀ k, Neat W s c₁ k → ∃ c, Neat W s c (restore_merged f s k).2 := by
    intro k hk
    have hcase : (∃ xs u, f.data.lookup "merged" = some ⟨.bools xs, u⟩ ∧
        restore_merged f s = modSrc s fun x => { x with cols := { x.cols with merged := xs } }) ∨ restore_merged f s = pure () := by
      unfold restore_merged
      split
      · exact Or.inl ⟨_, _, by assumption, rfl⟩
      · exact Or.inr rfl
    rcases hcase with ⟨xs, u, hx, he⟩ | he <;> rw [he]
    · clear he
      refine ⟨{ c₁ with merged := xs }, ?_⟩
      have hc := hk.coherent
      refine neat_modcols hk (fun c => { c with merged := xs }) rfl ?_ ⟨?_, hc.circular, hc.angles⟩
      · have hr := hk.rect
        have hx' : xs.length = c₁.n_sources := by
          rw [l1, ← hl]
          exact hfit "merged" (by simp) _ hx
        exact { hr with merged := hx' }
      · intro i hi t hti
        have e1 : (rowAt { c₁ with merged := xs } i).merged = xs.getD i false := rfl
        have e2 : (rowAt { c₁ with merged := xs } i).t_merge = c₁.t_merge.map fun x => x.getD i 0 := rfl
        rw [e1, List.getD_eq_getElem?_getD] at hi
        rw [e2] at hti
        rcases t1 with t1 | ⟨ts, v, hts, t1⟩
        · rw [t1] at hti; cases hti
        · rw [t1] at hti
          simp only [Option.map_some, Option.some.injEq, List.getD_eq_getElem?_getD] at hti
          rcases hg : xs[i]? with _ | b
          · rw [hg] at hi; cases hi
          · rw [hg] at hi
            cases hi
            rcases hg' : ts[i]? with _ | t'
            · rw [hg'] at hti; exact hti.symm
            · rw [hg'] at hti
              cases hti
              exact hco xs ts u v hx hts i hg _ hg'
    · exact ⟨c₁, hk⟩
  unfold restore
  rw [bind_ok e1, bind_run]
  have h2 := n2 h₁ n1
  rcases e2 : restore_snr f s h₁ with ⟨e | x, h₂⟩ <;> rw [e2] at h2
  · exact ⟨c₁, h2⟩
  simp only
  rw [bind_run]
  have h3 := n3 h₂ h2
  rcases e3 : restore_harm f s h₂ with ⟨e | x, h₃⟩ <;> rw [e3] at h3
  · exact ⟨c₁, h3⟩
  exact n4 h₃ h3

/-- Loading a file that fits together keeps every object consistent. -/
theorem from_file_tidy {Φ : Files} {st : Store} {cls : Cls} {name : String} {ig isc : Option Bool} {np : Option ℕ}
    (hs : SizeOk h (.load Φ st cls name ig isc np)) (hn : Neat W s c h) :
    ∀ x, Tidy (from_file W Φ st cls name ig isc np h).2 x := by
  unfold from_file
  split_ifs with hfile
  swap
  · exact hn.tidy
  rcases hst : st (Φ.locate (normalise name)) with _ | _ | _ | f
  · exact hn.tidy
  · exact hn.tidy
  · exact hn.tidy
  have hf : FileFits f := hs f hst
  simp only
  rw [bind_run, lift_run]
  rcases hl : load_args Φ f ig isc np with e | a
  · exact hn.tidy
  simp only
  split_ifs with hv
  · exact hn.tidy
  rw [bind_run]
  rcases hi : init W (klass cls f) a h with ⟨e | s', h'⟩
  · simp only
    rcases hc : init_cols W a with e' | cols
    · unfold init at hi
      rw [bind_run, lift_run, hc] at hi
      cases hi
      exact hn.tidy
    · obtain ⟨_, _, ht⟩ := init_tidy (cls := klass cls f) hn (load_sizes (h := h) hf hl (init_cols_iff.1 hc)).1
      rw [hi] at ht
      exact ht.tidy
  · obtain ⟨cols, et, d, sc, hc, -, -, -, rfl, hh⟩ := init_ok hi
    have hacc := init_cols_iff.1 hc
    obtain ⟨hsz, m, hm, hml⟩ := load_sizes (h := h) (cls := klass cls f) hf hl hacc
    obtain ⟨_, _, ht⟩ := init_tidy (cls := klass cls f) hn hsz
    rw [hi] at ht
    have hneat : Neat W h.next cols h' := ⟨ht.inv, ht.tidy, by rw [hh]; simp [heapAfterInit, newObject]⟩
    obtain ⟨_, hr⟩ := restore_tidy hf hm hml (by
      intro i
      rw [hacc.merged, List.getElem?_replicate]
      split_ifs <;> simp) hacc.t_merge hneat
    simp only
    rw [bind_run]
    revert hr
    rcases restore f h.next h' with ⟨e | x, k⟩ <;> intro hr
    · exact hr.tidy
    · exact hr.tidy

/-- The verification binaries are consistent, and leave all others so. -/
theorem verification_tidy {vbs : Table} {rand : ℕ → ℝ} (hs : SizeOk h (.verification vbs rand)) (hn : Neat W s c h) :
    ∀ x, Tidy (verification_binaries W vbs rand h).2 x := by
  have hsz : SizeOk h (.init .VerificationBinaries (vbs.args rand)) :=
    ⟨fun x hx => (by cases hx), fun x hx => (by cases hx; exact hs.1), fun x hx => (by cases hx),
      fun x hx => (by cases hx; exact Or.inl hs.2)⟩
  obtain ⟨_, _, ht⟩ := init_tidy (cls := .VerificationBinaries) hn hsz
  unfold verification_binaries
  rw [bind_run]
  rcases hi : init W .VerificationBinaries (vbs.args rand) h with ⟨e | s', h'⟩ <;> rw [hi] at ht
  · exact ht.tidy
  · simp only
    have hneat : Neat W s' (h'.src s').cols h' := ⟨ht.inv, ht.tidy, rfl⟩
    rw [bind_ok (show getSrc s' h' = (.ok (h'.src s'), h') from rfl)]
    exact (((neat_store_harm (List.length_replicate ..)).bind fun _ => Preserves.pure _ _) h' hneat).tidy

/-- Every call keeps every object consistent. -/
theorem tidy_run {op : Op} (hi : Inv W false h) (ht : ∀ x, Tidy h x) (hs : SizeOk h op) :
    ∀ x, Tidy (op.run W h).2 x := by
  have hn : ∀ s, Neat W s (h.src s).cols h := fun s => ⟨hi, ht, rfl⟩
  have hq : ∀ s, Quiet s op → ∀ x, Tidy (op.run W h).2 x := fun s hop => (neat_quiet hop h (hn s)).tidy
  have hp : ∀ {α : Type} (m : M α), ((do let _ ← m; pure ()) h).2 = (m h).2 := by
    intro α m
    rw [bind_run]
    rcases m h with ⟨e | x, h'⟩ <;> rfl
  cases op with
  | setitem p key value => exact hq 0 trivial
  | update p kvs => exact hq 0 trivial
  | remove p => exact hq 0 trivial
  | copyParams p => exact hq 0 trivial
  | assign s params => exact hq 0 trivial
  | setTol s tol => exact hq 0 trivial
  | setSc s => exact hq 0 trivial
  | setG s b => exact hq 0 trivial
  | setPlain s t n b => exact hq 0 trivial
  | setCols s c =>
    intro x
    obtain ⟨h1, h2, h3⟩ := hs
    by_cases he : x = s
    · subst he
      refine ⟨⟨?_, ?_, ?_⟩, ?_⟩
      · simpa [Op.run, modSrc, modify_run] using h1
      · simpa [Op.run, modSrc, modify_run, h3] using (ht x).sized.snr
      · simpa [Op.run, modSrc, modify_run, h3] using (ht x).sized.harm
      · simpa [Op.run, modSrc, modify_run] using h2
    · have hx : ((Op.setCols s c).run W h).2.src x = h.src x := by simp [Op.run, modSrc, modify_run, he]
      refine ⟨⟨?_, ?_, ?_⟩, ?_⟩ <;> rw [hx]
      · exact (ht x).sized.rect
      · exact (ht x).sized.snr
      · exact (ht x).sized.harm
      · exact (ht x).settled
  | getSnr s a n w => exact hq s rfl
  | getSnrStationary s a w => exact hq s rfl
  | getSnrEvolving s a n w => exact hq s rfl
  | getMask s c st t => exact hq s rfl
  | setA s a =>
    obtain ⟨f, hf⟩ := set_a_tidy (hn s) hs
    exact hf.tidy
  | mergerTime s save w ex =>
    obtain ⟨t, hf⟩ := merger_tidy (save := save) (ex := ex) (w := w) (hn s)
    unfold Op.run
    rw [hp]
    exact hf.tidy
  | evolve s t =>
    rcases evolve_tidy (t := t) (hn s) with ⟨T, -, hf⟩ | hf
    · exact hf.tidy
    · exact hf.tidy
  | evolveNew s t =>
    obtain ⟨_, _, hf⟩ := evolveNew_tidy (t := t) (hn s)
    unfold Op.run
    rw [hp]
    exact hf.tidy
  | getitem s ind =>
    obtain ⟨_, _, hf⟩ := getitem_tidy (s₁ := s) (ind := ind) (hn s)
    unfold Op.run
    rw [hp]
    exact hf.tidy
  | copy s =>
    obtain ⟨_, _, hf⟩ := getitem_tidy (s₁ := s) (ind := .slice none none none) (hn s)
    unfold Op.run
    rw [hp]
    exact hf.tidy
  | init cls args =>
    obtain ⟨_, _, hf⟩ := init_tidy (hn 0) hs
    unfold Op.run
    rw [hp]
    exact hf.tidy
  | verification vbs rand =>
    unfold Op.run
    rw [hp]
    exact verification_tidy hs (hn 0)
  | load Φ st cls name ig isc np =>
    unfold Op.run
    rw [hp]
    exact from_file_tidy hs (hn 0)

theorem tidy_blank (he : h.src s = blank) : Tidy h s := by
  refine ⟨⟨?_, ?_, ?_⟩, ?_⟩
  · rw [he]
    constructor <;> simp [blank, Cols.n_sources]
  · simp [he, blank]
  · simp [he, blank]
  · rw [he]
    constructor <;> simp [blank, rowAt]

theorem Reachable.tidy {ok : Heap → Op → Prop} (hok : ∀ h op, ok h op → SizeOk h op) (hr : Reachable W ok h) (s : ℕ) :
    Tidy h s := by
  induction hr generalizing s with
  | start he => exact tidy_blank (he s)
  | call op hr ho ih => exact tidy_run (Reachable.inv hr) ih (hok _ _ ho) s

end Legwork.source
