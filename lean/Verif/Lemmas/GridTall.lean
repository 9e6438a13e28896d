import Verif.Lemmas.GridGen

/-!
# No proximity grid for bins that are much higher than wide

The arguments of `Lemmas/GridGen.lean` for flat bins, with the axes exchanged.
-/

set_option linter.unusedSectionVars false

namespace Jagua

/-- The centre of a kept cell is not far left or right of the outline of the bin. -/
theorem GridGen.attempt_near_x {env : HEnv ℝ} (hs : env.SqrtWithin 0) {bbox : AARect ℝ} {hazards : List (Hazard ℝ)} {outer : Arc (SPoly ℝ)} {a : Bool}
    (hw : outer.val.WF) (hmem : (⟨.binExterior, outer, a⟩ : Hazard ℝ) ∈ hazards) {dim : ℝ} {rects : List (AARect ℝ)}
    (h : GridGen.attempt env bbox hazards dim = some rects) {r : AARect ℝ} (hr : r ∈ rects) {t : ℝ} (ht : 0 ≤ t) (ht2 : 2 * (dim / 2) ^ 2 ≤ t ^ 2) :
    outer.val.bbox.xMin - t < r.centroid.x ∧ r.centroid.x < outer.val.bbox.xMax + t := by
  unfold GridGen.attempt at h
  split_ifs at h
  obtain ⟨ls, hls, rfl⟩ := Option.map_eq_some_iff.1 h
  obtain ⟨l, hl, hrl⟩ := List.mem_flatten.1 hr
  obtain ⟨x, -, hx⟩ := forall₂_exists_left (mapM_forall₂_of hls) hl
  obtain ⟨d, hd, rfl⟩ := Option.map_eq_some_iff.1 hx
  split_ifs at hrl with hpos
  swap
  · cases hrl
  obtain rfl := List.mem_singleton.1 hrl
  by_contra hcon
  have hrad : env.sqrt (2 * (dim / 2) ^ 2) ≤ t := by
    rw [hs.exact (by positivity)]
    exact Real.sqrt_le_iff.2 ⟨ht, ht2⟩
  -- the signed distance to the outside of the bin
  have hle : d ≤ -t := by
    unfold GridGen.distanceToHazard at hd
    obtain ⟨m, hm, he⟩ := Option.map_eq_some_iff.1 hd
    obtain ⟨v, hv, hvd⟩ := forall₂_right_mem (mapM_forall₂_of hm) hmem
    obtain ⟨⟨pos, w⟩, hpw, rfl⟩ := Option.map_eq_some_iff.1 hvd
    have hdv : d ≤ if pos = (HazardEntity.binExterior : HazardEntity ℝ).position then -w else w := by
      cases m with
      | nil => cases hv
      | cons v0 vs =>
        dsimp only at he
        rw [← he]
        rcases List.mem_cons.1 hv with hv | hv
        · rw [← hv]; exact (foldl_min_spec vs _).2.1
        · exact (foldl_min_spec vs _).2.2 _ hv
    refine hdv.trans ?_
    obtain ⟨q, h1, ⟨z, hz, hzq⟩, -⟩ := SPoly.sqDistanceFromBorder_spec (f := env.f) hw.nonempty r.centroid
    dsimp only at hpw
    unfold SPoly.distanceFromBorder at hpw
    rw [h1, Option.map_some] at hpw
    obtain ⟨e1, e2⟩ := Prod.mk.inj (Option.some.inj hpw)
    have hzb := bdry_subset_bbox hz
    rw [← hw.bbox_eq] at hzb
    obtain ⟨z3, z4, -, -⟩ := hzb
    have hq0 : 0 ≤ q := by rw [← hzq]; positivity
    have hout : r.centroid.x < outer.val.bbox.xMin ∨ outer.val.bbox.xMax < r.centroid.x ∨ t = 0 := by
      rcases ht.eq_or_lt with h | h
      · exact .inr (.inr h.symm)
      · by_contra hno
        push Not at hno
        exact hcon ⟨by linarith, by linarith⟩
    have htq : t ≤ w := by
      rw [← e2, hs.exact hq0]
      refine Real.le_sqrt_of_sq_le ?_
      rw [← hzq]
      have : t ^ 2 ≤ (r.centroid.x - z.x) ^ 2 := by
        rcases lt_or_ge (outer.val.bbox.xMin - t) r.centroid.x with h3 | h3
        · have h4 : outer.val.bbox.xMax + t ≤ r.centroid.x := by
            by_contra hno
            exact hcon ⟨h3, not_le.1 hno⟩
          exact pow_le_pow_left₀ ht (by linarith) 2
        · rw [← neg_sq (r.centroid.x - z.x)]
          exact pow_le_pow_left₀ ht (by linarith) 2
      nlinarith [sq_nonneg (r.centroid.y - z.y)]
    have hpe : t = 0 ∨ pos = .exterior := by
      rcases hout with h3 | h3 | h3
      · right
        rw [← e1, if_neg]
        intro hc
        have := (SPoly.collidesPoint_bbox hc).1
        linarith
      · right
        rw [← e1, if_neg]
        intro hc
        have := (SPoly.collidesPoint_bbox hc).2.1
        linarith
      · exact .inl h3
    rcases hpe with h3 | h3
    · exfalso
      subst h3
      have : 2 * (dim / 2) ^ 2 = 0 := le_antisymm (by simpa using ht2) (by positivity)
      have : dim = 0 := by nlinarith
      contradiction
    · rw [if_pos (by rw [h3]; rfl)]
      linarith
  linarith
/-- Too few cells for every factor, for narrow bins. -/
theorem GridGen.tall_few {env : HEnv ℝ} (hs : env.SqrtWithin 0) {bbox : AARect ℝ} {hazards : List (Hazard ℝ)} {outer : Arc (SPoly ℝ)} {a : Bool}
    (hw : outer.val.WF) (hmem : (⟨.binExterior, outer, a⟩ : Hazard ℝ) ∈ hazards) {dim : ℝ} (hd : 0 < dim)
    (hflat : outer.val.bbox.xMax - outer.val.bbox.xMin ≤ 58 / 100 * dim) {rects : List (AARect ℝ)}
    (h : GridGen.attempt env bbox hazards dim = some rects) : rects.length ≤ 2 * env.ceil (bbox.height / dim) := by
  classical
  obtain ⟨-, hsub⟩ := GridGen.attempt_sublist h
  set nx := env.ceil (bbox.width / dim)
  set ny := env.ceil (bbox.height / dim)
  have hinj : Function.Injective fun p : ℕ × ℕ => GridGen.cellRect bbox dim p.1 p.2 := by
    rintro ⟨i, j⟩ ⟨i', j'⟩ he
    unfold GridGen.cellRect at he
    simp only [AARect.mk.injEq, add_right_inj] at he
    obtain ⟨e1, e2, -, -⟩ := he
    rw [show i = i' by exact_mod_cast mul_left_cancel₀ hd.ne' e1, show j = j' by exact_mod_cast mul_left_cancel₀ hd.ne' e2]
  have hnd : rects.Nodup := hsub.nodup (List.Nodup.map hinj (List.nodup_range.product List.nodup_range))
  let J := (Finset.range nx).filter fun i => ∃ j, GridGen.cellRect bbox dim i j ∈ rects
  have hcy : ∀ i j : ℕ, (GridGen.cellRect bbox dim i j).centroid.x = bbox.xMin + dim * i + dim / 2 := by
    intro i j
    unfold GridGen.cellRect AARect.centroid
    dsimp only
    ring
  have hnear : ∀ j ∈ J, outer.val.bbox.xMin - 71 / 100 * dim < bbox.xMin + dim * j + dim / 2 ∧
      bbox.xMin + dim * j + dim / 2 < outer.val.bbox.xMax + 71 / 100 * dim := by
    intro j hj
    obtain ⟨-, i, hi⟩ := Finset.mem_filter.1 hj
    have := GridGen.attempt_near_x hs hw hmem h hi (t := 71 / 100 * dim) (by positivity) (by nlinarith [sq_nonneg dim])
    rwa [hcy] at this
  have hJ : J.card ≤ 2 := by
    by_cases hne : J.Nonempty
    · have hss : J ⊆ {J.min' hne, J.min' hne + 1} := by
        intro j hj
        have h1 := J.min'_le j hj
        have h2 := (hnear _ (J.min'_mem hne)).1
        have h3 := (hnear j hj).2
        rw [Finset.mem_insert, Finset.mem_singleton]
        by_contra hno
        have h4 : J.min' hne + 2 ≤ j := by omega
        have h5 : ((J.min' hne : ℕ) : ℝ) + 2 ≤ j := by exact_mod_cast h4
        have h6 := mul_le_mul_of_nonneg_left h5 hd.le
        linarith
      exact (Finset.card_le_card hss).trans Finset.card_le_two
    · rw [Finset.not_nonempty_iff_eq_empty.1 hne]
      simp
  have hfs : rects.toFinset ⊆ (J ×ˢ Finset.range ny).image fun p : ℕ × ℕ => GridGen.cellRect bbox dim p.1 p.2 := by
    intro r hr
    have hr' := List.mem_toFinset.1 hr
    obtain ⟨⟨i, j⟩, hij, rfl⟩ := List.mem_map.1 (hsub.subset hr')
    rw [List.mem_product, List.mem_range, List.mem_range] at hij
    refine Finset.mem_image.2 ⟨(i, j), ?_, rfl⟩
    rw [Finset.mem_product]
    exact ⟨Finset.mem_filter.2 ⟨Finset.mem_range.2 hij.1, j, hr'⟩, Finset.mem_range.2 hij.2⟩
  rw [← List.toFinset_card_of_nodup hnd]
  refine (Finset.card_le_card hfs).trans (Finset.card_image_le.trans ?_)
  rw [Finset.card_product, Finset.card_range]
  exact Nat.mul_le_mul_right _ hJ
/-- **No grid for bins that are much higher than wide.** -/
theorem HPG.new_tall {env : HEnv ℝ} (hs : env.SqrtWithin 0) (hce : env.CeilExact) {statics : List (Hazard ℝ)} {outer : Arc (SPoly ℝ)} {a : Bool}
    (hw : outer.val.WF) (hmem : (⟨.binExterior, outer, a⟩ : Hazard ℝ) ∈ statics) {nCells : ℕ} (hn : 1700 ≤ nCells)
    (hflat : 1225 * nCells * outer.val.bbox.width ^ 2 ≤ outer.val.bbox.height ^ 2) :
    HPG.new env outer.val.bbox.inflateToSquare statics nCells = none := by
  obtain ⟨bx, by'⟩ := hw.bbox_valid
  set b := outer.val.bbox with hb
  have hT : (1700 : ℝ) ≤ nCells := by exact_mod_cast hn
  have hww : 0 < b.height := by unfold AARect.height; linarith
  have hhh : 0 < b.width := by unfold AARect.width; linarith
  set s := Real.sqrt nCells with hsd
  have hs2 : s ^ 2 = nCells := Real.sq_sqrt (by linarith)
  have hs41 : 41 ≤ s := Real.le_sqrt_of_sq_le (by linarith)
  have hwh : 35 * s * b.width ≤ b.height := by
    refine abs_le_of_sq_le_sq' ?_ hww.le |>.2
    calc (35 * s * b.width) ^ 2 = 1225 * s ^ 2 * b.width ^ 2 := by ring
      _ ≤ b.height ^ 2 := by rw [hs2]; exact hflat
  have hlt : b.width < b.height := by nlinarith
  have hbw : b.inflateToSquare.height = b.height := by
    unfold AARect.inflateToSquare AARect.height
    unfold AARect.width AARect.height at hlt
    simp only [hlt.not_gt, if_false]
    ring
  have hbh : b.inflateToSquare.width = b.height := by rw [inflate_square, hbw]
  have harea : b.inflateToSquare.area = b.height ^ 2 := by
    have : b.inflateToSquare.area = b.inflateToSquare.height * b.inflateToSquare.width := mul_comm _ _
    rw [this, hbw, hbh]; ring
  have hsq : env.sqrt (b.inflateToSquare.area / nCells) = b.height / s := by
    rw [harea, ← hs2, ← div_pow, hs.exact (by positivity), Real.sqrt_sq (by positivity)]
  unfold HPG.new
  rw [if_neg (by omega)]
  rw [GridGen.generate_none, Option.bind_none]
  intro k cells hk hk20 ha
  rw [hsq] at ha
  have hk1 : (1 : ℝ) ≤ k := by exact_mod_cast hk
  have hdim : b.height / (20 * s) ≤ b.height / s * (k * (1 / 20)) := by
    have e : b.height / s * (k * (1 / 20)) = b.height / (20 * s) * k := by field_simp
    rw [e]
    exact le_mul_of_one_le_right (by positivity) hk1
  have hd : 0 < b.height / s * (k * (1 / 20)) := lt_of_lt_of_le (by positivity) hdim
  set dim := b.height / s * (k * (1 / 20)) with hdd
  have hf : b.xMax - b.xMin ≤ 58 / 100 * dim := by
    have h1 : b.width ≤ b.height / (35 * s) := by
      rw [le_div_iff₀ (by positivity)]
      linarith
    have h2 : b.height / (35 * s) = 20 / 35 * (b.height / (20 * s)) := by field_simp
    have h3 : b.width = b.xMax - b.xMin := rfl
    have : 0 < b.height / (20 * s) := by positivity
    rw [← h3]
    linarith
  have hcnt := GridGen.tall_few hs hw (List.mem_filter.2 ⟨hmem, rfl⟩) hd hf ha
  rw [hbw] at hcnt
  have hquo : b.height / dim ≤ 20 * s := by
    rw [div_le_iff₀ hd]
    calc b.height = 20 * s * (b.height / (20 * s)) := by field_simp
      _ ≤ 20 * s * dim := by gcongr
  have hce' : env.ceil (b.height / dim) ≤ ⌈20 * s⌉₊ := (hce _ _).2 (hquo.trans (Nat.le_ceil _))
  have hcl : (⌈20 * s⌉₊ : ℝ) < 20 * s + 1 := Nat.ceil_lt_add_one (by positivity)
  have h1 : (cells.length : ℝ) ≤ 2 * ⌈20 * s⌉₊ := by exact_mod_cast hcnt.trans (Nat.mul_le_mul_left 2 hce')
  have h2 : (cells.length : ℝ) < nCells := by nlinarith
  exact_mod_cast h2

end Jagua
