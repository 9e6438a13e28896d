import Verif.Lemmas.GridGen
import Verif.Lemmas.Layout
import Verif.Lemmas.RectPoly
import Verif.Lemmas.StripGeo
import Verif.Lemmas.PierRays
import Mathlib.Topology.Order.OrderClosed
import Mathlib.Topology.Algebra.Ring.Real

/-!
# Lemmas: the proximity grid of a rectangular bin has no gaps
-/

set_option linter.unusedSectionVars false

namespace Jagua

section

variable {K : Type*} [Field K] [LinearOrder K] [IsStrictOrderedRing K]

/-- The size of the cells is bounded: the correction factor grows by at most one step per round. -/
theorem GridGen.loop_dim {env : HEnv K} {bbox : AARect K} {hazards : List (Hazard K)} {target left : ℕ} {step C : K} {prev : Option Ordering}
    (hs : 0 < env.sqrt (bbox.area / target)) (hst : 0 < step) (m : ℕ) (hC : m * step + left * step ≤ C)
    {rects : List (AARect K)} (h : GridGen.loop env bbox hazards target left (m * step) step prev = some rects) :
    ∃ dim, 0 < dim ∧ dim ≤ env.sqrt (bbox.area / target) * C ∧ GridGen.attempt env bbox hazards dim = some rects := by
  have hpos : ∀ {cells : List (AARect K)} {m : ℕ} {step : K}, 0 < step →
      GridGen.attempt env bbox hazards (env.sqrt (bbox.area / target) * (m * step)) = some cells → 0 < m ∧ 0 < env.sqrt (bbox.area / target) * (m * step) := by
    intro cells m step hst h1
    have hm : m ≠ 0 := by
      rintro rfl
      unfold GridGen.attempt at h1
      simp at h1
    have hm' : 0 < m := Nat.pos_of_ne_zero hm
    have : (0 : K) < m := by exact_mod_cast hm'
    exact ⟨hm', by positivity⟩
  induction left generalizing m step prev with
  | zero =>
    unfold GridGen.loop at h
    obtain ⟨cells, h1, h⟩ := Option.bind_eq_some_iff.1 h
    cases h
    refine ⟨_, (hpos hst h1).2, mul_le_mul_of_nonneg_left ?_ hs.le, h1⟩
    push_cast at hC
    linarith
  | succ left ih =>
    unfold GridGen.loop at h
    obtain ⟨cells, h1, h⟩ := Option.bind_eq_some_iff.1 h
    obtain ⟨hm, hp⟩ := hpos hst h1
    dsimp only at h
    push_cast at hC
    have hl : (0 : K) ≤ left := Nat.cast_nonneg left
    obtain ⟨k, hk, step', hst', he, hle, hstep⟩ : ∃ k : ℕ, 0 < k ∧ ∃ step' : K, 0 < step' ∧ (m : K) * step = k * step' ∧ step' ≤ step ∧
        (if prev = some (compare cells.length target) then step else step / 2) = step' := by
      split_ifs
      · exact ⟨m, hm, step, hst, rfl, le_rfl, rfl⟩
      · exact ⟨2 * m, by omega, step / 2, by positivity, by push_cast; ring, by linarith, rfl⟩
    have hls : (left : K) * step' ≤ left * step := mul_le_mul_of_nonneg_left hle hl
    rw [hstep, he] at h
    split at h
    · cases h
      refine ⟨_, hp, mul_le_mul_of_nonneg_left ?_ hs.le, h1⟩
      nlinarith
    · have e : ((k - 1 : ℕ) : K) * step' = k * step' - step' := by
        rw [Nat.cast_sub (by omega : 1 ≤ k)]; push_cast; ring
      refine ih (prev := some (compare cells.length target)) hst' (k - 1) ?_ ?_
      · rw [e, ← he]; nlinarith
      · rw [e]; exact h
    · have e : ((k + 1 : ℕ) : K) * step' = k * step' + step' := by push_cast; ring
      refine ih (prev := some (compare cells.length target)) hst' (k + 1) ?_ ?_
      · rw [e, ← he]; nlinarith
      · rw [e]; exact h

theorem GridGen.generate_dim {env : HEnv K} {bbox : AARect K} {hazards : List (Hazard K)} {target : ℕ}
    (hs : 0 < env.sqrt (bbox.area / target)) {rects : List (AARect K)} (h : GridGen.generate env bbox hazards target = some rects) :
    ∃ dim, 0 < dim ∧ dim ≤ env.sqrt (bbox.area / target) * (7 / 2) ∧ GridGen.attempt env bbox hazards dim = some rects := by
  unfold GridGen.generate at h
  split_ifs at h
  have e : (1 : K) = ((10 : ℕ) : K) * (1 / 10) := by norm_num
  refine GridGen.loop_dim hs (by norm_num : (0 : K) < 1 / 10) 10 (prev := none) (left := GridGen.maxIterations) ?_ ?_
  · unfold GridGen.maxIterations; norm_num
  · rw [← e]; exact h

/-- A kept cell is a cell whose centre is not deep in a hazard. -/
theorem GridGen.attempt_kept {env : HEnv K} {bbox : AARect K} {hazards : List (Hazard K)} {dim : K} {rects : List (AARect K)}
    (h : GridGen.attempt env bbox hazards dim = some rects) {r : AARect K} (hr : r ∈ rects) :
    (∃ i j : ℕ, r = GridGen.cellRect bbox dim i j) ∧
      ∃ d, GridGen.distanceToHazard env r.centroid hazards = some d ∧ 0 < d + env.sqrt (2 * (dim / 2) ^ 2) := by
  unfold GridGen.attempt at h
  split_ifs at h
  obtain ⟨ls, hls, rfl⟩ := Option.map_eq_some_iff.1 h
  obtain ⟨l, hl, hrl⟩ := List.mem_flatten.1 hr
  obtain ⟨x, hxm, hx⟩ := forall₂_exists_left (mapM_forall₂_of hls) hl
  obtain ⟨d, hd, rfl⟩ := Option.map_eq_some_iff.1 hx
  split_ifs at hrl with hpos
  swap
  · cases hrl
  obtain rfl := List.mem_singleton.1 hrl
  refine ⟨?_, d, hd, hpos⟩
  obtain ⟨i, -, hi⟩ := List.mem_flatMap.1 hxm
  obtain ⟨j, -, rfl⟩ := List.mem_map.1 hi
  exact ⟨i, j, rfl⟩

/-- The distance to the hazards is at most that to each of them. -/
theorem GridGen.distanceToHazard_le {env : HEnv K} {p : Point K} {hazards : List (Hazard K)} {d : K}
    (h : GridGen.distanceToHazard env p hazards = some d) {x : Hazard K} (hx : x ∈ hazards) :
    ∃ pos w, x.shape.val.distanceFromBorder env p = some (pos, w) ∧ d ≤ if pos = x.entity.position then -w else w := by
  unfold GridGen.distanceToHazard at h
  obtain ⟨m, hm, he⟩ := Option.map_eq_some_iff.1 h
  obtain ⟨v, hv, hvd⟩ := forall₂_right_mem (mapM_forall₂_of hm) hx
  obtain ⟨⟨pos, w⟩, hpw, rfl⟩ := Option.map_eq_some_iff.1 hvd
  refine ⟨pos, w, hpw, ?_⟩
  cases m with
  | nil => cases hv
  | cons v0 vs =>
    dsimp only at he
    rw [← he]
    rcases List.mem_cons.1 hv with hv | hv
    · rw [← hv]; exact (foldl_min_spec vs _).2.1
    · exact (foldl_min_spec vs _).2.2 _ hv

/-- What a new grid is made of. -/
theorem HPG.new_parts {env : HEnv K} {bbox : AARect K} {statics : List (Hazard K)} {nCells : ℕ} {g : HPG K}
    (hs : 0 < env.sqrt (bbox.area / nCells)) (h : HPG.new env bbox statics nCells = some g) :
    ∃ dim, 0 < dim ∧ dim ≤ env.sqrt (bbox.area / nCells) * (7 / 2) ∧ g.cellRadius = env.sqrt (dim ^ 2 + dim ^ 2) / 2 ∧
      ∀ x, some x ∈ g.grid.cells → x.centroid = x.bbox.centroid ∧ (∃ i j : ℕ, x.bbox = GridGen.cellRect bbox dim i j) ∧
        ∃ d, GridGen.distanceToHazard env x.bbox.centroid (statics.filter fun h => h.entity.isUniversal) = some d ∧ 0 < d + env.sqrt (2 * (dim / 2) ^ 2) := by
  unfold HPG.new at h
  split_ifs at h with hn0
  obtain ⟨rects, h1, h⟩ := Option.bind_eq_some_iff.1 h
  obtain ⟨r0, h2, h⟩ := Option.bind_eq_some_iff.1 h
  obtain ⟨cells, h3, h⟩ := Option.bind_eq_some_iff.1 h
  obtain ⟨grid, h4, rfl⟩ := Option.map_eq_some_iff.1 h
  obtain ⟨dim, hd, hle, h5⟩ := GridGen.generate_dim hs h1
  refine ⟨dim, hd, hle, ?_, ?_⟩
  · obtain ⟨⟨i, j, e⟩, -⟩ := GridGen.attempt_kept h5 (List.mem_of_mem_head? h2)
    show r0.diameter env / 2 = _
    rw [e]
    unfold AARect.diameter GridGen.cellRect
    dsimp only
    rw [show bbox.xMin + dim * (i : K) + dim - (bbox.xMin + dim * i) = dim by ring,
      show bbox.yMin + dim * (j : K) + dim - (bbox.yMin + dim * j) = dim by ring]
  · intro x hx
    obtain ⟨p, hp⟩ := Grid.mem_of_new h4 hx
    obtain ⟨c, hc, e⟩ := List.mem_map.1 hp
    obtain ⟨rfl, -⟩ := Prod.mk.inj e
    obtain ⟨r, hr, hrc⟩ := forall₂_exists_left (mapM_forall₂_of h3) hc
    obtain ⟨e1, e2, -⟩ := HPGCell.new_spec hrc
    obtain ⟨k1, k2⟩ := GridGen.attempt_kept h5 hr
    rw [e1, e2]
    exact ⟨rfl, k1, k2⟩

end

/-! ## Rectangles in the real plane -/

/-- If every point just inside of `p` is in one of finitely many closed rectangles, so is `p`. -/
theorem covered_limit {S : Set (AARect ℝ)} (hS : S.Finite) (p v : Point ℝ)
    (h : ∀ t : ℝ, 0 < t → t ≤ 1 → ∃ b ∈ S, (⟨p.x + t * v.x, p.y + t * v.y⟩ : Point ℝ) ∈ b.pts) : ∃ b ∈ S, p ∈ b.pts := by
  have hc : IsClosed (⋃ b ∈ S, {t : ℝ | (⟨p.x + t * v.x, p.y + t * v.y⟩ : Point ℝ) ∈ b.pts}) := by
    refine hS.isClosed_biUnion fun b _ => ?_
    have cx : Continuous fun t : ℝ => p.x + t * v.x := by fun_prop
    have cy : Continuous fun t : ℝ => p.y + t * v.y := by fun_prop
    exact (isClosed_le continuous_const cx).inter ((isClosed_le cx continuous_const).inter
      ((isClosed_le continuous_const cy).inter (isClosed_le cy continuous_const)))
  have h0 : (0 : ℝ) ∈ closure (Set.Ioc (0 : ℝ) 1) := by
    rw [closure_Ioc zero_ne_one]
    exact ⟨le_rfl, zero_le_one⟩
  have hsub : Set.Ioc (0 : ℝ) 1 ⊆ ⋃ b ∈ S, {t : ℝ | (⟨p.x + t * v.x, p.y + t * v.y⟩ : Point ℝ) ∈ b.pts} := by
    rintro t ⟨t1, t2⟩
    obtain ⟨b, hb, hp⟩ := h t t1 t2
    exact Set.mem_biUnion hb hp
  obtain ⟨b, hb, hp⟩ := Set.mem_iUnion₂.1 (closure_minimal hsub hc h0)
  refine ⟨b, hb, ?_⟩
  have : (⟨p.x + 0 * v.x, p.y + 0 * v.y⟩ : Point ℝ) ∈ b.pts := hp
  simpa using this

/-- The distance from a point of a rectangle to its border. -/
theorem isSqDist_rect {x0 y0 x1 y1 : ℝ} (hx : x0 < x1) (hy : y0 < y1) {p : Point ℝ} (h : x0 ≤ p.x ∧ p.x ≤ x1 ∧ y0 ≤ p.y ∧ p.y ≤ y1) :
    IsSqDist p (bdry (rectPoly x0 y0 x1 y1)) (min (min (p.x - x0) (x1 - p.x)) (min (p.y - y0) (y1 - p.y)) ^ 2) := by
  obtain ⟨h1, h2, h3, h4⟩ := h
  have m1 := min_le_left (min (p.x - x0) (x1 - p.x)) (min (p.y - y0) (y1 - p.y))
  have m2 := min_le_right (min (p.x - x0) (x1 - p.x)) (min (p.y - y0) (y1 - p.y))
  have m3 := min_le_left (p.x - x0) (x1 - p.x)
  have m4 := min_le_right (p.x - x0) (x1 - p.x)
  have m5 := min_le_left (p.y - y0) (y1 - p.y)
  have m6 := min_le_right (p.y - y0) (y1 - p.y)
  have m0 : 0 ≤ min (min (p.x - x0) (x1 - p.x)) (min (p.y - y0) (y1 - p.y)) :=
    le_min (le_min (by linarith) (by linarith)) (le_min (by linarith) (by linarith))
  constructor
  · rcases min_choice (min (p.x - x0) (x1 - p.x)) (min (p.y - y0) (y1 - p.y)) with e | e
    · rcases min_choice (p.x - x0) (x1 - p.x) with e' | e'
      · refine ⟨⟨x0, p.y⟩, (bdry_rectPoly hx hy _).2 ⟨⟨le_rfl, hx.le, h3, h4⟩, .inl rfl⟩, ?_⟩
        rw [e, e']; simp
      · refine ⟨⟨x1, p.y⟩, (bdry_rectPoly hx hy _).2 ⟨⟨hx.le, le_rfl, h3, h4⟩, .inr (.inl rfl)⟩, ?_⟩
        rw [e, e']; simp only [sub_self]; ring
    · rcases min_choice (p.y - y0) (y1 - p.y) with e' | e'
      · refine ⟨⟨p.x, y0⟩, (bdry_rectPoly hx hy _).2 ⟨⟨h1, h2, le_rfl, hy.le⟩, .inr (.inr (.inl rfl))⟩, ?_⟩
        rw [e, e']; simp
      · refine ⟨⟨p.x, y1⟩, (bdry_rectPoly hx hy _).2 ⟨⟨h1, h2, hy.le, le_rfl⟩, .inr (.inr (.inr rfl))⟩, ?_⟩
        rw [e, e']; simp only [sub_self]; ring
  · intro q hq
    obtain ⟨-, e | e | e | e⟩ := (bdry_rectPoly hx hy q).1 hq
    · refine (pow_le_pow_left₀ m0 (m1.trans m3) 2).trans ?_
      rw [e]; nlinarith [sq_nonneg (p.y - q.y)]
    · refine (pow_le_pow_left₀ m0 (m1.trans m4) 2).trans ?_
      rw [e]; nlinarith [sq_nonneg (p.y - q.y)]
    · refine (pow_le_pow_left₀ m0 (m2.trans m5) 2).trans ?_
      rw [e]; nlinarith [sq_nonneg (p.x - q.x)]
    · refine (pow_le_pow_left₀ m0 (m2.trans m6) 2).trans ?_
      rw [e]; nlinarith [sq_nonneg (p.x - q.x)]

/-- The proximity of the outside of a rectangular bin. -/
theorem staticProx_rect {env : HEnv ℝ} (hs : env.SqrtWithin 0) (hf : env.f = Fpa.exact) {outer : Arc (SPoly ℝ)} (hw : outer.val.WF) {x0 y0 x1 y1 : ℝ}
    (hx : x0 < x1) (hy : y0 < y1) (ho : outer.val.points = rectPoly x0 y0 x1 y1) (a : Bool) (p : Point ℝ) :
    HPGCell.staticProx env p ⟨.binExterior, outer, a⟩ = some (max 0 (min (min (p.x - x0) (x1 - p.x)) (min (p.y - y0) (y1 - p.y)))) := by
  obtain ⟨q, h1, hq⟩ := SPoly.sqDistanceFromBorder_spec (f := env.f) hw.nonempty p
  have hq0 : 0 ≤ q := by obtain ⟨z, -, e⟩ := hq.1; rw [← e]; positivity
  unfold HPGCell.staticProx SPoly.distanceFromBorder
  dsimp only
  rw [h1]
  simp only [Option.map_some, Option.some.injEq]
  rw [hs.exact hq0]
  by_cases hin : x0 ≤ p.x ∧ p.x ≤ x1 ∧ y0 ≤ p.y ∧ p.y ≤ y1
  · have hd := isSqDist_rect hx hy hin
    rw [← ho] at hd
    have hqe : q = min (min (p.x - x0) (x1 - p.x)) (min (p.y - y0) (y1 - p.y)) ^ 2 := by
      obtain ⟨z, hz, e⟩ := hq.1
      obtain ⟨z', hz', e'⟩ := hd.1
      have := hq.2 z' hz'
      have := hd.2 z hz
      linarith
    have m0 : 0 ≤ min (min (p.x - x0) (x1 - p.x)) (min (p.y - y0) (y1 - p.y)) := by
      obtain ⟨h1, h2, h3, h4⟩ := hin
      exact le_min (le_min (by linarith) (by linarith)) (le_min (by linarith) (by linarith))
    rw [max_eq_right m0, hqe, Real.sqrt_sq m0]
    by_cases hb : p ∈ bdry outer.val.points
    · have hz : min (min (p.x - x0) (x1 - p.x)) (min (p.y - y0) (y1 - p.y)) = 0 := by
        have := hd.2 p hb
        have h2 : min (min (p.x - x0) (x1 - p.x)) (min (p.y - y0) (y1 - p.y)) ^ 2 ≤ 0 := by simpa using this
        exact pow_eq_zero_iff (two_ne_zero) |>.1 (le_antisymm h2 (by positivity))
      rw [hz]
      split_ifs <;> rfl
    · have hi : p ∈ Jagua.interior outer.val.points := by
        rw [ho] at hb ⊢
        rw [interior_rectPoly hx hy]
        rw [bdry_rectPoly hx hy] at hb
        obtain ⟨h1, h2, h3, h4⟩ := hin
        refine ⟨lt_of_le_of_ne h1 ?_, lt_of_le_of_ne h2 ?_, lt_of_le_of_ne h3 ?_, lt_of_le_of_ne h4 ?_⟩ <;>
          intro e <;> exact hb ⟨⟨h1, h2, h3, h4⟩, by simp [e]⟩
      have hc : outer.val.collidesPoint env.f p = true := by
        rw [hf]
        exact (SPoly.collidesPoint_iff hw hb).2 hi
      rw [hc, if_neg]
      simp [HazardEntity.position]
  · have hc : outer.val.collidesPoint env.f p ≠ true := by
      intro h
      have := SPoly.collidesPoint_bbox h
      rw [hw.bbox_eq, ho, boundingBox_rectPoly hx hy] at this
      exact hin this
    rw [if_neg hc, if_pos (show GeoPosition.exterior = HazardEntity.binExterior.position from rfl)]
    refine (max_eq_left ?_).symm
    by_contra hm
    have hm := not_le.1 hm
    obtain ⟨a1, a2⟩ := lt_min_iff.1 hm
    obtain ⟨b1, b2⟩ := lt_min_iff.1 a1
    obtain ⟨b3, b4⟩ := lt_min_iff.1 a2
    exact hin ⟨by linarith, by linarith, by linarith, by linarith⟩

/-- The proximity of a pole. -/
theorem discProx_sqrt {env : HEnv ℝ} (hs : env.SqrtWithin 0) (p : Point ℝ) (c : Circle ℝ) :
    HPGCell.discProx env p c = max 0 (Real.sqrt (sqDist p c.center) - c.radius) := by
  unfold HPGCell.discProx Circle.distanceFromBorder
  dsimp only
  rw [hs.exact (by positivity)]
  unfold sqDist
  split_ifs with h
  · rw [max_eq_left (by linarith)]
  · rw [max_eq_right (by linarith)]
    exact (fabs_eq _).trans (abs_of_pos (by linarith))

/-- **The grid of a rectangular bin** covers it and does not reach far beyond. -/
theorem HPG.new_rect {env : HEnv ℝ} (hs : env.SqrtWithin 0) (hf : env.f = Fpa.exact) (hce : env.CeilExact) {outer : Arc (SPoly ℝ)} (hw : outer.val.WF)
    {x0 y0 x1 y1 : ℝ} (hx : x0 < x1) (hy : y0 < y1) (ho : outer.val.points = rectPoly x0 y0 x1 y1) {zones : List (QualityZone ℝ)}
    (hn : (zones.map (·.quality)).Nodup) (hq : ∀ z ∈ zones, z.quality < nQualities) {nCells : ℕ}
    (hcells : 98 * max (x1 - x0) (y1 - y0) ^ 2 ≤ nCells * min (x1 - x0) (y1 - y0) ^ 2) {g : HPG ℝ}
    (h : HPG.new env outer.val.bbox.inflateToSquare (generateBinHazards outer [] (zoneTable zones)) nCells = some g) :
    g.Covers ⟨x0, y0, x1, y1⟩ ∧ g.Hugs ⟨x0, y0, x1, y1⟩ ∧ g.Roomy outer.val.bbox.inflateToSquare ⟨x0, y0, x1, y1⟩ ∧ 32 * 0 ≤ g.cellRadius := by
  have hbox : outer.val.bbox = ⟨x0, y0, x1, y1⟩ := by rw [hw.bbox_eq, ho, boundingBox_rectPoly hx hy]
  have hmem := fun h => mem_generateBinHazards (outer := outer) (holes := []) hn hq (h := h)
  have hN : (0 : ℝ) < nCells := by
    by_contra hc
    have hc : (nCells : ℝ) = 0 := le_antisymm (not_lt.1 hc) (Nat.cast_nonneg _)
    rw [hc, zero_mul] at hcells
    have : 0 < max (x1 - x0) (y1 - y0) := lt_of_lt_of_le (by linarith : 0 < x1 - x0) (le_max_left _ _)
    nlinarith
  have harea : outer.val.bbox.inflateToSquare.area = max (x1 - x0) (y1 - y0) ^ 2 := by
    have : outer.val.bbox.inflateToSquare.area = outer.val.bbox.inflateToSquare.width * outer.val.bbox.inflateToSquare.height := rfl
    rw [this, inflate_square, inflate_height, hbox]
    unfold AARect.width AARect.height
    ring
  have hL : 0 < max (x1 - x0) (y1 - y0) := lt_of_lt_of_le (by linarith : 0 < x1 - x0) (le_max_left _ _)
  have ha0 : 0 < outer.val.bbox.inflateToSquare.area / nCells := by rw [harea]; positivity
  have hsq : 0 < env.sqrt (outer.val.bbox.inflateToSquare.area / nCells) := by
    rw [hs.exact ha0.le]
    exact Real.sqrt_pos.2 ha0
  have hmono : ∀ x y, 0 ≤ x → x < y → env.sqrt x < env.sqrt y := by
    intro x y hx hxy
    rw [hs.exact hx, hs.exact (hx.trans hxy.le)]
    exact Real.sqrt_lt_sqrt hx hxy
  obtain ⟨dim, hd, hdle, hrad, hcell⟩ := HPG.new_parts hsq h
  refine ⟨?_, ?_, ?_, ?_⟩
  · intro p hp
    obtain ⟨p1, p2, p3, p4⟩ := hp
    dsimp only at p1 p2 p3 p4
    have key := covered_limit (S := {b | ∃ x, some x ∈ g.grid.cells ∧ x.bbox = b}) (by
      refine Set.Finite.subset (List.finite_toSet (g.grid.cells.filterMap fun o => o.map (·.bbox))) ?_
      rintro b ⟨x, hx, rfl⟩
      exact List.mem_filterMap.2 ⟨some x, hx, rfl⟩) p ⟨(x0 + x1) / 2 - p.x, (y0 + y1) / 2 - p.y⟩ (by
      intro t t0 t1
      have hin : (⟨p.x + t * ((x0 + x1) / 2 - p.x), p.y + t * ((y0 + y1) / 2 - p.y)⟩ : Point ℝ) ∈ Jagua.interior outer.val.points := by
        rw [ho, interior_rectPoly hx hy]
        dsimp only
        have a1 : 0 ≤ (1 - t) * (p.x - x0) := mul_nonneg (by linarith) (by linarith)
        have a2 : 0 ≤ (1 - t) * (x1 - p.x) := mul_nonneg (by linarith) (by linarith)
        have a3 : 0 ≤ (1 - t) * (p.y - y0) := mul_nonneg (by linarith) (by linarith)
        have a4 : 0 ≤ (1 - t) * (y1 - p.y) := mul_nonneg (by linarith) (by linarith)
        have b1 : 0 < t * (x1 - x0) := mul_pos t0 (by linarith)
        have b2 : 0 < t * (y1 - y0) := mul_pos t0 (by linarith)
        refine ⟨?_, ?_, ?_, ?_⟩ <;> nlinarith
      obtain ⟨x, hx', hxp, -⟩ := HPG.new_covers hmono (hs.nonneg 0 le_rfl) hf hce (inflate_valid hw.bbox_valid)
        ⟨_, (hmem _).2 (.inl rfl), rfl⟩ (by
          intro h hh hu
          rcases (hmem h).1 hh with rfl | ⟨i, s, hs, rfl⟩ | ⟨z, hz, i, s, hs, rfl⟩
          · exact hw
          · simp at hs
          · cases hu) h (inflate_contains _ (by rw [hw.bbox_eq]; exact region_subset_bbox (.inr hin))) (by
          intro h hh hu
          rcases (hmem h).1 hh with rfl | ⟨i, s, hs, rfl⟩ | ⟨z, hz, i, s, hs, rfl⟩
          · rintro (hb | hb)
            · exact hin.1 hb
            · exact hb (.inr hin)
          · simp at hs
          · cases hu)
      exact ⟨_, ⟨x, hx', rfl⟩, hxp⟩)
    obtain ⟨b, ⟨x, hx', rfl⟩, hp⟩ := key
    exact ⟨x, hx', hp⟩
  · intro x hx'
    obtain ⟨e1, ⟨i, j, e2⟩, d, hdd, hpos⟩ := hcell x hx'
    have hcorner : sqDist x.centroid ⟨x.bbox.xMin, x.bbox.yMin⟩ = 2 * (dim / 2) ^ 2 := by
      rw [e1, e2]
      unfold sqDist AARect.centroid GridGen.cellRect
      dsimp only
      ring
    rw [hcorner]
    by_cases hin : x.centroid ∈ (⟨x0, y0, x1, y1⟩ : AARect ℝ).pts
    · refine ⟨_, hin, ?_⟩
      unfold sqDist
      simp only [sub_self]
      nlinarith
    · obtain ⟨pos, w, hpw, hle⟩ := GridGen.distanceToHazard_le hdd (List.mem_filter.2 ⟨(hmem _).2 (.inl rfl), rfl⟩)
      obtain ⟨q, h1, ⟨z, hz, hzq⟩, -⟩ := SPoly.sqDistanceFromBorder_spec (f := env.f) hw.nonempty x.bbox.centroid
      dsimp only at hpw
      unfold SPoly.distanceFromBorder at hpw
      rw [h1, Option.map_some] at hpw
      obtain ⟨k1, k2⟩ := Prod.mk.inj (Option.some.inj hpw)
      have hq0 : 0 ≤ q := by rw [← hzq]; positivity
      have hc : outer.val.collidesPoint env.f x.bbox.centroid ≠ true := by
        intro h
        have := SPoly.collidesPoint_bbox h
        rw [hbox, ← e1] at this
        exact hin this
      rw [if_neg hc] at k1
      rw [if_pos (by rw [← k1]; rfl)] at hle
      have hlt : Real.sqrt q < Real.sqrt (2 * (dim / 2) ^ 2) := by
        rw [← hs.exact hq0, ← hs.exact (by positivity), k2]
        linarith
      have hql : q < 2 * (dim / 2) ^ 2 := (Real.sqrt_lt_sqrt_iff hq0).1 hlt
      refine ⟨z, ?_, ?_⟩
      · have := bdry_subset_bbox hz
        rw [← hw.bbox_eq, hbox] at this
        exact this
      · unfold sqDist
        rw [e1, hzq]
        exact hql
  · have hr0 : 0 ≤ g.cellRadius := by
      rw [hrad]
      have := hs.nonneg (dim ^ 2 + dim ^ 2) (by positivity)
      linarith
    have hr2 : g.cellRadius ^ 2 = dim ^ 2 / 2 := by
      rw [hrad, hs.exact (by positivity), div_pow, Real.sq_sqrt (by positivity)]
      ring
    have hm0 : 0 < min (x1 - x0) (y1 - y0) := lt_min (by linarith) (by linarith)
    have hsmall : 4 * g.cellRadius ≤ min (x1 - x0) (y1 - y0) := by
      refine le_of_sq_le_sq ?_ hm0.le
      have hd2 : dim ^ 2 ≤ outer.val.bbox.inflateToSquare.area / nCells * (49 / 4) := by
        have := pow_le_pow_left₀ hd.le hdle 2
        rw [hs.exact ha0.le, mul_pow, Real.sq_sqrt ha0.le] at this
        linarith
      rw [harea] at hd2
      rw [mul_pow, hr2]
      have : max (x1 - x0) (y1 - y0) ^ 2 / nCells * 98 ≤ min (x1 - x0) (y1 - y0) ^ 2 := by
        rw [div_mul_eq_mul_div, div_le_iff₀ hN]
        linarith
      linarith
    have hc := inflate_contains outer.val.bbox
    have hcorner : (⟨x0, y0⟩ : Point ℝ) ∈ outer.val.bbox.inflateToSquare.pts := hc (by rw [hbox]; exact ⟨le_rfl, hx.le, le_rfl, hy.le⟩)
    exact ⟨hcorner.1, hcorner.2.2.1, .inr (hsmall.trans (min_le_left _ _)), .inr (hsmall.trans (min_le_right _ _))⟩
  · rw [hrad]
    have := hs.nonneg (dim ^ 2 + dim ^ 2) (by positivity)
    linarith

end Jagua
