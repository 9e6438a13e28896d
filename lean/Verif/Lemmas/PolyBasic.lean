import Verif.Lemmas.Parity
import Verif.Model.Polygon

/-! # Lemmas: polygon edges, bounding boxes and ray casting -/

set_option linter.unusedSectionVars false

namespace Jagua

variable {K : Type*} [Field K] [LinearOrder K] [IsStrictOrderedRing K]

/-- The edges of the code are the sides of the specification. -/
theorem polyEdges_sides (pts : List (Point K)) : (polyEdges pts).map (fun e => (e.start, e.stop)) = sides pts := by
  unfold polyEdges sides
  apply List.ext_getElem
  · simp
  · intro i h1 h2
    simp [List.getElem_rotate]

theorem mem_polyEdges {pts : List (Point K)} {e : Edge K} : e ∈ polyEdges pts ↔ (e.start, e.stop) ∈ sides pts := by
  rw [← polyEdges_sides, List.mem_map]
  constructor
  · intro h; exact ⟨e, h, rfl⟩
  · rintro ⟨e', h, he⟩
    have : e' = e := by
      cases e'; cases e; simp only [Prod.mk.injEq] at he; rw [he.1, he.2]
    rwa [← this]

theorem mem_bdry_iff {pts : List (Point K)} {p : Point K} : p ∈ bdry pts ↔ ∃ e ∈ polyEdges pts, p ∈ e.pts := by
  constructor
  · rintro ⟨s, hs, hp⟩
    exact ⟨⟨s.1, s.2⟩, mem_polyEdges.2 hs, hp⟩
  · rintro ⟨e, he, hp⟩
    exact ⟨(e.start, e.stop), mem_polyEdges.1 he, hp⟩

theorem sides_mem {pts : List (Point K)} {s : Point K × Point K} (h : s ∈ sides pts) : s.1 ∈ pts ∧ s.2 ∈ pts := by
  constructor
  · rw [← sides_fst pts]; exact List.mem_map_of_mem h
  · have : s.2 ∈ pts.rotate 1 := by rw [← sides_snd pts]; exact List.mem_map_of_mem h
    rwa [List.mem_rotate] at this

theorem exists_side_fst {pts : List (Point K)} {p : Point K} (h : p ∈ pts) : ∃ s ∈ sides pts, s.1 = p := by
  rw [← sides_fst pts] at h
  obtain ⟨s, hs, he⟩ := List.mem_map.1 h
  exact ⟨s, hs, he⟩

theorem exists_side_snd {pts : List (Point K)} {p : Point K} (h : p ∈ pts) : ∃ s ∈ sides pts, s.2 = p := by
  have h : p ∈ pts.rotate 1 := List.mem_rotate.2 h
  rw [← sides_snd pts] at h
  obtain ⟨s, hs, he⟩ := List.mem_map.1 h
  exact ⟨s, hs, he⟩

theorem vertex_mem_bdry {pts : List (Point K)} {p : Point K} (h : p ∈ pts) : p ∈ bdry pts := by
  obtain ⟨s, hs, rfl⟩ := exists_side_fst h
  exact ⟨s, hs, segPts_start _ _⟩

/-! ## Bounding box -/

theorem bbox_fold (ps : List (Point K)) (b : AARect K) :
    let r := ps.foldl (fun b q => (⟨min b.xMin q.x, min b.yMin q.y, max b.xMax q.x, max b.yMax q.y⟩ : AARect K)) b
    (r.xMin ≤ b.xMin ∧ r.yMin ≤ b.yMin ∧ b.xMax ≤ r.xMax ∧ b.yMax ≤ r.yMax) ∧
    (∀ q ∈ ps, r.xMin ≤ q.x ∧ q.x ≤ r.xMax ∧ r.yMin ≤ q.y ∧ q.y ≤ r.yMax) ∧
    (r.xMin = b.xMin ∨ ∃ q ∈ ps, q.x = r.xMin) ∧ (r.yMin = b.yMin ∨ ∃ q ∈ ps, q.y = r.yMin) ∧
    (r.xMax = b.xMax ∨ ∃ q ∈ ps, q.x = r.xMax) ∧ (r.yMax = b.yMax ∨ ∃ q ∈ ps, q.y = r.yMax) := by
  induction ps generalizing b with
  | nil => simp
  | cons p ps ih =>
    have := ih ⟨min b.xMin p.x, min b.yMin p.y, max b.xMax p.x, max b.yMax p.y⟩
    simp only [List.foldl_cons] at this ⊢
    set r := ps.foldl (fun b q => (⟨min b.xMin q.x, min b.yMin q.y, max b.xMax q.x, max b.yMax q.y⟩ : AARect K))
      ⟨min b.xMin p.x, min b.yMin p.y, max b.xMax p.x, max b.yMax p.y⟩ with hr
    obtain ⟨⟨h1, h2, h3, h4⟩, h5, h6, h7, h8, h9⟩ := this
    refine ⟨⟨h1.trans (min_le_left _ _), h2.trans (min_le_left _ _), (le_max_left _ _).trans h3,
      (le_max_left _ _).trans h4⟩, ?_, ?_, ?_, ?_, ?_⟩
    · intro q hq
      rcases List.mem_cons.1 hq with rfl | hq
      · exact ⟨h1.trans (min_le_right _ _), (le_max_right _ _).trans h3, h2.trans (min_le_right _ _),
          (le_max_right _ _).trans h4⟩
      · exact h5 q hq
    · rcases h6 with h | ⟨q, hq, h⟩
      · rcases min_choice b.xMin p.x with h' | h'
        · left; rw [h, h']
        · right; exact ⟨p, by simp, by rw [h, h']⟩
      · right; exact ⟨q, by simp [hq], h⟩
    · rcases h7 with h | ⟨q, hq, h⟩
      · rcases min_choice b.yMin p.y with h' | h'
        · left; rw [h, h']
        · right; exact ⟨p, by simp, by rw [h, h']⟩
      · right; exact ⟨q, by simp [hq], h⟩
    · rcases h8 with h | ⟨q, hq, h⟩
      · rcases max_choice b.xMax p.x with h' | h'
        · left; rw [h, h']
        · right; exact ⟨p, by simp, by rw [h, h']⟩
      · right; exact ⟨q, by simp [hq], h⟩
    · rcases h9 with h | ⟨q, hq, h⟩
      · rcases max_choice b.yMax p.y with h' | h'
        · left; rw [h, h']
        · right; exact ⟨p, by simp, by rw [h, h']⟩
      · right; exact ⟨q, by simp [hq], h⟩

theorem mem_boundingBox {pts : List (Point K)} {p : Point K} (h : p ∈ pts) : p ∈ (boundingBox pts).pts := by
  cases pts with
  | nil => simp at h
  | cons q ps =>
    have := bbox_fold ps ⟨q.x, q.y, q.x, q.y⟩
    obtain ⟨⟨h1, h2, h3, h4⟩, h5, -⟩ := this
    rcases List.mem_cons.1 h with rfl | h
    · exact ⟨h1, h3, h2, h4⟩
    · exact h5 p h

/-- Every side of the bounding box is attained by a vertex. -/
theorem boundingBox_attained {pts : List (Point K)} (h : pts ≠ []) :
    (∃ p ∈ pts, p.x = (boundingBox pts).xMin) ∧ (∃ p ∈ pts, p.y = (boundingBox pts).yMin) ∧
    (∃ p ∈ pts, p.x = (boundingBox pts).xMax) ∧ (∃ p ∈ pts, p.y = (boundingBox pts).yMax) := by
  cases pts with
  | nil => simp at h
  | cons q ps =>
    have := bbox_fold ps ⟨q.x, q.y, q.x, q.y⟩
    obtain ⟨-, -, h6, h7, h8, h9⟩ := this
    refine ⟨?_, ?_, ?_, ?_⟩
    · rcases h6 with h | ⟨p, hp, h⟩
      · exact ⟨q, by simp, h.symm⟩
      · exact ⟨p, by simp [hp], h⟩
    · rcases h7 with h | ⟨p, hp, h⟩
      · exact ⟨q, by simp, h.symm⟩
      · exact ⟨p, by simp [hp], h⟩
    · rcases h8 with h | ⟨p, hp, h⟩
      · exact ⟨q, by simp, h.symm⟩
      · exact ⟨p, by simp [hp], h⟩
    · rcases h9 with h | ⟨p, hp, h⟩
      · exact ⟨q, by simp, h.symm⟩
      · exact ⟨p, by simp [hp], h⟩

theorem bdry_subset_bbox {pts : List (Point K)} {p : Point K} (h : p ∈ bdry pts) : p ∈ (boundingBox pts).pts := by
  obtain ⟨s, hs, hp⟩ := h
  obtain ⟨h1, h2⟩ := sides_mem hs
  exact seg_in_rect (mem_boundingBox h1) (mem_boundingBox h2) hp

/-! ## Outside the bounding box -/

theorem rayCount_zero {pts : List (Point K)} {p : Point K} (h : ∀ s ∈ sides pts, ¬ CrossesRay p s) :
    rayCount pts p = 0 := by
  unfold rayCount
  rw [List.countP_eq_zero]
  intro s hs
  simpa using h s hs

theorem rayCount_above {pts : List (Point K)} {p : Point K} (h : ∀ v ∈ pts, v.y < p.y) : rayCount pts p = 0 := by
  apply rayCount_zero
  intro s hs
  exact not_crosses_low (h _ (sides_mem hs).1) (h _ (sides_mem hs).2)

theorem rayCount_below {pts : List (Point K)} {p : Point K} (h : ∀ v ∈ pts, p.y ≤ v.y) : rayCount pts p = 0 := by
  apply rayCount_zero
  intro s hs
  exact not_crosses_high (h _ (sides_mem hs).1) (h _ (sides_mem hs).2)

theorem rayCount_right {pts : List (Point K)} {p : Point K} (h : ∀ v ∈ pts, v.x ≤ p.x) : rayCount pts p = 0 := by
  apply rayCount_zero
  rintro s hs ⟨-, c, ⟨t, t0, t1, hx, -⟩, -, hc⟩
  have := (lerp_bounds (a := s.1.x) (b := s.2.x) t0 t1).2
  rw [← hx] at this
  have : max s.1.x s.2.x ≤ p.x := max_le (h _ (sides_mem hs).1) (h _ (sides_mem hs).2)
  linarith

theorem not_odd_zero {n : ℕ} (h : n = 0) : ¬ Odd n := by subst h; simp

/-- The interior lies strictly inside the bounding box. -/
theorem interior_subset_inner {pts : List (Point K)} {p : Point K} (h : p ∈ interior pts) :
    (boundingBox pts).xMin < p.x ∧ p.x < (boundingBox pts).xMax ∧
    (boundingBox pts).yMin < p.y ∧ p.y < (boundingBox pts).yMax := by
  obtain ⟨hb, ho⟩ := h
  set B := boundingBox pts with hB
  have hbox : ∀ v ∈ pts, v ∈ B.pts := fun v hv => mem_boundingBox hv
  have hbd : ∀ w ∈ bdry pts, w ∈ B.pts := fun w hw => bdry_subset_bbox hw
  refine ⟨?_, ?_, ?_, ?_⟩
  · by_contra hx
    push Not at hx
    -- go left, then up
    have e1 : Odd (rayCount pts p) ↔ Odd (rayCount pts ⟨p.x - 1, p.y⟩) := by
      apply rayCount_parity
      rintro w ⟨t, t0, t1, hwx, hwy⟩ hw
      simp only [sub_self, mul_zero, add_zero] at hwx hwy
      have h1 := (hbd w hw).1
      have ht : t = 0 := by nlinarith
      rw [ht] at hwx
      apply hb
      have : w = p := by ext <;> simp [hwx, hwy]
      rwa [this] at hw
    have e2 : Odd (rayCount pts ⟨p.x - 1, p.y⟩) ↔ Odd (rayCount pts ⟨p.x - 1, B.yMax + 1⟩) := by
      apply rayCount_parity
      rintro w ⟨t, t0, t1, hwx, hwy⟩ hw
      simp only [sub_self, mul_zero, add_zero] at hwx
      have h1 := (hbd w hw).1
      linarith
    rw [e1, e2] at ho
    refine not_odd_zero (rayCount_above ?_) ho
    intro v hv
    have := (hbox v hv).2.2.2
    simp only; linarith
  · by_contra hx
    push Not at hx
    exact not_odd_zero (rayCount_right fun v hv => (hbox v hv).2.1.trans hx) ho
  · by_contra hx
    push Not at hx
    exact not_odd_zero (rayCount_below fun v hv => hx.trans (hbox v hv).2.2.1) ho
  · by_contra hx
    push Not at hx
    have e1 : Odd (rayCount pts p) ↔ Odd (rayCount pts ⟨p.x, p.y + 1⟩) := by
      apply rayCount_parity
      rintro w ⟨t, t0, t1, hwx, hwy⟩ hw
      simp only [sub_self, mul_zero, add_zero, add_sub_cancel_left, mul_one] at hwx hwy
      have h1 := (hbd w hw).2.2.2
      have ht : t = 0 := by linarith
      rw [ht] at hwy
      apply hb
      have : w = p := by ext <;> simp [hwx, hwy]
      rwa [this] at hw
    rw [e1] at ho
    refine not_odd_zero (rayCount_above ?_) ho
    intro v hv
    have := (hbox v hv).2.2.2
    simp only; linarith

/-! ## The ray casting loop -/

theorem exact_lt (a b : K) : (Fpa.exact : Fpa K).lt a b = true ↔ a < b := by
  simp only [Fpa.lt, Fpa.exact, Bool.and_eq_true, Bool.not_eq_true', decide_eq_false_iff_not, decide_eq_true_eq]
  exact ⟨fun h => h.2, fun h => ⟨h.ne, h⟩⟩

theorem exact_eq (a b : K) : (Fpa.exact : Fpa K).eq a b = true ↔ a = b := by simp [Fpa.exact]

theorem seg_level_start {a b c : Point K} (hc : c ∈ segPts a b) (hab : a.y ≠ b.y) (h : c.y = a.y) : c = a := by
  obtain ⟨t, -, -, hx, hy⟩ := hc
  have : t = 0 := by
    have : t * (b.y - a.y) = 0 := by linarith
    rcases mul_eq_zero.1 this with h | h
    · exact h
    · exact absurd (sub_eq_zero.1 h).symm hab
  ext
  · rw [hx, this]; ring
  · exact h

theorem countsEdge_iff {p : Point K} {xOut : K} {e : Edge K} (hp : p ∉ e.pts) (hout : p.x < xOut)
    (h1 : e.start.x ≤ xOut) (h2 : e.stop.x ≤ xOut) :
    SPoly.countsEdge Fpa.exact p xOut e = true ↔ CrossesRay p (e.start, e.stop) := by
  unfold SPoly.countsEdge
  simp only [Bool.or_eq_true, Bool.and_eq_true, exact_lt, exact_eq]
  split
  · rename_i hV
    rw [Bool.or_eq_true, exact_lt, exact_lt]
    constructor
    · intro h
      rcases hV with ⟨hy, hx⟩ | ⟨hy, hx⟩
      · have hb : e.stop.y < p.y := by
          rcases h with h | h
          · exact absurd h (by rw [hy]; exact lt_irrefl _)
          · exact h
        exact ⟨Or.inr ⟨hb, hy.ge⟩, e.start, segPts_start _ _, hy, hx⟩
      · have hb : e.start.y < p.y := by
          rcases h with h | h
          · exact h
          · exact absurd h (by rw [hy]; exact lt_irrefl _)
        exact ⟨Or.inl ⟨hb, hy.ge⟩, e.stop, segPts_stop _ _, hy, hx⟩
    · rintro ⟨h | h, -⟩
      · exact Or.inl h.1
      · exact Or.inr h.1
  · rename_i hV
    push Not at hV
    rw [collidesEdge_iff]
    constructor
    · rintro ⟨hpar, c, ⟨t, t0, t1, hcx, hcy⟩, hc⟩
      simp only [sub_self, mul_zero, add_zero] at hcx hcy
      have hyne : e.start.y ≠ e.stop.y := by
        intro h
        apply hpar
        unfold Edge.Parallel
        simp only
        rw [h]; ring
      have hpx : p.x ≤ c.x := by rw [hcx]; nlinarith
      have hpx' : p.x < c.x := by
        refine lt_of_le_of_ne hpx fun h => hp ?_
        have : p = c := by ext; exacts [h, hcy.symm]
        rw [this]; exact hc
      have hb := mem_pts_bounds (e := e) hc
      have hnes : c.y ≠ e.start.y := by
        intro h
        have hce := seg_level_start hc hyne h
        have := hV.1 (h.symm.trans hcy)
        rw [hce] at hpx'
        exact absurd hpx' (not_lt.2 this)
      have hnet : c.y ≠ e.stop.y := by
        intro h
        have hce := seg_level_start (by rw [segPts_comm]; exact hc) hyne.symm h
        have := hV.2 (h.symm.trans hcy)
        rw [hce] at hpx'
        exact absurd hpx' (not_lt.2 this)
      refine ⟨?_, c, hc, hcy, hpx'⟩
      simp only
      obtain ⟨-, -, hb1, hb2⟩ := hb
      unfold Edge.yMin at hb1
      unfold Edge.yMax at hb2
      rw [← hcy]
      rcases lt_or_gt_of_ne hyne with h | h
      · rw [min_eq_left h.le] at hb1
        rw [max_eq_right h.le] at hb2
        exact Or.inl ⟨lt_of_le_of_ne hb1 hnes.symm, hb2⟩
      · rw [min_eq_right h.le] at hb1
        rw [max_eq_left h.le] at hb2
        exact Or.inr ⟨lt_of_le_of_ne hb1 hnet.symm, hb2⟩
    · rintro ⟨hst, c, hc, hcy, hcx⟩
      simp only at hst hc
      refine ⟨?_, c, ?_, hc⟩
      · unfold Edge.Parallel
        simp only [sub_self, zero_mul]
        have hne : xOut - p.x ≠ 0 := by linarith
        intro h
        rcases mul_eq_zero.1 h with h | h
        · exact hne h
        · rcases hst with h' | h' <;> linarith
      · have hb := mem_pts_bounds (e := e) hc
        have : c.x ≤ xOut := hb.2.1.trans (max_le h1 h2)
        have hpos : 0 < xOut - p.x := by linarith
        refine ⟨(c.x - p.x) / (xOut - p.x), div_nonneg (by linarith) hpos.le, by rw [div_le_one hpos]; linarith, ?_, ?_⟩
        · simp only; field_simp; ring
        · simp only; rw [hcy]; ring

/-- Well-formed polygon: what `SimplePolygon::new` and the transformations
guarantee about the derived fields used by the collision tests. -/
structure SPoly.WF (s : SPoly K) : Prop where
  bbox_eq : s.bbox = boundingBox s.points
  bbox_valid : s.bbox.Valid
  nonempty : s.points ≠ []

theorem SPoly.not_bdry_edges {s : SPoly K} {p : Point K} (h : p ∉ bdry s.points) : ∀ e ∈ s.edges, p ∉ e.pts :=
  fun e he hp => h (mem_bdry_iff.2 ⟨e, he, hp⟩)

/-- Off the boundary, the ray casting test decides membership in the even-odd
interior. -/
theorem SPoly.collidesPoint_iff {s : SPoly K} (hs : s.WF) {p : Point K} (hp : p ∉ bdry s.points) :
    s.collidesPoint Fpa.exact p = true ↔ p ∈ Jagua.interior s.points := by
  unfold SPoly.collidesPoint
  by_cases hb : s.bbox.collidesPoint p = true
  · simp only [hb, if_true, decide_eq_true_eq]
    have hbox := (Jagua.collidesPoint_iff _ _).1 hb
    have hw : 0 < s.bbox.width := by unfold AARect.width; linarith [hs.bbox_valid.1]
    have hcount : (s.edges.filter (SPoly.countsEdge Fpa.exact p (s.bbox.xMax + s.bbox.width))).length
        = rayCount s.points p := by
      classical
      unfold rayCount
      rw [← polyEdges_sides, List.countP_map, ← List.countP_eq_length_filter]
      apply List.countP_congr
      intro e he
      have hm := sides_mem (mem_polyEdges.1 he)
      have b1 := (mem_boundingBox hm.1).2.1
      have b2 := (mem_boundingBox hm.2).2.1
      rw [← hs.bbox_eq] at b1 b2
      rw [countsEdge_iff (SPoly.not_bdry_edges hp e he) (by linarith [hbox.2.1]) (by simp only at b1; linarith)
        (by simp only at b2; linarith)]
      simp
    rw [hcount]
    show _ ↔ (_ ∧ _)
    rw [Nat.odd_iff]
    tauto
  · simp only [hb, if_false, Bool.false_eq_true, false_iff]
    intro h
    have := interior_subset_inner h
    rw [← hs.bbox_eq] at this
    exact hb ((Jagua.collidesPoint_iff _ _).2 ⟨this.1.le, this.2.1.le, this.2.2.1.le, this.2.2.2.le⟩)

end Jagua
