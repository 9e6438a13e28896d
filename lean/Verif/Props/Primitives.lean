import Verif.Lemmas.PrimitiveExtra
import Verif.Spec.Distance

/-! # C28 - C33: primitives -/

set_option linter.unusedSectionVars false

namespace Jagua

variable {K : Type*} [Field K] [LinearOrder K] [IsStrictOrderedRing K]

/-! ## C28 Edge intersection -/

/-- C28: for non-parallel edges the collision test is exact. -/
theorem C28_edge_collides_iff_share_point (e f : Edge K) (h : ¬ e.Parallel f) :
    e.collidesEdge f = true ↔ (e.pts ∩ f.pts).Nonempty := by
  rw [collidesEdge_iff]
  exact ⟨fun ⟨_, p, h1, h2⟩ => ⟨p, h1, h2⟩, fun ⟨p, h1, h2⟩ => ⟨h, p, h1, h2⟩⟩

example : ¬ (Edge.mk ⟨0, 0⟩ ⟨2, 2⟩ : Edge ℚ).Parallel ⟨⟨0, 2⟩, ⟨2, 0⟩⟩ := by
  unfold Edge.Parallel; norm_num

/-- C28: parallel edges are never reported. -/
theorem C28_parallel_never_reported (e f : Edge K) (h : e.Parallel f) : e.collidesEdge f = false := by
  rw [Bool.eq_false_iff, ne_eq, collidesEdge_iff]
  exact fun h' => h'.1 h

/-- C28: the test does not depend on the order of the edges. -/
theorem C28_edge_collides_comm (e f : Edge K) : e.collidesEdge f = f.collidesEdge e :=
  collidesEdge_symm e f

/-- C28: `collides_at` never panics, returns a location exactly when the edges
are reported as colliding, and the location is on both edges. -/
theorem C28_location_on_both (e f : Edge K) :
    ∃ o, e.collidesAt f = some o ∧ (o.isSome = e.collidesEdge f) ∧ ∀ p, o = some p → p ∈ e.pts ∧ p ∈ f.pts := by
  by_cases hp : e.Parallel f
  · refine ⟨none, ?_, ?_, by simp⟩
    · unfold Edge.collidesAt
      rw [edgeIntersection_parallel e f true hp]
    · rw [C28_parallel_never_reported e f hp]; rfl
  · exact collidesAt_spec e f hp

example : (Edge.mk ⟨0, 0⟩ ⟨2, 2⟩ : Edge ℚ).collidesAt ⟨⟨0, 2⟩, ⟨2, 0⟩⟩ = some (some ⟨1, 1⟩) := by
  decide +kernel

/-! ## C29 Rectangles -/

/-- C29: rectangle against point. -/
theorem C29_rect_point (r : AARect K) (p : Point K) : r.collidesPoint p = true ↔ p ∈ r.pts :=
  collidesPoint_iff r p

/-- C29: rectangle against rectangle. -/
theorem C29_rect_rect (a b : AARect K) : a.collidesRect b = true ↔ (a.pts ∩ b.pts).Nonempty :=
  rect_collidesRect_iff a b

/-- C29: rectangle against edge. -/
theorem C29_rect_edge (r : AARect K) (hv : r.Valid) (e : Edge K) :
    r.collidesEdge e = true ↔ (r.pts ∩ e.pts).Nonempty := by
  rw [rect_collidesEdge_iff r e hv]
  exact ⟨fun ⟨p, h1, h2⟩ => ⟨p, by tauto, by tauto⟩, fun ⟨p, h1, h2⟩ => ⟨p, by tauto, by tauto⟩⟩

example : (AARect.mk 0 0 2 2 : AARect ℚ).Valid ∧
    (AARect.mk 0 0 2 2 : AARect ℚ).collidesEdge ⟨⟨-1, 1⟩, ⟨3, 1⟩⟩ = true ∧
    (AARect.mk 0 0 2 2 : AARect ℚ).collidesEdge ⟨⟨-1, 2⟩, ⟨1, 4⟩⟩ = false := by
  refine ⟨?_, ?_, ?_⟩
  · unfold AARect.Valid; norm_num
  · decide +kernel
  · decide +kernel

/-- C29: the relation reported for two rectangles is the relation of their point
sets (`surrounding` wins when the rectangles are equal). -/
theorem C29_relation (a b : AARect K) (ha : a.Valid) (hb : b.Valid) :
    (a.relationTo b = .surrounding ↔ b.pts ⊆ a.pts) ∧
    (a.relationTo b = .enclosed ↔ a.pts ⊆ b.pts ∧ ¬ b.pts ⊆ a.pts) ∧
    (a.relationTo b = .disjoint ↔ a.pts ∩ b.pts = ∅) ∧
    (a.relationTo b = .intersecting ↔ (a.pts ∩ b.pts).Nonempty ∧ ¬ a.pts ⊆ b.pts ∧ ¬ b.pts ⊆ a.pts) := by
  have h1 := relationTo_surrounding_iff (a := a) hb
  have h2 : a.relationTo b = .disjoint ↔ ¬ (a.pts ∩ b.pts).Nonempty := relationTo_disjoint_iff
  have h3 : a.relationTo b = .enclosed ↔ a.pts ⊆ b.pts ∧ ¬ b.pts ⊆ a.pts := by
    constructor
    · intro h
      refine ⟨relationTo_enclosed h, fun h' => ?_⟩
      rw [h1.2 h'] at h
      cases h
    · rintro ⟨hs, hn⟩
      rw [← h1] at hn
      rw [pts_subset_iff ha] at hs
      have hc : a.collidesRect b = true := by
        rw [rect_collidesRect_iff]
        exact ⟨⟨a.xMin, a.yMin⟩, ⟨le_rfl, ha.1.le, le_rfl, ha.2.le⟩, hs.1, ha.1.le.trans hs.2.2.1, hs.2.1,
          ha.2.le.trans hs.2.2.2⟩
      unfold AARect.relationTo at hn ⊢
      rw [if_pos hc] at hn ⊢
      split at hn
      · simp at hn
      · rename_i h'
        rw [if_neg h', if_pos ⟨hs.1, hs.2.1, hs.2.2.1, hs.2.2.2⟩]
  refine ⟨h1, h3, by rw [h2, Set.not_nonempty_iff_eq_empty], ?_⟩
  cases hr : a.relationTo b <;> rw [hr] at h1 h2 h3 <;> simp only [reduceCtorEq, false_iff, true_iff,
    not_not, not_and] at * <;> tauto

/-- C29: with tolerance zero the tolerant relation is the exact one. -/
theorem C29_almost_relation_exact (a b : AARect K) : a.almostRelationTo Fpa.exact b = a.relationTo b :=
  almost_exact a b

example : (AARect.mk 0 0 4 4 : AARect ℚ).relationTo ⟨1, 1, 2, 2⟩ = .surrounding ∧
    (AARect.mk 0 0 4 4 : AARect ℚ).relationTo ⟨4, 4, 5, 5⟩ = .intersecting ∧
    (AARect.mk 0 0 4 4 : AARect ℚ).relationTo ⟨5, 4, 6, 5⟩ = .disjoint := by decide +kernel

/-! ## C30 Circles -/

/-- C30: circle against point. -/
theorem C30_circle_point (c : Circle K) (p : Point K) : c.collidesPoint p = true ↔ p ∈ c.pts :=
  circle_collidesPoint_iff c p

/-- C30: circle against edge. -/
theorem C30_circle_edge (c : Circle K) (e : Edge K) :
    c.collidesEdge e = true ↔ (e.pts ∩ c.pts).Nonempty := circle_collidesEdge_iff c e

/-- C30: circle against rectangle. -/
theorem C30_circle_rect (c : Circle K) (r : AARect K) (hv : r.Valid) :
    c.collidesRect r = true ↔ (r.pts ∩ c.pts).Nonempty := circle_collidesRect_iff c r hv.1.le hv.2.le

/-- C30: circle against circle. -/
theorem C30_circle_circle (a b : Circle K) (ha : 0 ≤ a.radius) (hb : 0 ≤ b.radius) :
    a.collidesCircle b = true ↔ (a.pts ∩ b.pts).Nonempty := circle_collidesCircle_iff a b ha hb

example : (Circle.mk ⟨0, 0⟩ 5 : Circle ℚ).collidesCircle ⟨⟨6, 8⟩, 5⟩ = true ∧
    (Circle.mk ⟨0, 0⟩ 5 : Circle ℚ).collidesEdge ⟨⟨5, -3⟩, ⟨5, 3⟩⟩ = true ∧
    (Circle.mk ⟨0, 0⟩ 5 : Circle ℚ).collidesEdge ⟨⟨6, -3⟩, ⟨6, 3⟩⟩ = false ∧
    (Circle.mk ⟨0, 0⟩ 5 : Circle ℚ).collidesRect ⟨3, 4, 5, 5⟩ = true ∧
    (Circle.mk ⟨0, 0⟩ 5 : Circle ℚ).collidesRect ⟨4, 4, 5, 5⟩ = false := by decide +kernel

/-! ## C31 Closest point -/

/-- C31: the closest point is on the edge and no point of the edge is closer;
the squared distance reported is the minimum. -/
theorem C31_closest_point (e : Edge K) (p : Point K) :
    e.closestPoint p ∈ e.pts ∧
    (∀ q ∈ e.pts, (p.x - (e.closestPoint p).x) ^ 2 + (p.y - (e.closestPoint p).y) ^ 2
      ≤ (p.x - q.x) ^ 2 + (p.y - q.y) ^ 2) ∧
    IsSqDist p e.pts (e.sqDistance p) :=
  ⟨closestPoint_mem e p, fun q hq => closestPoint_min e p q hq,
    ⟨_, closestPoint_mem e p, rfl⟩, fun q hq => closestPoint_min e p q hq⟩

example : (Edge.mk ⟨0, 0⟩ ⟨4, 0⟩ : Edge ℚ).closestPoint ⟨1, 3⟩ = ⟨1, 0⟩ ∧
    (Edge.mk ⟨0, 0⟩ ⟨4, 0⟩ : Edge ℚ).closestPoint ⟨7, 3⟩ = ⟨4, 0⟩ := by decide +kernel

/-! ## C32 Rectangle distances -/

/-- C32: `sq_distance` of a rectangle is the squared distance to the closed
rectangle. -/
theorem C32_rect_sq_distance (r : AARect K) (hv : r.Valid) (p : Point K) :
    IsSqDist p r.pts (r.sqDistance p) := by
  have e := rect_sqDistance_eq r hv p
  refine ⟨⟨⟨max r.xMin (min p.x r.xMax), max r.yMin (min p.y r.yMax)⟩,
    ⟨le_max_left _ _, max_le hv.1.le (min_le_right _ _), le_max_left _ _, max_le hv.2.le (min_le_right _ _)⟩, ?_⟩, ?_⟩
  · rw [e]; ring
  · rintro q ⟨h1, h2, h3, h4⟩
    have e1 := clamp_closest (x := p.x) ⟨h1, h2⟩
    have e2 := clamp_closest (x := p.y) ⟨h3, h4⟩
    rw [e]
    nlinarith

/-- C32 (partial): outside the rectangle `sq_distance_from_border` is the squared
distance to the border; inside, the returned value is the distance itself, not
its square. Missing: the value inside should be squared (see
`C32_inside_not_squared`); consequently `distance_from_border`, which takes the
square root of it, is wrong inside. -/
theorem C32_border_distance_partial (r : AARect K) (hv : r.Valid) (p : Point K) :
    (p ∉ r.pts → (r.sqDistanceFromBorder p).1 = .exterior ∧
      IsSqDist p r.border (r.sqDistanceFromBorder p).2) ∧
    (p ∈ r.pts → (r.sqDistanceFromBorder p).1 = .interior ∧ 0 ≤ (r.sqDistanceFromBorder p).2 ∧
      IsSqDist p r.border ((r.sqDistanceFromBorder p).2 ^ 2)) := by
  constructor
  · intro hp
    have hc : r.collidesPoint p = false := by rw [Bool.eq_false_iff, ne_eq, collidesPoint_iff]; exact hp
    unfold AARect.sqDistanceFromBorder
    simp only [hc, Bool.false_eq_true, if_false, true_and]
    exact rect_sqDistance_border r hv p hp
  · intro hp
    have hc : r.collidesPoint p = true := by rw [collidesPoint_iff]; exact hp
    unfold AARect.sqDistanceFromBorder
    simp only [hc, if_true, true_and]
    exact rect_inner_border r hv p hp

/-- C32 does not hold inside: a point at distance 2 from the border of a square
of side 4 gets the "squared" distance 2, although the squared distance is 4. -/
theorem C32_inside_not_squared :
    ((AARect.mk 0 0 4 4 : AARect ℚ).sqDistanceFromBorder ⟨2, 2⟩).2 = 2 ∧
    ¬ IsSqDist (⟨2, 2⟩ : Point ℚ) (AARect.mk 0 0 4 4).border
      ((AARect.mk 0 0 4 4 : AARect ℚ).sqDistanceFromBorder ⟨2, 2⟩).2 := by
  have h : ((AARect.mk 0 0 4 4 : AARect ℚ).sqDistanceFromBorder ⟨2, 2⟩).2 = 2 := by decide +kernel
  refine ⟨h, ?_⟩
  rw [h]
  rintro ⟨⟨q, ⟨⟨h1, h2, h3, h4⟩, hb⟩, hq⟩, _⟩
  simp only at *
  rcases hb with hb | hb | hb | hb <;> rw [hb] at hq <;> nlinarith [sq_nonneg (2 - q.x), sq_nonneg (2 - q.y)]

/-! ## C33 Quadrants -/

/-- C33: the quadrants cover the rectangle and nothing else. -/
theorem C33_quadrants_cover (r : AARect K) (hv : r.Valid) : (⋃ i, (r.quadrants i).pts) = r.pts := by
  ext p
  simp only [Set.mem_iUnion]
  exact ⟨fun ⟨i, h⟩ => quadrants_subset hv i h, fun h => quadrants_cover hv h⟩

/-- C33: different quadrants have disjoint interiors, and are congruent. -/
theorem C33_quadrants_disjoint (r : AARect K) (hv : r.Valid) :
    (∀ i j, i ≠ j → (r.quadrants i).inner ∩ (r.quadrants j).inner = ∅) ∧
    ∀ i, (r.quadrants i).width = r.width / 2 ∧ (r.quadrants i).height = r.height / 2 := by
  obtain ⟨h0, h1, h2, h3⟩ := quadrants_eq hv
  constructor
  · intro i j hij
    rw [Set.eq_empty_iff_forall_notMem]
    rintro p ⟨hp, hq⟩
    revert hij hp hq
    fin_cases i <;> fin_cases j <;> intro hij hp hq <;> simp only [Fin.zero_eta, Fin.mk_one, Fin.reduceFinMk,
      ne_eq, not_true_eq_false, h0, h1, h2, h3, AARect.inner, Set.mem_ofPred_eq] at hij hp hq <;>
      linarith [hp.1, hp.2.1, hp.2.2.1, hp.2.2.2, hq.1, hq.2.1, hq.2.2.1, hq.2.2.2]
  · intro i
    fin_cases i <;> simp only [Fin.zero_eta, Fin.mk_one, Fin.reduceFinMk, AARect.width, AARect.height, h0, h1, h2, h3] <;>
      constructor <;> ring

/-- Two rectangles share a side: their common points are exactly a segment of
positive length (not just a corner, and not an area). -/
def ShareSide (a b : AARect K) : Prop :=
  a.inner ∩ b.inner = ∅ ∧ ∃ p q, p ≠ q ∧ a.pts ∩ b.pts = segPts p q

/-- C33: the neighbour table lists exactly the quadrants sharing a side. -/
theorem C33_neighbour_table (r : AARect K) (hv : r.Valid) (i j : Fin 4) (hij : i ≠ j) :
    ShareSide (r.quadrants i) (r.quadrants j) ↔
      ((AARect.quadrantNeighborLayout i).1 = j ∨ (AARect.quadrantNeighborLayout i).2 = j) := by
  have hint := (C33_quadrants_disjoint r hv).1 i j hij
  unfold ShareSide
  rw [and_iff_right hint]
  exact shareSide_iff hv i j hij

/-- C33: inflating to a square contains the original rectangle, is square and
keeps the centre. -/
theorem C33_inflate (r : AARect K) :
    r.pts ⊆ r.inflateToSquare.pts ∧ r.inflateToSquare.width = r.inflateToSquare.height ∧
    r.inflateToSquare.centroid = r.centroid := by
  refine ⟨inflate_contains r, inflate_square r, ?_⟩
  unfold AARect.inflateToSquare AARect.centroid
  dsimp only
  congr 1 <;> ring

example : (AARect.mk 0 0 4 2 : AARect ℚ).Valid ∧ (AARect.mk 0 0 4 2 : AARect ℚ).inflateToSquare = ⟨0, -1, 4, 3⟩ ∧
    (AARect.mk 0 0 4 2 : AARect ℚ).quadrants 1 = ⟨0, 1, 2, 2⟩ := by
  refine ⟨?_, ?_, ?_⟩
  · unfold AARect.Valid; norm_num
  · decide +kernel
  · decide +kernel

end Jagua
