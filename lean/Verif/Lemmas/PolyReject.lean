import Verif.Lemmas.PolyCollides
import Verif.Lemmas.Transf

/-! # A rejection by the polygon query is justified, with few assumptions on the shapes; surrogates -/

set_option linter.unusedSectionVars false

namespace Jagua

variable {K : Type*} [Field K] [LinearOrder K] [IsStrictOrderedRing K] {n : ℕ}

theorem collides_region {s : SPoly K} (hs : s.WF) {p : Point K} (h : s.collidesPoint Fpa.exact p = true) : p ∈ region s.points := by
  by_cases hp : p ∈ bdry s.points
  · exact .inl hp
  · exact .inr ((SPoly.collidesPoint_iff hs hp).1 h)

theorem inclusionTest_closed {s : SPoly K} (hs : s.WF) {p : Point K} {pos : GeoPosition}
    (h : CDE.inclusionTest Fpa.exact pos s p = true) : p ∈ closedHaz pos s.points := by
  by_cases hp : p ∈ bdry s.points
  · exact .inl hp
  · exact .inr ((inclusionTest_iff hs hp).1 h)

/-- A polygon whose box sticks out of the box of an outline has a vertex that is not inside the outline. -/
theorem vertex_not_inside {s b : SPoly K} (hs : s.WF) (hb : b.WF)
    (h : b.bbox.xMin < s.bbox.xMin → s.bbox.xMax < b.bbox.xMax → b.bbox.yMin < s.bbox.yMin → b.bbox.yMax ≤ s.bbox.yMax) :
    ∃ w ∈ bdry s.points, w ∈ closedHaz .exterior b.points := by
  have hat := boundingBox_attained hs.nonempty
  rw [← hs.bbox_eq] at hat
  obtain ⟨⟨p1, m1, e1⟩, ⟨p2, m2, e2⟩, ⟨p3, m3, e3⟩, ⟨p4, m4, e4⟩⟩ := hat
  have key : ∀ p : Point K, p ∉ interior b.points → p ∈ closedHaz .exterior b.points := by
    intro p hp
    by_cases hb' : p ∈ bdry b.points
    · exact .inl hb'
    · exact .inr fun hr => hr.elim hb' hp
  have inn : ∀ p ∈ interior b.points, b.bbox.xMin < p.x ∧ p.x < b.bbox.xMax ∧ b.bbox.yMin < p.y ∧ p.y < b.bbox.yMax := by
    intro p hp
    rw [hb.bbox_eq]
    exact interior_subset_inner hp
  by_contra hall
  push Not at hall
  have q : ∀ p ∈ s.points, p ∈ interior b.points := by
    intro p hp
    by_contra hn
    exact hall p (vertex_mem_bdry hp) (key p hn)
  have i1 := inn _ (q p1 m1)
  have i2 := inn _ (q p2 m2)
  have i3 := inn _ (q p3 m3)
  have i4 := inn _ (q p4 m4)
  rw [e1] at i1
  rw [e2] at i2
  rw [e3] at i3
  rw [e4] at i4
  exact absurd i4.2.2.2 (not_lt.2 (h i1.1 i3.2.1 i2.2.2.1))

/-- A positive containment test has a witness, whether or not the outlines touch. -/
theorem CDE.Inv.containedTest_sound {c : CDE K n} (hi : c.Inv Fpa.exact) (hg : c.Good) {h : Hazard K}
    (hh : h ∈ c.allHazards) (hP : h.entity.position = .interior → h.shape.val.poi.center ∈ region h.shape.val.points)
    {s : SPoly K} (hs : s.WF) (hpoi : s.poi.center ∈ region s.points) (ht : c.containedTest Fpa.exact s h = some true) :
    ∃ w ∈ region s.points, w ∈ closedHaz h.entity.position h.shape.val.points := by
  have hw := hg.shapes h hh
  have out : h.entity.position = .exterior → ¬ s.bbox.pts ⊆ h.shape.val.bbox.pts ∨ h.shape.val.bbox.pts ⊆ s.bbox.pts →
      ∃ w ∈ region s.points, w ∈ closedHaz h.entity.position h.shape.val.points := by
    intro hpos hx
    obtain ⟨w, h1, h2⟩ := vertex_not_inside hs hw (by
      intro a1 a2 a3
      rw [pts_subset_iff hs.bbox_valid, pts_subset_iff hw.bbox_valid] at hx
      rcases hx with hx | hx
      · by_contra h4
        push Not at h4
        exact hx ⟨a1.le, a3.le, a2.le, h4.le⟩
      · exact absurd hx.1 (not_le.2 a1))
    exact ⟨w, .inl h1, by rw [hpos]; exact h2⟩
  unfold CDE.containedTest at ht
  rw [almost_exact] at ht
  cases hrel : h.shape.val.bbox.relationTo s.bbox with
  | surrounding =>
    rw [hrel] at ht
    dsimp only at ht
    rw [(hi.definitelyWith _ h.entity).2 h hh rfl] at ht
    have hq : ∀ r : AARect K, r.Valid → (r.collidesPoint s.poi.center = true ↔ ∃ q ∈ ({s.poi.center} : Set (Point K)), q ∈ r.pts) := by
      intro r _
      rw [collidesPoint_iff]
      simp
    refine ⟨s.poi.center, hpoi, ?_⟩
    cases hd : def1 Fpa.exact (fun r => r.collidesPoint s.poi.center) n c.bbox (QTHazard.ofHazard h) with
    | true =>
      obtain ⟨w, hw', hw''⟩ := def1_true hq hw n hg.box (hg.geo h) (hg.fit hh) hd
      rw [Set.mem_singleton_iff] at hw'
      subst hw'
      exact .inr hw''
    | false => rw [hd] at ht; simp at ht
    | indeterminate =>
      rw [hd] at ht
      exact inclusionTest_closed hw (Option.some.inj ht)
  | enclosed =>
    rw [hrel] at ht
    cases hpos : h.entity.position with
    | exterior =>
      rw [← hpos]
      exact out hpos (.inr (relationTo_enclosed hrel))
    | interior =>
      rw [hpos] at ht
      have := Option.some.inj ht
      exact ⟨_, collides_region hs this, hP hpos⟩
  | disjoint =>
    rw [hrel] at ht
    cases hpos : h.entity.position with
    | interior => rw [hpos] at ht; simp at ht
    | exterior =>
      rw [← hpos]
      refine out hpos (.inl fun hsub => ?_)
      rw [(relationTo_surrounding_iff hs.bbox_valid).2 hsub] at hrel
      cases hrel
  | intersecting =>
    rw [hrel] at ht
    cases hpos : h.entity.position with
    | interior => rw [hpos] at ht; simp at ht
    | exterior =>
      rw [← hpos]
      refine out hpos (.inl fun hsub => ?_)
      rw [(relationTo_surrounding_iff hs.bbox_valid).2 hsub] at hrel
      cases hrel

theorem CDE.Inv.polyCollides_sound {c : CDE K n} (hi : c.Inv Fpa.exact) (hg : c.Good) {s : SPoly K} (hs : s.WF)
    (hpoi : s.poi.center ∈ region s.points) {irr : List (HazardEntity K)}
    (hP : ∀ h ∈ c.allHazards, h.entity.position = .interior → h.shape.val.poi.center ∈ region h.shape.val.points)
    (h : c.polyCollides Fpa.exact s irr = some true) :
    ¬ s.bbox.pts ⊆ c.bbox.pts ∨
      ∃ h ∈ c.allHazards, h.entity ∉ irr ∧ ∃ w ∈ region s.points, w ∈ closedHaz h.entity.position h.shape.val.points := by
  by_cases hsub : s.bbox.pts ⊆ c.bbox.pts
  · right
    unfold CDE.polyCollides at h
    rw [(relationTo_surrounding_iff (a := c.bbox) hs.bbox_valid).2 hsub] at h
    obtain ⟨b1, e1, s1⟩ := hi.byEdge s irr
    obtain ⟨b2, e2, s2⟩ := hi.byContainment s irr
    dsimp only at h
    rw [e1, e2] at h
    cases b1 with
    | true =>
      obtain ⟨e, he, h, hh, hirr, hc⟩ := s1.1 rfl
      obtain ⟨w, hw, hw'⟩ := hg.sound hh (queryOK_edge e) hc
      exact ⟨h, hh, hirr, w, .inl (mem_bdry_iff.2 ⟨e, he, hw⟩), hw'⟩
    | false =>
      obtain ⟨h', hh, -, hirr, ht⟩ := s2.1 (Option.some.inj h)
      exact ⟨h', hh, hirr, hi.containedTest_sound hg hh (hP h' hh) hs hpoi ht⟩
  · exact .inl hsub

/-! ## Surrogates -/

/-- The poles and piers lie in the closed region of the polygon. -/
def SurrogateInside (poles : List (Circle K)) (piers : List (Edge K)) (pts : List (Point K)) : Prop :=
  (∀ c ∈ poles, c.pts ⊆ region pts) ∧ ∀ e ∈ piers, e.pts ⊆ region pts

theorem CDE.Inv.surrogate_sound {c : CDE K n} (hi : c.Inv Fpa.exact) (hg : c.Good) {poles : List (Circle K)}
    {piers : List (Edge K)} {pts : List (Point K)} (hin : SurrogateInside poles piers pts) {irr : List (HazardEntity K)}
    (h : c.surrogateCollides poles piers irr = some true) :
    ∃ h ∈ c.allHazards, h.entity ∉ irr ∧ ∃ w ∈ region pts, w ∈ closedHaz h.entity.position h.shape.val.points := by
  obtain ⟨b, hb, hb'⟩ := hi.surrogate poles piers irr
  rw [h] at hb
  rcases hb'.1 (Option.some.inj hb).symm with ⟨p, hp, x, hx, hirr, hc⟩ | ⟨p, hp, x, hx, hirr, hc⟩
  · obtain ⟨w, hw, hw'⟩ := hg.sound hx (queryOK_circle p) hc
    exact ⟨x, hx, hirr, w, hin.1 p hp hw, hw'⟩
  · obtain ⟨w, hw, hw'⟩ := hg.sound hx (queryOK_edge p) hc
    exact ⟨x, hx, hirr, w, hin.2 p hp hw, hw'⟩

theorem Transf.IsRigid.circle {t : Transf K} (ht : t.IsRigid) (c : Circle K) (p : Point K) :
    p.transform t ∈ (c.transform t).pts ↔ p ∈ c.pts := by
  have e1 := ht.map.dx c.center p
  have e2 := ht.map.dy c.center p
  have hu := ht.map.unit
  show ((p.transform t).x - (c.center.transform t).x) ^ 2 + ((p.transform t).y - (c.center.transform t).y) ^ 2 ≤ c.radius ^ 2 ↔
    (p.x - c.center.x) ^ 2 + (p.y - c.center.y) ^ 2 ≤ c.radius ^ 2
  rw [e1, e2]
  have : (t.m00 * (p.x - c.center.x) - t.m10 * (p.y - c.center.y)) ^ 2 + (t.m10 * (p.x - c.center.x) + t.m00 * (p.y - c.center.y)) ^ 2 =
      (p.x - c.center.x) ^ 2 + (p.y - c.center.y) ^ 2 := by
    linear_combination ((p.x - c.center.x) ^ 2 + (p.y - c.center.y) ^ 2) * hu
  rw [this]

/-- A surrogate inside its polygon stays inside when both are moved. -/
theorem SurrogateInside.transform {poles : List (Circle K)} {piers : List (Edge K)} {pts : List (Point K)}
    (h : SurrogateInside poles piers pts) {t : Transf K} (ht : t.IsRigid) :
    SurrogateInside (poles.map (·.transform t)) (piers.map (·.transform t)) (pts.map (·.transform t)) := by
  constructor
  · intro c hc p hp
    obtain ⟨c, hc', rfl⟩ := List.mem_map.1 hc
    obtain ⟨q, rfl⟩ := ht.map.surjective p
    exact ht.map.region.2 (h.1 c hc' ((ht.circle c q).1 hp))
  · intro e he p hp
    obtain ⟨e, he', rfl⟩ := List.mem_map.1 he
    obtain ⟨q, rfl⟩ := ht.map.surjective p
    exact ht.map.region.2 (h.2 e he' (ht.map.seg.1 hp))

end Jagua
