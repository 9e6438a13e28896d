import Verif.Lemmas.CDEGeo
import Verif.Lemmas.Regions

/-! # The polygon collision query decides whether regions meet -/

set_option linter.unusedSectionVars false

namespace Jagua

variable {K : Type*} [Field K] [LinearOrder K] [IsStrictOrderedRing K] {n : ℕ}

theorem SIn.not_subset {a b : AARect K} (h : a.SIn b) : ¬ b.pts ⊆ a.pts ∨ ¬ b.Valid := by
  by_cases hv : b.Valid
  · left
    intro hs
    have := hs (show (⟨b.xMin, b.yMin⟩ : Point K) ∈ b.pts from ⟨le_refl _, hv.1.le, le_refl _, hv.2.le⟩)
    exact absurd this.1 (not_le.2 h.1)
  · exact .inr hv

theorem region_of_collides {s : SPoly K} (hs : s.WF) {p : Point K} (hp : p ∉ bdry s.points) :
    (s.collidesPoint Fpa.exact p = true) ↔ p ∈ region s.points := by
  rw [SPoly.collidesPoint_iff hs hp]
  exact ⟨.inr, fun h => h.resolve_left hp⟩

theorem inclusionTest_iff {s : SPoly K} (hs : s.WF) {p : Point K} (hp : p ∉ bdry s.points) {pos : GeoPosition} :
    CDE.inclusionTest Fpa.exact pos s p = true ↔ p ∈ openHaz pos s.points := by
  rw [openHaz_iff hp]
  unfold CDE.inclusionTest
  cases pos with
  | interior => exact SPoly.collidesPoint_iff hs hp
  | exterior =>
    simp only [Bool.not_eq_true']
    rw [← SPoly.collidesPoint_iff hs hp]
    simp

/-- What the inner point of the shape says about a hazard around it. -/
theorem CDE.Inv.poiTest {c : CDE K n} (hi : c.Inv Fpa.exact) (hg : c.Good) {h : Hazard K} (hh : h ∈ c.allHazards)
    {p : Point K} (hp : p ∉ bdry h.shape.val.points) (hpb : p ∈ c.bbox.pts) :
    (match c.tree.definitelyCollidesWith (fun r => r.collidesPoint p) h.entity with
    | none => none
    | some .true => some true
    | some .false => some false
    | some .indeterminate => some (CDE.inclusionTest Fpa.exact h.entity.position h.shape.val p)) = some true ↔
    p ∈ openHaz h.entity.position h.shape.val.points := by
  rw [(hi.definitelyWith _ h.entity).2 h hh rfl]
  have hq : ∀ r : AARect K, r.Valid → (r.collidesPoint p = true ↔ ∃ q ∈ ({p} : Set (Point K)), q ∈ r.pts) := by
    intro r _
    rw [collidesPoint_iff]
    simp
  cases hd : def1 Fpa.exact (fun r => r.collidesPoint p) n c.bbox (QTHazard.ofHazard h) with
  | true =>
    obtain ⟨w, hw, hw'⟩ := def1_true hq (hg.shapes h hh) n hg.box (hg.geo h) (hg.fit hh) hd
    rw [Set.mem_singleton_iff] at hw
    subst hw
    exact iff_of_true rfl hw'
  | false =>
    refine iff_of_false (by simp) ?_
    exact def1_false hq (hg.shapes h hh) n hg.box (hg.geo h) (hg.fit hh) hd p rfl hpb
  | indeterminate =>
    simp only [Option.some.injEq]
    exact inclusionTest_iff (hg.shapes h hh) hp

/-- If the outlines do not touch, the containment test decides whether the
closed shape meets the closed forbidden region. -/
theorem CDE.Inv.containedTest_iff {c : CDE K n} (hi : c.Inv Fpa.exact) (hg : c.Good) {h : Hazard K}
    (hh : h ∈ c.allHazards) (hP : h.shape.val.Proper) {s : SPoly K} (hs : s.Proper) (hb : s.bbox.pts ⊆ c.bbox.pts)
    (hd : ∀ v ∈ bdry s.points, v ∉ bdry h.shape.val.points) :
    c.containedTest Fpa.exact s h = some true ↔
      ∃ w ∈ region s.points, w ∈ closedHaz h.entity.position h.shape.val.points := by
  set A := s.points with hA
  set B := h.shape.val.points with hB
  have hAne : A ≠ [] := hs.wf.nonempty
  have hBne : B ≠ [] := hP.wf.nonempty
  have eA : s.bbox = boundingBox A := hs.wf.bbox_eq
  have eB : h.shape.val.bbox = boundingBox B := hP.wf.bbox_eq
  have vA := hs.wf.bbox_valid
  have vB := hP.wf.bbox_valid
  obtain ⟨a, ha⟩ : ∃ a, a ∈ bdry A := by
    obtain ⟨a, l, he⟩ := List.exists_cons_of_ne_nil hAne
    exact ⟨a, vertex_mem_bdry (by rw [he]; simp)⟩
  obtain ⟨b, hbB⟩ : ∃ b, b ∈ bdry B := by
    obtain ⟨b, l, he⟩ := List.exists_cons_of_ne_nil hBne
    exact ⟨b, vertex_mem_bdry (by rw [he]; simp)⟩
  have hpoiA : s.poi.center ∈ c.bbox.pts := by
    apply hb
    rw [eA]
    have := interior_subset_inner hs.poi
    exact ⟨this.1.le, this.2.1.le, this.2.2.1.le, this.2.2.2.le⟩
  -- what the three possible situations mean for the specification
  have trich := nested_or_disjoint hAne hBne hd
  unfold CDE.containedTest
  rw [almost_exact]
  cases hrel : h.shape.val.bbox.relationTo s.bbox with
  | surrounding =>
    have hsub := (relationTo_surrounding_iff vA).1 hrel
    have hno2 : ¬ (∀ v ∈ bdry B, v ∈ interior A) := by
      intro hall
      have := bbox_inside hBne hall
      rw [← eA, ← eB] at this
      rcases SIn.not_subset this with h | h
      · exact h hsub
      · exact h vA
    have hpoi : s.poi.center ∉ bdry B := by
      rcases trich with ⟨_, _, h3⟩ | ⟨h1, _⟩ | h3
      · exact fun hx => h3 _ hx (.inr hs.poi)
      · exact absurd h1 hno2
      · exact fun hx => h3 _ (.inr hs.poi) (.inl hx)
    refine (hi.poiTest hg hh hpoi hpoiA).trans ?_
    constructor
    · intro hx; exact ⟨_, .inr hs.poi, .inr hx⟩
    · rintro ⟨w, hw, hw'⟩
      rw [openHaz_iff hpoi]
      rcases trich with ⟨h1, h2, h3⟩ | ⟨h1, _⟩ | h3
      · cases hpos : h.entity.position with
        | interior => exact h2 hs.poi
        | exterior =>
          exfalso
          rw [hpos] at hw'
          have hwB : w ∈ interior B := by
            rcases hw with hw | hw
            · exact h1 w hw
            · exact h2 hw
          rcases hw' with hw' | hw'
          · exact hwB.1 hw'
          · exact hw' (.inr hwB)
      · exact absurd h1 hno2
      · cases hpos : h.entity.position with
        | interior =>
          exfalso
          rw [hpos] at hw'
          exact h3 w hw hw'
        | exterior => exact fun hx => h3 _ (.inr hs.poi) (.inr hx)
  | enclosed =>
    have hsub : h.shape.val.bbox.pts ⊆ s.bbox.pts := relationTo_enclosed hrel
    have hno1 : ¬ (∀ v ∈ bdry A, v ∈ interior B) := by
      intro hall
      have := bbox_inside hAne hall
      rw [← eA, ← eB] at this
      rcases SIn.not_subset this with h | h
      · exact h hsub
      · exact h vB
    have hpoi : h.shape.val.poi.center ∉ bdry A := by
      rcases trich with ⟨h1, _⟩ | ⟨_, _, h3⟩ | h3
      · exact absurd h1 hno1
      · exact fun hx => h3 _ hx (.inr hP.poi)
      · exact fun hx => h3 _ (.inl hx) (.inr hP.poi)
    dsimp only
    rw [Option.some.injEq, inclusionTest_iff hs.wf hpoi, openHaz_iff hpoi]
    rcases trich with ⟨h1, _⟩ | ⟨h1, h2, h3⟩ | h3
    · exact absurd h1 hno1
    · cases hpos : h.entity.position with
      | interior => exact iff_of_true (h2 hP.poi) ⟨b, .inr (h1 b hbB), .inl hbB⟩
      | exterior =>
        exfalso
        have hin := bbox_inside hBne h1
        rw [← eA, ← eB] at hin
        have hc := (pts_subset_iff vA).1 hb
        have hf := hg.fits h hh hpos
        unfold AARect.width AARect.height at hf
        obtain ⟨i1, i2, i3, i4⟩ := hin
        obtain ⟨c1, c2, c3, c4⟩ := hc
        rcases hf with hf | hf <;> linarith
    · cases hpos : h.entity.position with
      | interior =>
        refine iff_of_false (fun hx => h3 _ (.inr hx) (.inr hP.poi)) ?_
        rintro ⟨w, hw, hw'⟩
        exact h3 w hw hw'
      | exterior =>
        refine iff_of_true (fun hx => h3 _ (.inr hx) (.inr hP.poi)) ⟨a, .inl ha, .inr (h3 a (.inl ha))⟩
  | disjoint =>
    have hnx := relationTo_disjoint_iff.1 hrel
    have h3 : ∀ v ∈ region A, v ∉ region B := by
      have inbox : ∀ {pts : List (Point K)} {v}, v ∈ region pts → v ∈ (boundingBox pts).pts := by
        rintro pts v (hv | hv)
        · exact bdry_subset_bbox hv
        · have := interior_subset_inner hv
          exact ⟨this.1.le, this.2.1.le, this.2.2.1.le, this.2.2.2.le⟩
      intro v hv hv'
      exact hnx ⟨v, by rw [eB]; exact inbox hv', by rw [eA]; exact inbox hv⟩
    cases hpos : h.entity.position with
    | interior =>
      refine iff_of_false (by simp) ?_
      rintro ⟨w, hw, hw'⟩
      exact h3 w hw hw'
    | exterior => exact iff_of_true rfl ⟨a, .inl ha, .inr (h3 a (.inl ha))⟩
  | intersecting =>
    have hnB : ¬ s.bbox.pts ⊆ h.shape.val.bbox.pts := by
      intro hsub
      rw [(relationTo_surrounding_iff vA).2 hsub] at hrel
      cases hrel
    have hnA : ¬ h.shape.val.bbox.pts ⊆ s.bbox.pts := by
      intro hsub
      rw [pts_subset_iff vB] at hsub
      rw [pts_subset_iff vA] at hnB
      unfold AARect.relationTo at hrel
      split_ifs at hrel
    have sub_of : ∀ {x y : AARect K}, x.SIn y → x.pts ⊆ y.pts := by
      rintro x y ⟨h1, h2, h3, h4⟩ p ⟨p1, p2, p3, p4⟩
      exact ⟨h1.le.trans p1, p2.trans h2.le, h3.le.trans p3, p4.trans h4.le⟩
    have hno1 : ¬ (∀ v ∈ bdry A, v ∈ interior B) := by
      intro hall
      have := bbox_inside hAne hall
      rw [← eA, ← eB] at this
      exact hnB (sub_of this)
    have hno2 : ¬ (∀ v ∈ bdry B, v ∈ interior A) := by
      intro hall
      have := bbox_inside hBne hall
      rw [← eA, ← eB] at this
      exact hnA (sub_of this)
    have h3 : ∀ v ∈ region A, v ∉ region B := by
      rcases trich with ⟨h1, _⟩ | ⟨h1, _⟩ | h3
      · exact absurd h1 hno1
      · exact absurd h1 hno2
      · exact h3
    cases hpos : h.entity.position with
    | interior =>
      refine iff_of_false (by simp) ?_
      rintro ⟨w, hw, hw'⟩
      exact h3 w hw hw'
    | exterior => exact iff_of_true rfl ⟨a, .inl ha, .inr (h3 a (.inl ha))⟩

/-- If no edge of the shape is reported to hit a hazard, touching sides are parallel. -/
theorem CDE.Inv.touchParallel {c : CDE K n} (hg : c.Good) {h : Hazard K} (hh : h ∈ c.allHazards)
    {s : SPoly K} (hs : s.WF) (hb : s.bbox.pts ⊆ c.bbox.pts)
    (hn : ∀ e ∈ s.edges, coll1 Fpa.exact e.toQuery n c.bbox (QTHazard.ofHazard h) ≠ true) :
    TouchParallel s.points h.shape.val.points := by
  rintro a ha b hb' ⟨p, hp1, hp2⟩
  by_contra hpar
  have he : (⟨a.1, a.2⟩ : Edge K) ∈ s.edges := mem_polyEdges.2 ha
  have he' : (⟨b.1, b.2⟩ : Edge K) ∈ h.shape.val.edges := mem_polyEdges.2 hb'
  refine hn _ he (hg.complete hh (queryOK_edge _) he' ((collidesEdge_iff _ _).2 ⟨hpar, p, hp1, hp2⟩) hp1 hp2 ?_)
  apply hb
  rw [hs.bbox_eq]
  exact bdry_subset_bbox ⟨a, ha, hp1⟩

/-- The polygon query decides whether the closed shape leaves the engine's box or
meets the closed forbidden region of a relevant hazard. -/
theorem CDE.Inv.polyCollides_iff {c : CDE K n} (hi : c.Inv Fpa.exact) (hg : c.Good)
    {s : SPoly K} (hs : s.Proper) {irr : List (HazardEntity K)}
    (hP : ∀ h ∈ c.allHazards, h.entity ∉ irr → h.shape.val.Proper) :
    ∃ b, c.polyCollides Fpa.exact s irr = some b ∧ (b = true ↔ ¬ s.bbox.pts ⊆ c.bbox.pts ∨
      ∃ h ∈ c.allHazards, h.entity ∉ irr ∧ ∃ w ∈ region s.points, w ∈ closedHaz h.entity.position h.shape.val.points) := by
  have vA := hs.wf.bbox_valid
  by_cases hsub : s.bbox.pts ⊆ c.bbox.pts
  · have hrel := (relationTo_surrounding_iff (a := c.bbox) vA).2 hsub
    unfold CDE.polyCollides
    rw [hrel]
    obtain ⟨b1, e1, s1⟩ := hi.byEdge s irr
    obtain ⟨b2, e2, s2⟩ := hi.byContainment s irr
    dsimp only
    rw [e1, e2]
    cases b1 with
    | true =>
      refine ⟨true, rfl, iff_of_true rfl (.inr ?_)⟩
      obtain ⟨e, he, h, hh, hirr, hc⟩ := s1.1 rfl
      obtain ⟨w, hw, hw'⟩ := hg.sound hh (queryOK_edge e) hc
      exact ⟨h, hh, hirr, w, .inl (mem_bdry_iff.2 ⟨e, he, hw⟩), hw'⟩
    | false =>
      refine ⟨b2, rfl, ?_⟩
      have key : ∀ h ∈ c.allHazards, h.entity ∉ irr → (c.containedTest Fpa.exact s h = some true ↔
          ∃ w ∈ region s.points, w ∈ closedHaz h.entity.position h.shape.val.points) := by
        intro h hh hirr
        apply hi.containedTest_iff hg hh (hP h hh hirr) hs hsub
        apply bdry_disjoint hs.noSpike (hP h hh hirr).noSpike
        apply CDE.Inv.touchParallel hg hh hs.wf hsub
        intro e he hc
        have := s1.2 ⟨e, he, h, hh, hirr, hc⟩
        simp at this
      rw [s2]
      constructor
      · rintro ⟨h, hh, -, hirr, ht⟩
        exact .inr ⟨h, hh, hirr, (key h hh hirr).1 ht⟩
      · rintro (hx | ⟨h, hh, hirr, hx⟩)
        · exact absurd hsub hx
        · exact ⟨h, hh, hg.active h hh, hirr, (key h hh hirr).2 hx⟩
  · refine ⟨true, ?_, iff_of_true rfl (.inl hsub)⟩
    unfold CDE.polyCollides
    cases hrel : c.bbox.relationTo s.bbox with
    | surrounding => exact absurd ((relationTo_surrounding_iff vA).1 hrel) hsub
    | _ => rfl

end Jagua
