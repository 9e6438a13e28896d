import Verif.Lemmas.ToleranceTree

/-! # The polygon query with a tolerance -/

set_option linter.unusedSectionVars false

namespace Jagua

variable {K : Type*} [Field K] [LinearOrder K] [IsStrictOrderedRing K] {n : ℕ}

theorem SPoly.Roomy.of_disc {s : SPoly K} {ε : K} (h : s.poi.pts ⊆ region s.points) (hr : 2 * ε ^ 2 ≤ s.poi.radius ^ 2) : s.Roomy ε := by
  rintro w ⟨h1, h2⟩
  apply h
  have e1 := sq_le_sq' (by linarith [abs_nonneg (w.x - s.poi.center.x)]) h1
  have e2 := sq_le_sq' (by linarith [abs_nonneg (w.y - s.poi.center.y)]) h2
  rw [sq_abs] at e1 e2
  show _ ≤ _
  linarith

theorem Fpa.Tolerant.le_false {f : Fpa K} {M ε a b : K} (hf : f.Tolerant M ε) (h : f.le a b = false) : b < a := by
  unfold Fpa.le at h
  simp only [Bool.or_eq_false_iff, decide_eq_false_iff_not, not_lt] at h
  refine lt_of_le_of_ne h.2 fun he => ?_
  rw [he] at h
  rw [hf.refl] at h
  exact absurd h.1 (by simp)

theorem Fpa.le_of_lt (f : Fpa K) {a b : K} (h : a < b) : f.le a b = true := by
  unfold Fpa.le
  simp [h]

theorem Fpa.Tolerant.near_of_le {f : Fpa K} {M ε a b : K} (hf : f.Tolerant M ε) (ha : |a| ≤ M) (hb : |b| ≤ M)
    (h : f.le a b = true) (hlt : b < a) : a - b ≤ ε := by
  unfold Fpa.le at h
  simp only [Bool.or_eq_true, decide_eq_true_eq] at h
  rcases h with h | h
  · exact (le_abs_self _).trans (hf.near a b ha hb h)
  · exact absurd h (not_lt.2 hlt.le)

theorem inclusionTest_tolerant {f : Fpa K} {M ε : K} (hf : f.Tolerant M ε) (h0 : 0 ≤ ε) {s : SPoly K} (hs : s.WF)
    (hb : Bounded s.points M) {p : Point K} (hp : ∀ w ∈ bdry s.points, w ∉ around p ε) {pos : GeoPosition} :
    CDE.inclusionTest f pos s p = true ↔ p ∈ openHaz pos s.points := by
  rw [openHaz_iff fun h => hp p h (around_self p h0)]
  unfold CDE.inclusionTest
  cases pos with
  | interior => exact SPoly.collidesPoint_tolerant hf h0 hs hb hp
  | exterior =>
    simp only [Bool.not_eq_true']
    rw [← SPoly.collidesPoint_tolerant hf h0 hs hb hp]
    simp

/-- What the inner point of the shape says about a hazard around it. -/
theorem CDE.Inv.poiTest_tolerant {f : Fpa K} {M ε : K} (hf : f.Tolerant M ε) (h0 : 0 ≤ ε) {c : CDE K n} (hi : c.Inv f) (hg : c.Good)
    (hw : ε * 2 ^ (n + 1) ≤ c.bbox.width) (hh' : ε * 2 ^ (n + 1) ≤ c.bbox.height) {h : Hazard K} (hh : h ∈ c.allHazards)
    (hb : Bounded h.shape.val.points M) {p : Point K} (hp : ∀ w ∈ bdry h.shape.val.points, w ∉ around p ε) (hpb : p ∈ c.bbox.pts) :
    (match c.tree.definitelyCollidesWith (fun r => r.collidesPoint p) h.entity with
    | none => none
    | some .true => some true
    | some .false => some false
    | some .indeterminate => some (CDE.inclusionTest f h.entity.position h.shape.val p)) = some true ↔
    p ∈ openHaz h.entity.position h.shape.val.points := by
  rw [(hi.definitelyWith _ h.entity).2 h hh rfl,
    def1_tolerant hf h0 (hg.shapes h hh) hb _ n hg.box hw hh' (hg.geo h) (hg.fit hh)]
  have hq : ∀ r : AARect K, r.Valid → (r.collidesPoint p = true ↔ ∃ q ∈ ({p} : Set (Point K)), q ∈ r.pts) := by
    intro r _
    rw [collidesPoint_iff]
    simp
  cases hd : def1 Fpa.exact (fun r => r.collidesPoint p) n c.bbox (QTHazard.ofHazard h) with
  | true =>
    obtain ⟨w, hw, hw'⟩ := def1_true hq (hg.shapes h hh) n hg.box (hg.geo h) (hg.fit hh) hd
    rw [Set.mem_singleton_iff] at hw
    subst hw
    exact iff_of_true rfl hw'
  | false =>
    refine iff_of_false (by simp) ?_
    exact def1_false hq (hg.shapes h hh) n hg.box (hg.geo h) (hg.fit hh) hd p rfl hpb
  | indeterminate =>
    simp only [Option.some.injEq]
    exact inclusionTest_tolerant hf h0 (hg.shapes h hh) hb hp

theorem Bounded.box {pts : List (Point K)} {M : K} (h : Bounded pts M) (hne : pts ≠ []) :
    |(boundingBox pts).xMin| ≤ M ∧ |(boundingBox pts).yMin| ≤ M ∧ |(boundingBox pts).xMax| ≤ M ∧ |(boundingBox pts).yMax| ≤ M := by
  obtain ⟨⟨p1, m1, e1⟩, ⟨p2, m2, e2⟩, ⟨p3, m3, e3⟩, ⟨p4, m4, e4⟩⟩ := boundingBox_attained hne
  have h1 := h p1 m1
  have h2 := h p2 m2
  have h3 := h p3 m3
  have h4 := h p4 m4
  rw [← e1, ← e2, ← e3, ← e4]
  exact ⟨h1.1, h2.2, h3.1, h4.2⟩

theorem CDE.Inv.containedTest_tolerant {f : Fpa K} {M ε : K} (hf : f.Tolerant M ε) (h0 : 0 ≤ ε) {c : CDE K n} (hi : c.Inv f)
    (hg : c.Good) (hw : ε * 2 ^ (n + 1) ≤ c.bbox.width) (hh' : ε * 2 ^ (n + 1) ≤ c.bbox.height) {h : Hazard K}
    (hh : h ∈ c.allHazards) (hP : h.shape.val.Proper) (hbh : Bounded h.shape.val.points M) (hrh : h.shape.val.Roomy ε)
    {s : SPoly K} (hs : s.Proper) (hbs : Bounded s.points M) (hrs : s.Roomy ε)
    (hnj : h.entity.position = .interior → (∀ v ∈ bdry h.shape.val.points, v ∈ interior s.points) → NotJustInside h.shape.val.bbox s.bbox ε)
    (hb : s.bbox.pts ⊆ c.bbox.pts)
    (hd : ∀ v ∈ bdry s.points, v ∉ bdry h.shape.val.points) :
    c.containedTest f s h = some true ↔
      ∃ w ∈ region s.points, w ∈ closedHaz h.entity.position h.shape.val.points := by
  set A := s.points with hA
  set B := h.shape.val.points with hB
  have hAne : A ≠ [] := hs.wf.nonempty
  have hBne : B ≠ [] := hP.wf.nonempty
  have eA : s.bbox = boundingBox A := hs.wf.bbox_eq
  have eB : h.shape.val.bbox = boundingBox B := hP.wf.bbox_eq
  have vA := hs.wf.bbox_valid
  have vB := hP.wf.bbox_valid
  obtain ⟨a, ha⟩ : ∃ a, a ∈ bdry A := by
    obtain ⟨a, l, he⟩ := List.exists_cons_of_ne_nil hAne
    exact ⟨a, vertex_mem_bdry (by rw [he]; simp)⟩
  obtain ⟨b, hbB⟩ : ∃ b, b ∈ bdry B := by
    obtain ⟨b, l, he⟩ := List.exists_cons_of_ne_nil hBne
    exact ⟨b, vertex_mem_bdry (by rw [he]; simp)⟩
  have hpoiA : s.poi.center ∈ c.bbox.pts := by
    apply hb
    rw [eA]
    have := interior_subset_inner hs.poi
    exact ⟨this.1.le, this.2.1.le, this.2.2.1.le, this.2.2.2.le⟩
  have trich := nested_or_disjoint hAne hBne hd
  -- the outline of the bin is not inside the shape
  have hext : (∀ v ∈ bdry B, v ∈ interior A) → h.entity.position ≠ .exterior := by
    intro h1 hpos
    have hin := bbox_inside hBne h1
    rw [← eA, ← eB] at hin
    have hc := (pts_subset_iff vA).1 hb
    have hf' := hg.fits h hh hpos
    unfold AARect.width AARect.height at hf'
    obtain ⟨i1, i2, i3, i4⟩ := hin
    obtain ⟨c1, c2, c3, c4⟩ := hc
    rcases hf' with hf' | hf' <;> linarith
  unfold CDE.containedTest AARect.almostRelationTo
  by_cases hcol : h.shape.val.bbox.almostCollidesRect f s.bbox = true
  swap
  · rw [if_neg hcol]
    dsimp only
    have h3 : ∀ v ∈ region A, v ∉ region B := by
      have inbox : ∀ {pts : List (Point K)} {v}, v ∈ region pts → v ∈ (boundingBox pts).pts := by
        rintro pts v (hv | hv)
        · exact bdry_subset_bbox hv
        · have := interior_subset_inner hv
          exact ⟨this.1.le, this.2.1.le, this.2.2.1.le, this.2.2.2.le⟩
      intro v hv hv'
      have h1 := inbox hv
      have h2 := inbox hv'
      rw [← eA] at h1
      rw [← eB] at h2
      obtain ⟨a1, a2, a3, a4⟩ := h1
      obtain ⟨b1, b2, b3, b4⟩ := h2
      apply hcol
      unfold AARect.almostCollidesRect
      rw [Bool.and_eq_true]
      constructor
      · by_contra hn
        have := hf.le_false (by simpa using hn)
        have m1 : max h.shape.val.bbox.xMin s.bbox.xMin ≤ v.x := max_le b1 a1
        have m2 : v.x ≤ min h.shape.val.bbox.xMax s.bbox.xMax := le_min b2 a2
        linarith
      · by_contra hn
        have := hf.le_false (by simpa using hn)
        have m1 : max h.shape.val.bbox.yMin s.bbox.yMin ≤ v.y := max_le b3 a3
        have m2 : v.y ≤ min h.shape.val.bbox.yMax s.bbox.yMax := le_min b4 a4
        linarith
    cases hpos : h.entity.position with
    | interior =>
      refine iff_of_false (by simp) ?_
      rintro ⟨w, hw, hw'⟩
      exact h3 w hw hw'
    | exterior => exact iff_of_true rfl ⟨a, .inl ha, .inr (h3 a (.inl ha))⟩
  rw [if_pos hcol]
  split_ifs with hsur hencl
  · -- the box of the hazard almost surrounds that of the shape
    simp only [Bool.and_eq_true] at hsur
    obtain ⟨⟨⟨s1, s2⟩, s3⟩, s4⟩ := hsur
    have hno2 : ¬ (∀ v ∈ bdry B, v ∈ interior A) := by
      intro hall
      have hpos : h.entity.position = .interior := by
        cases hp : h.entity.position with
        | interior => rfl
        | exterior => exact absurd hp (hext hall)
      have hin := bbox_inside hBne hall
      rw [← eA, ← eB] at hin
      obtain ⟨i1, i2, i3, i4⟩ := hin
      have bA := hbs.box hAne
      have bB := hbh.box hBne
      rw [← eA] at bA
      rw [← eB] at bB
      have n1 := hf.near_of_le bB.1 bA.1 s1 i1
      have n2 := hf.near_of_le bB.2.1 bA.2.1 s2 i3
      have n3 := hf.near_of_le bA.2.2.1 bB.2.2.1 s3 i2
      have n4 := hf.near_of_le bA.2.2.2 bB.2.2.2 s4 i4
      rcases hnj hpos hall i1 i2 i3 i4 with h | h | h | h <;> linarith
    have hpoi : ∀ w ∈ bdry B, w ∉ around s.poi.center ε := by
      intro w hwB hwa
      have hwA := hrs w hwa
      rcases trich with ⟨_, _, h3⟩ | ⟨h1, _⟩ | h3
      · exact h3 _ hwB hwA
      · exact hno2 h1
      · exact h3 _ hwA (.inl hwB)
    refine (hi.poiTest_tolerant hf h0 hg hw hh' hh hbh hpoi hpoiA).trans ?_
    constructor
    · intro hx; exact ⟨_, .inr hs.poi, .inr hx⟩
    · rintro ⟨w, hw, hw'⟩
      rw [openHaz_iff fun h => hpoi _ h (around_self _ h0)]
      rcases trich with ⟨h1, h2, h3⟩ | ⟨h1, _⟩ | h3
      · cases hpos : h.entity.position with
        | interior => exact h2 hs.poi
        | exterior =>
          exfalso
          rw [hpos] at hw'
          have hwB : w ∈ interior B := by
            rcases hw with hw | hw
            · exact h1 w hw
            · exact h2 hw
          rcases hw' with hw' | hw'
          · exact hwB.1 hw'
          · exact hw' (.inr hwB)
      · exact absurd h1 hno2
      · cases hpos : h.entity.position with
        | interior =>
          exfalso
          rw [hpos] at hw'
          exact h3 w hw hw'
        | exterior => exact fun hx => h3 _ (.inr hs.poi) (.inr hx)
  · -- the box of the hazard is almost enclosed in that of the shape
    have hno1 : ¬ (∀ v ∈ bdry A, v ∈ interior B) := by
      intro hall
      have hin := bbox_inside hAne hall
      rw [← eA, ← eB] at hin
      obtain ⟨i1, i2, i3, i4⟩ := hin
      apply hsur
      simp only [Bool.and_eq_true]
      exact ⟨⟨⟨f.le_of_lt i1, f.le_of_lt i3⟩, f.le_of_lt i2⟩, f.le_of_lt i4⟩
    have hpoi : ∀ w ∈ bdry A, w ∉ around h.shape.val.poi.center ε := by
      intro w hwA hwa
      have hwB := hrh w hwa
      rcases trich with ⟨h1, _⟩ | ⟨_, _, h3⟩ | h3
      · exact hno1 h1
      · exact h3 _ hwA hwB
      · exact h3 _ (.inl hwA) hwB
    dsimp only
    rw [Option.some.injEq, inclusionTest_tolerant hf h0 hs.wf hbs hpoi, openHaz_iff fun h => hpoi _ h (around_self _ h0)]
    rcases trich with ⟨h1, _⟩ | ⟨h1, h2, h3⟩ | h3
    · exact absurd h1 hno1
    · cases hpos : h.entity.position with
      | interior => exact iff_of_true (h2 hP.poi) ⟨b, .inr (h1 b hbB), .inl hbB⟩
      | exterior => exact absurd hpos (hext h1)
    · cases hpos : h.entity.position with
      | interior =>
        refine iff_of_false (fun hx => h3 _ (.inr hx) (.inr hP.poi)) ?_
        rintro ⟨w, hw, hw'⟩
        exact h3 w hw hw'
      | exterior =>
        refine iff_of_true (fun hx => h3 _ (.inr hx) (.inr hP.poi)) ⟨a, .inl ha, .inr (h3 a (.inl ha))⟩
  · -- neither
    have hno1 : ¬ (∀ v ∈ bdry A, v ∈ interior B) := by
      intro hall
      have hin := bbox_inside hAne hall
      rw [← eA, ← eB] at hin
      obtain ⟨i1, i2, i3, i4⟩ := hin
      apply hsur
      simp only [Bool.and_eq_true]
      exact ⟨⟨⟨f.le_of_lt i1, f.le_of_lt i3⟩, f.le_of_lt i2⟩, f.le_of_lt i4⟩
    have hno2 : ¬ (∀ v ∈ bdry B, v ∈ interior A) := by
      intro hall
      have hin := bbox_inside hBne hall
      rw [← eA, ← eB] at hin
      obtain ⟨i1, i2, i3, i4⟩ := hin
      apply hencl
      simp only [Bool.and_eq_true]
      exact ⟨⟨⟨f.le_of_lt i1, f.le_of_lt i3⟩, f.le_of_lt i2⟩, f.le_of_lt i4⟩
    have h3 : ∀ v ∈ region A, v ∉ region B := by
      rcases trich with ⟨h1, _⟩ | ⟨h1, _⟩ | h3
      · exact absurd h1 hno1
      · exact absurd h1 hno2
      · exact h3
    dsimp only
    cases hpos : h.entity.position with
    | interior =>
      refine iff_of_false (by simp) ?_
      rintro ⟨w, hw, hw'⟩
      exact h3 w hw hw'
    | exterior => exact iff_of_true rfl ⟨a, .inl ha, .inr (h3 a (.inl ha))⟩

theorem CDE.Fine.coll1 {f : Fpa K} {M ε : K} (hf : f.Tolerant M ε) {c : CDE K n} (hg : c.Good) (ht : c.Fine M ε) {h : Hazard K}
    (hh : h ∈ c.allHazards) (q : Queryable K) :
    Jagua.coll1 f q n c.bbox (QTHazard.ofHazard h) = Jagua.coll1 Fpa.exact q n c.bbox (QTHazard.ofHazard h) :=
  coll1_tolerant hf ht.nonneg (hg.shapes h hh) (ht.bounded h hh) q n hg.box ht.width ht.height (hg.geo h) (hg.fit hh)

theorem CDE.Fine.def1 {f : Fpa K} {M ε : K} (hf : f.Tolerant M ε) {c : CDE K n} (hg : c.Good) (ht : c.Fine M ε) {h : Hazard K}
    (hh : h ∈ c.allHazards) (q : AARect K → Bool) :
    Jagua.def1 f q n c.bbox (QTHazard.ofHazard h) = Jagua.def1 Fpa.exact q n c.bbox (QTHazard.ofHazard h) :=
  def1_tolerant hf ht.nonneg (hg.shapes h hh) (ht.bounded h hh) q n hg.box ht.width ht.height (hg.geo h) (hg.fit hh)

theorem CDE.polyCollides_outside {f : Fpa K} {c : CDE K n} {s : SPoly K} (hv : s.bbox.Valid) (h : ¬ s.bbox.pts ⊆ c.bbox.pts)
    {irr : List (HazardEntity K)} : c.polyCollides f s irr = some true := by
  unfold CDE.polyCollides
  cases hrel : c.bbox.relationTo s.bbox with
  | surrounding => exact absurd ((relationTo_surrounding_iff hv).1 hrel) h
  | _ => rfl

theorem CDE.Inv.polyCollides_tolerant {f : Fpa K} {M ε : K} (hf : f.Tolerant M ε) {c : CDE K n} (hi : c.Inv f) (hg : c.Good)
    {s : SPoly K} (hs : s.Proper) {irr : List (HazardEntity K)}
    (hP : ∀ h ∈ c.allHazards, h.entity ∉ irr → h.shape.val.Proper) (ht : c.Tolerates s irr M ε) :
    ∃ b, c.polyCollides f s irr = some b ∧ (b = true ↔ ¬ s.bbox.pts ⊆ c.bbox.pts ∨
      ∃ h ∈ c.allHazards, h.entity ∉ irr ∧ ∃ w ∈ region s.points, w ∈ closedHaz h.entity.position h.shape.val.points) := by
  have vA := hs.wf.bbox_valid
  have hco : ∀ h ∈ c.allHazards, ∀ q, coll1 f q n c.bbox (QTHazard.ofHazard h) = coll1 Fpa.exact q n c.bbox (QTHazard.ofHazard h) :=
    fun h hh q => ht.fine.coll1 hf hg hh q
  by_cases hsub : s.bbox.pts ⊆ c.bbox.pts
  · have hrel := (relationTo_surrounding_iff (a := c.bbox) vA).2 hsub
    unfold CDE.polyCollides
    rw [hrel]
    obtain ⟨b1, e1, s1⟩ := hi.byEdge s irr
    obtain ⟨b2, e2, s2⟩ := hi.byContainment s irr
    dsimp only
    rw [e1, e2]
    cases b1 with
    | true =>
      refine ⟨true, rfl, iff_of_true rfl (.inr ?_)⟩
      obtain ⟨e, he, h, hh, hirr, hc⟩ := s1.1 rfl
      rw [hco h hh] at hc
      obtain ⟨w, hw, hw'⟩ := hg.sound hh (queryOK_edge e) hc
      exact ⟨h, hh, hirr, w, .inl (mem_bdry_iff.2 ⟨e, he, hw⟩), hw'⟩
    | false =>
      refine ⟨b2, rfl, ?_⟩
      have key : ∀ h ∈ c.allHazards, h.entity ∉ irr → (c.containedTest f s h = some true ↔
          ∃ w ∈ region s.points, w ∈ closedHaz h.entity.position h.shape.val.points) := by
        intro h hh hirr
        apply hi.containedTest_tolerant hf ht.fine.nonneg hg ht.fine.width ht.fine.height hh (hP h hh hirr) (ht.fine.bounded h hh)
          (ht.hazards h hh hirr) hs ht.bounded ht.roomy (ht.boxes h hh hirr) hsub
        apply bdry_disjoint hs.noSpike (hP h hh hirr).noSpike
        apply CDE.Inv.touchParallel hg hh hs.wf hsub
        intro e he hc
        rw [← hco h hh] at hc
        have := s1.2 ⟨e, he, h, hh, hirr, hc⟩
        simp at this
      rw [s2]
      constructor
      · rintro ⟨h, hh, -, hirr, ht⟩
        exact .inr ⟨h, hh, hirr, (key h hh hirr).1 ht⟩
      · rintro (hx | ⟨h, hh, hirr, hx⟩)
        · exact absurd hsub hx
        · exact ⟨h, hh, hg.active h hh, hirr, (key h hh hirr).2 hx⟩
  · exact ⟨true, CDE.polyCollides_outside vA hsub, iff_of_true rfl (.inl hsub)⟩

end Jagua
