import Verif.Lemmas.PolyReject
import Verif.Lemmas.RectPoly
import Verif.Spec.Examples
import Verif.Spec.Built
import Verif.Props.Transform

/-! # C05, C06, C34, C43: polygon queries, point in polygon, surrogates -/

set_option linter.unusedSectionVars false

namespace Jagua

variable {K : Type*} [Field K] [LinearOrder K] [IsStrictOrderedRing K] {n : ℕ}

/-! ## Examples -/

namespace Ex

theorem bin_proper : bin.Proper where
  wf := bin_wf
  noSpike := by unfold NoSpike; decide +kernel
  poi := (interior_rectPoly (x0 := 0) (y0 := 0) (x1 := 8) (y1 := 8) (by norm_num) (by norm_num) _).2 (by decide +kernel)

theorem sq_proper : sq.Proper where
  wf := sq_wf
  noSpike := by unfold NoSpike; decide +kernel
  poi := (interior_rectPoly (x0 := 5) (y0 := 5) (x1 := 7) (y1 := 7) (by norm_num) (by norm_num) _).2 (by decide +kernel)

theorem small_proper : small.Proper where
  wf := ⟨by decide +kernel, by unfold AARect.Valid; decide +kernel, by decide⟩
  noSpike := by unfold NoSpike; decide +kernel
  poi := (interior_rectPoly (x0 := 5 / 2) (y0 := 5 / 2) (x1 := 7 / 2) (y1 := 7 / 2) (by norm_num) (by norm_num) _).2
    (by decide +kernel)

theorem proper {c : CDE ℚ 2} (hs : c.statics = [hBin]) (hd : c.dynamics = [hSq]) :
    ∀ h ∈ c.allHazards, h.shape.val.Proper := by
  intro h hh
  unfold CDE.allHazards at hh
  rw [hs, hd] at hh
  simp only [List.cons_append, List.nil_append, List.mem_cons, List.not_mem_nil, or_false] at hh
  rcases hh with rfl | rfl
  · exact bin_proper
  · exact sq_proper

end Ex

/-! ## C05 Accepted placements are feasible -/

/-- C05: if the query returns `false`, the closed shape has no point in common
with the closed forbidden region of any relevant hazard, and lies in the box of
the engine. -/
theorem C05_accepted_is_feasible {o : SearchOracle K} {c : CDE K n} (hr : c.Reachable Fpa.exact o) (hg : c.Good)
    {s : SPoly K} (hs : s.Proper) {irr : List (HazardEntity K)}
    (hP : ∀ h ∈ c.allHazards, h.entity ∉ irr → h.shape.val.Proper)
    (h : c.polyCollides Fpa.exact s irr = some false) :
    (∀ p ∈ region s.points, p ∈ c.bbox.pts) ∧
    ∀ h ∈ c.allHazards, h.entity ∉ irr → Disjoint (region s.points) (closedHaz h.entity.position h.shape.val.points) := by
  obtain ⟨b, hb, hb'⟩ := hr.inv.polyCollides_iff hg hs hP
  rw [h] at hb
  have hn : ¬ _ := fun hx => by have := hb'.2 hx; rw [← Option.some.inj hb] at this; exact absurd this (by simp)
  push Not at hn
  refine ⟨fun p hp => hn.1 ?_, fun x hx hirr => ?_⟩
  · rw [hs.wf.bbox_eq]
    rcases hp with hp | hp
    · exact bdry_subset_bbox hp
    · have := interior_subset_inner hp
      exact ⟨this.1.le, this.2.1.le, this.2.2.1.le, this.2.2.2.le⟩
  · rw [Set.disjoint_left]
    exact fun p hp => hn.2 x hx hirr p hp

/-- C05: in terms of the parts of a layout. An accepted shape lies inside the
outline of the bin (the exterior hazards that matter) and shares no point with
the items, holes and zones that matter. -/
theorem C05_inside_bin_outside_items {o : SearchOracle K} {c : CDE K n} (hr : c.Reachable Fpa.exact o) (hg : c.Good)
    {s : SPoly K} (hs : s.Proper) {irr : List (HazardEntity K)}
    (hP : ∀ h ∈ c.allHazards, h.entity ∉ irr → h.shape.val.Proper)
    (h : c.polyCollides Fpa.exact s irr = some false) :
    (∀ h ∈ c.allHazards, h.entity = .binExterior → h.entity ∉ irr → region s.points ⊆ interior h.shape.val.points) ∧
    (∀ h ∈ c.allHazards, h.entity ≠ .binExterior → h.entity ∉ irr →
      Disjoint (region s.points) (region h.shape.val.points)) := by
  have hf := (C05_accepted_is_feasible hr hg hs hP h).2
  constructor
  · intro x hx he hirr p hp
    have := Set.disjoint_left.1 (hf x hx hirr) hp
    rw [he] at this
    by_contra hn
    apply this
    by_cases hb : p ∈ bdry x.shape.val.points
    · exact .inl hb
    · exact .inr fun hr => hr.elim hb hn
  · intro x hx he hirr
    have := hf x hx hirr
    have hpos : x.entity.position = .interior := by
      cases hx' : x.entity with
      | binExterior => exact absurd hx' he
      | _ => rfl
    rw [hpos] at this
    exact this

/-- C05/C06: the query decides feasibility exactly and never panics. -/
theorem C05_query_decides_feasibility {o : SearchOracle K} {c : CDE K n} (hr : c.Reachable Fpa.exact o) (hg : c.Good)
    {s : SPoly K} (hs : s.Proper) {irr : List (HazardEntity K)}
    (hP : ∀ h ∈ c.allHazards, h.entity ∉ irr → h.shape.val.Proper) :
    ∃ b, c.polyCollides Fpa.exact s irr = some b ∧ (b = true ↔ ¬ s.bbox.pts ⊆ c.bbox.pts ∨
      ∃ h ∈ c.allHazards, h.entity ∉ irr ∧ ∃ w ∈ region s.points, w ∈ closedHaz h.entity.position h.shape.val.points) :=
  hr.inv.polyCollides_iff hg hs hP

/-- Both answers occur: the engine of `Ex` accepts the small square and rejects a
second copy of the square that is placed in it. -/
example : ∃ c : CDE ℚ 2, c.Reachable Fpa.exact SearchOracle.first ∧ c.Good ∧ (∀ h ∈ c.allHazards, h.shape.val.Proper) ∧
    Ex.small.Proper ∧ Ex.sq.Proper ∧
    c.polyCollides Fpa.exact Ex.small [] = some false ∧ c.polyCollides Fpa.exact Ex.sq [] = some true := by
  obtain ⟨c, hr, hs, hd, -, hb, -, hc⟩ := Ex.exists_engine
  have h : (Ex.start.bind (Ex.runChecked Ex.ops)).map
      (fun c => (c.polyCollides Fpa.exact Ex.small [], c.polyCollides Fpa.exact Ex.sq [])) = some (some false, some true) := by
    decide +kernel
  rw [hc] at h
  simp only [Option.map_some, Option.some.injEq, Prod.mk.injEq] at h
  exact ⟨c, hr, Ex.good hs hd hb, Ex.proper hs hd, Ex.small_proper, Ex.sq_proper, h.1, h.2⟩

/-! ## C06 Rejections are justified -/

/-- C06: if the query returns `true`, the shape leaves the box of the engine or
shares a point with the closed forbidden region of a relevant hazard. The shapes
only have to be closed polygonal lines with their pole of inaccessibility in the
region they enclose; they may touch, cross or fold back onto themselves. -/
theorem C06_rejection_justified {o : SearchOracle K} {c : CDE K n} (hr : c.Reachable Fpa.exact o) (hg : c.Good)
    {s : SPoly K} (hs : s.WF) (hpoi : s.poi.center ∈ region s.points) {irr : List (HazardEntity K)}
    (hP : ∀ h ∈ c.allHazards, h.entity.position = .interior → h.shape.val.poi.center ∈ region h.shape.val.points)
    (h : c.polyCollides Fpa.exact s irr = some true) :
    ¬ s.bbox.pts ⊆ c.bbox.pts ∨
      ∃ h ∈ c.allHazards, h.entity ∉ irr ∧ ∃ w ∈ region s.points, w ∈ closedHaz h.entity.position h.shape.val.points :=
  hr.inv.polyCollides_sound hg hs hpoi hP h

/-- C06: hence ignoring every hazard leaves only the box of the engine to collide with. -/
theorem C06_nothing_relevant {o : SearchOracle K} {c : CDE K n} (hr : c.Reachable Fpa.exact o) (hg : c.Good)
    {s : SPoly K} (hs : s.WF) (hpoi : s.poi.center ∈ region s.points) {irr : List (HazardEntity K)}
    (hP : ∀ h ∈ c.allHazards, h.entity.position = .interior → h.shape.val.poi.center ∈ region h.shape.val.points)
    (hirr : ∀ h ∈ c.allHazards, h.entity ∈ irr) (h : c.polyCollides Fpa.exact s irr = some true) :
    ¬ s.bbox.pts ⊆ c.bbox.pts :=
  (C06_rejection_justified hr hg hs hpoi hP h).resolve_right fun ⟨x, hx, hn, _⟩ => hn (hirr x hx)

/-! ## C34 Point in polygon -/

/-- C34: off the outline, the test is membership in the even-odd interior. -/
theorem C34_test_is_even_odd {s : SPoly K} (hs : s.WF) {p : Point K} (hp : p ∉ bdry s.points) :
    s.collidesPoint Fpa.exact p = true ↔ p ∈ interior s.points :=
  SPoly.collidesPoint_iff hs hp

/-- C34: two points joined by a segment that avoids the outline get the same answer. -/
theorem C34_constant_off_boundary {s : SPoly K} (hs : s.WF) {p q : Point K} (h : ∀ w ∈ segPts p q, w ∉ bdry s.points) :
    s.collidesPoint Fpa.exact p = s.collidesPoint Fpa.exact q := by
  rw [Bool.eq_iff_iff, C34_test_is_even_odd hs (h p (segPts_start p q)), C34_test_is_even_odd hs (h q (segPts_stop p q))]
  exact interior_const h

/-- C34: a point outside the bounding box is outside. -/
theorem C34_outside_box (f : Fpa K) {s : SPoly K} {p : Point K} (h : p ∉ s.bbox.pts) : s.collidesPoint f p = false := by
  unfold SPoly.collidesPoint
  rw [if_neg (by rw [Jagua.collidesPoint_iff]; exact h)]

/-- C34: casting the ray in any other direction would give the same answer. -/
theorem C34_direction_independent {s : SPoly K} (hs : s.WF) {p : Point K} (hp : p ∉ bdry s.points) {d : Point K}
    (hd : d.x ≠ 0 ∨ d.y ≠ 0) : s.collidesPoint Fpa.exact p = true ↔ Odd (dirCount d s.points p) := by
  rw [C34_test_is_even_odd hs hp]
  show _ ∧ _ ↔ _
  rw [← dirCount_right]
  have := dirCount_const (d := ⟨1, 0⟩) (.inl one_ne_zero) hd hp
  tauto

/-- C34: the polygon of a rectangle contains exactly the open rectangle (off its outline). -/
theorem C34_rectangle {poi : List (Point K) → Circle K} {r : AARect K} (hv : r.Valid) {s : SPoly K}
    (h : SPoly.ofRect poi r = some s) {p : Point K} (hp : p ∉ bdry s.points) :
    s.collidesPoint Fpa.exact p = true ↔ r.xMin < p.x ∧ p.x < r.xMax ∧ r.yMin < p.y ∧ p.y < r.yMax := by
  rw [C34_test_is_even_odd (SPoly.new_wf h) hp, (SPoly.new_region h).1]
  exact interior_rectPoly hv.1 hv.2 p

/-- C34: the answer moves along with the polygon. -/
theorem C34_equivariant {s : SPoly ℝ} (hs : s.WF) (ha : signedArea s.points ≠ 0) {t : Transf ℝ} {g : Point ℝ → Point ℝ}
    (ht : Built Trig.real t g) {p : Point ℝ} (hp : p ∉ bdry s.points) :
    (s.transform t).collidesPoint Fpa.exact (g p) = s.collidesPoint Fpa.exact p := by
  obtain ⟨hr, hm⟩ := ht.rigid_map Trig.real_unit
  have hp' : p.transform t ∉ bdry (s.transform t).points := fun h => hp (hr.map.bdry.1 h)
  rw [Bool.eq_iff_iff, ← hm p, C34_test_is_even_odd (s.transform_wf hs ha hr) hp', C34_test_is_even_odd hs hp]
  exact hr.map.interior

/-- On an L shape: a point in the notch is outside, a point in the arm inside. -/
example : let s : SPoly ℚ := { points := [⟨0, 0⟩, ⟨4, 0⟩, ⟨4, 1⟩, ⟨1, 1⟩, ⟨1, 4⟩, ⟨0, 4⟩], bbox := ⟨0, 0, 4, 4⟩, area := 7, poi := ⟨⟨1 / 2, 1 / 2⟩, 1 / 2⟩ }
    s.collidesPoint Fpa.exact ⟨3, 3⟩ = false ∧ s.collidesPoint Fpa.exact ⟨1 / 2, 3⟩ = true := by decide +kernel

/-! ## C43 Surrogates -/

/-- C43: a hit of the surrogate is a real overlap of the shape with a relevant hazard. -/
theorem C43_surrogate_sound {o : SearchOracle K} {c : CDE K n} (hr : c.Reachable Fpa.exact o) (hg : c.Good)
    {poles : List (Circle K)} {piers : List (Edge K)} {pts : List (Point K)} (hin : SurrogateInside poles piers pts)
    {irr : List (HazardEntity K)} (h : c.surrogateCollides poles piers irr = some true) :
    ∃ h ∈ c.allHazards, h.entity ∉ irr ∧ ∃ w ∈ region pts, w ∈ closedHaz h.entity.position h.shape.val.points :=
  hr.inv.surrogate_sound hg hin h

/-- C43: checking the surrogate first never changes the answer of the query. -/
theorem C43_fail_fast_same_answer {o : SearchOracle K} {c : CDE K n} (hr : c.Reachable Fpa.exact o) (hg : c.Good)
    {poles : List (Circle K)} {piers : List (Edge K)} {s : SPoly K} (hs : s.Proper)
    (hin : SurrogateInside poles piers s.points) {irr : List (HazardEntity K)}
    (hP : ∀ h ∈ c.allHazards, h.entity ∉ irr → h.shape.val.Proper) :
    c.surrogateOrPolyCollides Fpa.exact poles piers s irr = c.polyCollides Fpa.exact s irr := by
  unfold CDE.surrogateOrPolyCollides
  obtain ⟨b, hb, -⟩ := hr.inv.surrogate poles piers irr
  rw [hb]
  cases b with
  | false => rfl
  | true =>
    obtain ⟨b, e, h⟩ := hr.inv.polyCollides_iff hg hs hP
    rw [e]
    have := h.2 (.inr (C43_surrogate_sound hr hg hin hb))
    rw [this]

/-- C43: a surrogate inside its shape stays inside under every transformation, so
the two theorems above apply to the transformed surrogate of a transformed shape. -/
theorem C43_inside_after_transform {s : SPoly ℝ} {u : Surrogate ℝ} (h : SurrogateInside u.poles u.piers s.points)
    {t : Transf ℝ} {g : Point ℝ → Point ℝ} (ht : Built Trig.real t g) :
    SurrogateInside (u.transform t).ffPoles (u.transform t).piers (s.transform t).points := by
  have := h.transform (ht.rigid_map Trig.real_unit).1
  exact ⟨fun c hc => this.1 c (List.mem_of_mem_take hc), this.2⟩

/-- A surrogate of the small square: one circle and one line. -/
example : SurrogateInside [⟨⟨3, 3⟩, 1 / 2⟩] [⟨⟨3, 5 / 2⟩, ⟨3, 7 / 2⟩⟩] Ex.small.points := by
  have hb := bdry_rectPoly (x0 := (5 / 2 : ℚ)) (y0 := 5 / 2) (x1 := 7 / 2) (y1 := 7 / 2) (by norm_num) (by norm_num)
  have hi := interior_rectPoly (x0 := (5 / 2 : ℚ)) (y0 := 5 / 2) (x1 := 7 / 2) (y1 := 7 / 2) (by norm_num) (by norm_num)
  have key : ∀ p : Point ℚ, (5 / 2 ≤ p.x ∧ p.x ≤ 7 / 2 ∧ 5 / 2 ≤ p.y ∧ p.y ≤ 7 / 2) → p ∈ region Ex.small.points := by
    rintro p ⟨h1, h2, h3, h4⟩
    by_cases hbd : p.x = 5 / 2 ∨ p.x = 7 / 2 ∨ p.y = 5 / 2 ∨ p.y = 7 / 2
    · exact .inl ((hb p).2 ⟨⟨h1, h2, h3, h4⟩, hbd⟩)
    · push Not at hbd
      exact .inr ((hi p).2 ⟨lt_of_le_of_ne h1 hbd.1.symm, lt_of_le_of_ne h2 hbd.2.1,
        lt_of_le_of_ne h3 hbd.2.2.1.symm, lt_of_le_of_ne h4 hbd.2.2.2⟩)
  constructor
  · intro c hc p hp
    obtain rfl := List.mem_singleton.1 hc
    have hp' : (p.x - 3) ^ 2 + (p.y - 3) ^ 2 ≤ (1 / 2) ^ 2 := hp
    exact key p ⟨by nlinarith [sq_nonneg (p.y - 3)], by nlinarith [sq_nonneg (p.y - 3)], by nlinarith [sq_nonneg (p.x - 3)],
      by nlinarith [sq_nonneg (p.x - 3)]⟩
  · intro e he p hp
    obtain rfl := List.mem_singleton.1 he
    obtain ⟨t, t0, t1, hx, hy⟩ := hp
    simp only at hx hy
    exact key p ⟨by rw [hx]; norm_num, by rw [hx]; norm_num, by rw [hy]; linarith, by rw [hy]; linarith⟩

end Jagua
