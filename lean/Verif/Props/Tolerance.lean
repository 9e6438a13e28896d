import Verif.Lemmas.TolerancePoly
import Verif.Props.Collision

/-! # C68: the tolerance of float comparisons does not change the answers for shapes that are large compared to it -/

set_option linter.unusedSectionVars false

namespace Jagua

variable {K : Type*} [Field K] [LinearOrder K] [IsStrictOrderedRing K] {n : ℕ}

/-- C68: the point in polygon test is right for every point that is farther than
the tolerance from the outline, in both directions. -/
theorem C68_point_test {f : Fpa K} {M ε : K} (hf : f.Tolerant M ε) (h0 : 0 ≤ ε) {s : SPoly K} (hs : s.WF) (hb : Bounded s.points M)
    {p : Point K} (hp : ∀ w ∈ bdry s.points, ε < |w.x - p.x| ∨ ε < |w.y - p.y|) :
    s.collidesPoint f p = true ↔ p ∈ interior s.points :=
  SPoly.collidesPoint_tolerant hf h0 hs hb fun w hw ha => (hp w hw).elim (not_lt.2 ha.1) (not_lt.2 ha.2)

/-- C68: in an engine whose cells are larger than the tolerance, no edge and no
circle is missed, and every reported entity is really hit. -/
theorem C68_objects {f : Fpa K} {M ε : K} (hf : f.Tolerant M ε) {o : SearchOracle K} {c : CDE K n} (hr : c.Reachable f o) (hg : c.Good)
    (ht : c.Fine M ε) {irr : List (HazardEntity K)} :
    (∀ e : Edge K, e.pts ⊆ c.bbox.pts → c.tree.collides e.toQuery irr = some none →
      ∀ x ∈ c.allHazards, x.entity ∉ irr → ∀ e' ∈ x.shape.val.edges, ¬ e.Parallel e' → e.pts ∩ e'.pts = ∅) ∧
    (∀ ci : Circle K, c.tree.collides ci.toQuery irr = some none →
      ∀ x ∈ c.allHazards, x.entity ∉ irr → ∀ w ∈ ci.pts, w ∈ c.bbox.pts → w ∉ bdry x.shape.val.points) ∧
    (∀ (e : Edge K) (ent : HazardEntity K), c.tree.collides e.toQuery irr = some (some ent) →
      ∃ x ∈ c.allHazards, x.entity = ent ∧ ent ∉ irr ∧ ∃ w ∈ e.pts, w ∈ closedHaz ent.position x.shape.val.points) ∧
    (∀ (ci : Circle K) (ent : HazardEntity K), c.tree.collides ci.toQuery irr = some (some ent) →
      ∃ x ∈ c.allHazards, x.entity = ent ∧ ent ∉ irr ∧ ∃ w ∈ ci.pts, w ∈ closedHaz ent.position x.shape.val.points) := by
  have miss : ∀ (q : Queryable K) (S : Set (Point K)), QueryOK q S → c.tree.collides q irr = some none →
      ∀ x ∈ c.allHazards, x.entity ∉ irr → ∀ e' ∈ x.shape.val.edges, q.edge e' = true → ∀ w ∈ S, w ∈ e'.pts → w ∉ c.bbox.pts := by
    intro q S hq h x hx hxi e' he' hte w hw hw' hwr
    obtain ⟨res, h1, h2, _⟩ := hr.inv.collides q irr
    rw [h] at h1
    obtain rfl := Option.some.inj h1
    have := h2.2 ⟨x, hx, hxi, by rw [ht.coll1 hf hg hx]; exact hg.complete hx hq he' hte hw hw' hwr⟩
    simp at this
  have phantom : ∀ (q : Queryable K) (S : Set (Point K)), QueryOK q S → ∀ ent, c.tree.collides q irr = some (some ent) →
      ∃ x ∈ c.allHazards, x.entity = ent ∧ ent ∉ irr ∧ ∃ w ∈ S, w ∈ closedHaz ent.position x.shape.val.points := by
    intro q S hq ent h
    obtain ⟨res, h1, _, h3⟩ := hr.inv.collides q irr
    rw [h] at h1
    obtain ⟨x, hx, hxe, hxi, hc⟩ := h3 ent (Option.some.inj h1).symm
    rw [ht.coll1 hf hg hx] at hc
    obtain ⟨w, hw, hw'⟩ := hg.sound hx hq hc
    exact ⟨x, hx, hxe, by rw [← hxe]; exact hxi, w, hw, by rw [← hxe]; exact hw'⟩
  refine ⟨?_, ?_, fun e => phantom _ _ (queryOK_edge e), fun ci => phantom _ _ (queryOK_circle ci)⟩
  · intro e hin h x hx hxi e' he' hpar
    rw [Set.eq_empty_iff_forall_notMem]
    rintro w ⟨hw, hw'⟩
    exact miss _ _ (queryOK_edge e) h x hx hxi e' he' ((collidesEdge_iff e e').2 ⟨hpar, w, hw, hw'⟩) w hw hw' (hin hw)
  · intro ci h x hx hxi w hw hwr hwb
    obtain ⟨e', he', hwe⟩ := mem_bdry_iff.1 hwb
    exact miss _ _ (queryOK_circle ci) h x hx hxi e' he' ((circle_collidesEdge_iff ci e').2 ⟨w, hwe, hw⟩) w hw hwe hwr

/-- C68: with a tolerance that is small compared to the shapes, the polygon query
still decides feasibility exactly. -/
theorem C68_query_decides_feasibility {f : Fpa K} {M ε : K} (hf : f.Tolerant M ε) {o : SearchOracle K} {c : CDE K n}
    (hr : c.Reachable f o) (hg : c.Good) {s : SPoly K} (hs : s.Proper) {irr : List (HazardEntity K)}
    (hP : ∀ h ∈ c.allHazards, h.entity ∉ irr → h.shape.val.Proper) (ht : c.Tolerates s irr M ε) :
    ∃ b, c.polyCollides f s irr = some b ∧ (b = true ↔ ¬ s.bbox.pts ⊆ c.bbox.pts ∨
      ∃ h ∈ c.allHazards, h.entity ∉ irr ∧ ∃ w ∈ region s.points, w ∈ closedHaz h.entity.position h.shape.val.points) :=
  hr.inv.polyCollides_tolerant hf hg hs hP ht

/-- C68: the same when surrogates are tried first. -/
theorem C68_surrogate_decides_feasibility {f : Fpa K} {M ε : K} (hf : f.Tolerant M ε) {o : SearchOracle K} {c : CDE K n}
    (hr : c.Reachable f o) (hg : c.Good) {s : SPoly K} (hs : s.Proper) {irr : List (HazardEntity K)}
    (hP : ∀ h ∈ c.allHazards, h.entity ∉ irr → h.shape.val.Proper) (ht : c.Tolerates s irr M ε)
    {poles : List (Circle K)} {piers : List (Edge K)} (hin : SurrogateInside poles piers s.points) :
    ∃ b, c.surrogateOrPolyCollides f poles piers s irr = some b ∧ (b = true ↔ ¬ s.bbox.pts ⊆ c.bbox.pts ∨
      ∃ h ∈ c.allHazards, h.entity ∉ irr ∧ ∃ w ∈ region s.points, w ∈ closedHaz h.entity.position h.shape.val.points) := by
  obtain ⟨b, hb, hb'⟩ := hr.inv.surrogate poles piers irr
  unfold CDE.surrogateOrPolyCollides
  rw [hb]
  cases b with
  | false => exact hr.inv.polyCollides_tolerant hf hg hs hP ht
  | true =>
    refine ⟨true, rfl, iff_of_true rfl (.inr ?_)⟩
    rcases hb'.1 rfl with ⟨p, hp, x, hx, hirr, hc⟩ | ⟨p, hp, x, hx, hirr, hc⟩
    · rw [ht.fine.coll1 hf hg hx] at hc
      obtain ⟨w, hw, hw'⟩ := hg.sound hx (queryOK_circle p) hc
      exact ⟨x, hx, hirr, w, hin.1 p hp hw, hw'⟩
    · rw [ht.fine.coll1 hf hg hx] at hc
      obtain ⟨w, hw, hw'⟩ := hg.sound hx (queryOK_edge p) hc
      exact ⟨x, hx, hirr, w, hin.2 p hp hw, hw'⟩

/-! ## Examples and the limits -/

namespace Ex

/-- comparisons with a relative tolerance of one thousandth -/
def tol : Fpa ℚ := Fpa.relative (1 / 1000)

theorem tol_tolerant : tol.Tolerant 8 (1 / 125) := by
  have := Fpa.Tolerant.relative (τ := (1 / 1000 : ℚ)) (M := 8) (by norm_num)
  norm_num at this
  exact this

/-- Run operations with the tolerance, checking the caller's obligations. -/
def runTol {n : ℕ} : List (CDEOp ℚ) → CDE ℚ n → Option (CDE ℚ n)
  | [], c => some c
  | op :: ops, c => if preB c op then (op.run tol SearchOracle.first c).bind (runTol ops) else none

theorem runTol_run {n : ℕ} {ops : List (CDEOp ℚ)} {c c' : CDE ℚ n} (h : runTol ops c = some c') :
    CDERun tol SearchOracle.first c ops c' := by
  induction ops generalizing c with
  | nil => rw [runTol] at h; rw [← Option.some.inj h]; exact .nil _
  | cons op ops ih =>
    rw [runTol] at h
    split at h
    · rename_i hp
      cases hr : op.run tol SearchOracle.first c with
      | none => rw [hr] at h; simp at h
      | some c₁ => rw [hr] at h; exact .cons ((preB_iff).1 hp) hr (ih h)
    · simp at h

/-- the 8 × 8 bin with one item -/
def tolEngine (h : Hazard ℚ) : Option (CDE ℚ 2) :=
  (CDE.new tol SearchOracle.first 2 ⟨0, 0, 8, 8⟩ [hBin]).bind (runTol [.register h])

theorem tolEngine_spec {h : Hazard ℚ} {c : CDE ℚ 2} (hc : tolEngine h = some c) : c.Reachable tol SearchOracle.first := by
  unfold tolEngine at hc
  cases h0 : CDE.new tol SearchOracle.first 2 (⟨0, 0, 8, 8⟩ : AARect ℚ) [hBin] with
  | none => rw [h0] at hc; simp at hc
  | some c₀ =>
    rw [h0] at hc
    exact ⟨_, [hBin], c₀, _, by decide, h0, runTol_run hc⟩

theorem tol_good {c : CDE ℚ 2} {h : Hazard ℚ} (hw : h.shape.val.WF) (ha : h.active = true) (he : h.entity.position = .interior)
    (hs : c.allHazards = [hBin, h]) (hb : c.bbox = ⟨0, 0, 8, 8⟩) : c.Good where
  box := by rw [hb]; unfold AARect.Valid; decide +kernel
  shapes x hx := by
    rw [hs] at hx
    simp only [List.mem_cons, List.not_mem_nil, or_false] at hx
    rcases hx with rfl | rfl
    · exact bin_wf
    · exact hw
  active x hx := by
    rw [hs] at hx
    simp only [List.mem_cons, List.not_mem_nil, or_false] at hx
    rcases hx with rfl | rfl
    · rfl
    · exact ha
  fits x hx hp := by
    rw [hs] at hx
    simp only [List.mem_cons, List.not_mem_nil, or_false] at hx
    rcases hx with rfl | rfl
    · rw [hb]; left; decide +kernel
    · rw [he] at hp; cases hp

theorem roomy_rect {x0 y0 x1 y1 ε : ℚ} (hx : x0 < x1) (hy : y0 < y1) {s : SPoly ℚ} (hs : s.points = rectPoly x0 y0 x1 y1)
    (h1 : x0 + ε < s.poi.center.x) (h2 : s.poi.center.x < x1 - ε) (h3 : y0 + ε < s.poi.center.y) (h4 : s.poi.center.y < y1 - ε) :
    s.Roomy ε := by
  rintro w ⟨a, b⟩
  rw [abs_le] at a b
  rw [hs]
  refine .inr ((interior_rectPoly hx hy w).2 ⟨?_, ?_, ?_, ?_⟩) <;> linarith [a.1, a.2, b.1, b.2]

end Ex

/-- The hypotheses hold for the engine with a square item and a tolerance of one
thousandth: a small square next to it is accepted, a copy of the item is
rejected. -/
example : ∃ c : CDE ℚ 2, c.Reachable Ex.tol SearchOracle.first ∧ c.Good ∧ (∀ h ∈ c.allHazards, h.shape.val.Proper) ∧
    Ex.small.Proper ∧ c.Tolerates Ex.small [] 8 (1 / 125) ∧ c.polyCollides Ex.tol Ex.small [] = some false ∧
    c.polyCollides Ex.tol Ex.sq [] = some true := by
  obtain ⟨c, hc⟩ : ∃ c, Ex.tolEngine Ex.hSq = some c := Option.isSome_iff_exists.1 (by decide +kernel)
  have h : (Ex.tolEngine Ex.hSq).map (fun c => (c.allHazards, c.bbox, c.polyCollides Ex.tol Ex.small [], c.polyCollides Ex.tol Ex.sq [])) =
      some ([Ex.hBin, Ex.hSq], ⟨0, 0, 8, 8⟩, some false, some true) := by decide +kernel
  rw [hc] at h
  simp only [Option.map_some, Option.some.injEq, Prod.mk.injEq] at h
  obtain ⟨h1, h2, h3, h4⟩ := h
  have hall : ∀ P : Hazard ℚ → Prop, P Ex.hBin → P Ex.hSq → ∀ x ∈ c.allHazards, P x := by
    intro P p1 p2 x hx
    rw [h1] at hx
    simp only [List.mem_cons, List.not_mem_nil, or_false] at hx
    rcases hx with rfl | rfl
    · exact p1
    · exact p2
  refine ⟨c, Ex.tolEngine_spec hc, Ex.tol_good Ex.sq_wf rfl rfl h1 h2, hall _ Ex.bin_proper Ex.sq_proper, Ex.small_proper, ?_, h3, h4⟩
  refine ⟨⟨by norm_num, by rw [h2]; unfold AARect.width; norm_num, by rw [h2]; unfold AARect.height; norm_num, ?_⟩, ?_, ?_, ?_, ?_⟩
  · exact hall _ (by unfold Bounded; decide +kernel) (by unfold Bounded; decide +kernel)
  · unfold Bounded; decide +kernel
  · exact Ex.roomy_rect (x0 := 5 / 2) (y0 := 5 / 2) (x1 := 7 / 2) (y1 := 7 / 2) (by norm_num) (by norm_num) rfl (by decide +kernel)
      (by decide +kernel) (by decide +kernel) (by decide +kernel)
  · have := hall (fun x => x.shape.val.Roomy (1 / 125))
      (Ex.roomy_rect (x0 := 0) (y0 := 0) (x1 := 8) (y1 := 8) (by norm_num) (by norm_num) rfl (by decide +kernel)
        (by decide +kernel) (by decide +kernel) (by decide +kernel))
      (Ex.roomy_rect (x0 := 5) (y0 := 5) (x1 := 7) (y1 := 7) (by norm_num) (by norm_num) rfl (by decide +kernel)
        (by decide +kernel) (by decide +kernel) (by decide +kernel))
    exact fun x hx _ => this x hx
  · have := hall (fun x => x.entity.position = .interior →
        (∀ v ∈ bdry x.shape.val.points, v ∈ interior Ex.small.points) → NotJustInside x.shape.val.bbox Ex.small.bbox (1 / 125))
      (fun h => by cases h) (fun _ _ _ h => absurd h (by decide +kernel))
    exact fun x hx _ => this x hx

/-- The point test at a point inside the square item, with the same tolerance. -/
example : ∀ w ∈ bdry Ex.sq.points, (1 / 125 : ℚ) < |w.x - 6| ∨ 1 / 125 < |w.y - 13 / 2| := by
  intro w hw
  have hb := (bdry_rectPoly (x0 := (5 : ℚ)) (y0 := 5) (x1 := 7) (y1 := 7) (by norm_num) (by norm_num) w).1 hw
  by_contra hn
  push Not at hn
  obtain ⟨h1, h2⟩ := hn
  rw [abs_le] at h1 h2
  rcases hb.2 with h | h | h | h <;> linarith [h1.1, h1.2, h2.1, h2.2]

namespace Ex

/-- a tiny square inside the square item, close to its lower side -/
def tiny : SPoly ℚ :=
  { points := [⟨6499 / 1000, 5001 / 1000⟩, ⟨6501 / 1000, 5001 / 1000⟩, ⟨6501 / 1000, 5003 / 1000⟩, ⟨6499 / 1000, 5003 / 1000⟩],
    bbox := ⟨6499 / 1000, 5001 / 1000, 6501 / 1000, 5003 / 1000⟩, area := 4 / 1000000, poi := ⟨⟨6500 / 1000, 5002 / 1000⟩, 1 / 1000⟩ }

theorem tiny_proper : tiny.Proper where
  wf := ⟨by decide +kernel, by unfold AARect.Valid; decide +kernel, by decide⟩
  noSpike := by unfold NoSpike; decide +kernel
  poi := (interior_rectPoly (x0 := 6499 / 1000) (y0 := 5001 / 1000) (x1 := 6501 / 1000) (y1 := 5003 / 1000) (by norm_num) (by norm_num) _).2
    (by decide +kernel)

/-- an item in the form of a C -/
def cee : SPoly ℚ :=
  { points := [⟨2001 / 1000, 2001 / 1000⟩, ⟨5999 / 1000, 2001 / 1000⟩, ⟨5999 / 1000, 3⟩, ⟨3, 3⟩, ⟨3, 5⟩, ⟨5999 / 1000, 5⟩,
      ⟨5999 / 1000, 5999 / 1000⟩, ⟨2001 / 1000, 5999 / 1000⟩],
    bbox := ⟨2001 / 1000, 2001 / 1000, 5999 / 1000, 5999 / 1000⟩, area := 9986004 / 1000000, poi := ⟨⟨2500 / 1000, 4⟩, 499 / 1000⟩ }

theorem cee_wf : cee.WF := ⟨by decide +kernel, by unfold AARect.Valid; decide +kernel, by decide⟩

def hCee : Hazard ℚ := ⟨.placedItem 3 dt, ⟨5, cee⟩, true⟩

/-- a square that covers the C -/
def lid : SPoly ℚ :=
  { points := [⟨2, 2⟩, ⟨6, 2⟩, ⟨6, 6⟩, ⟨2, 6⟩], bbox := ⟨2, 2, 6, 6⟩, area := 16, poi := ⟨⟨4, 4⟩, 2⟩ }

theorem lid_proper : lid.Proper where
  wf := ⟨by decide +kernel, by unfold AARect.Valid; decide +kernel, by decide⟩
  noSpike := by unfold NoSpike; decide +kernel
  poi := (interior_rectPoly (x0 := 2) (y0 := 2) (x1 := 6) (y1 := 6) (by norm_num) (by norm_num) _).2 (by decide +kernel)

end Ex

/-- The tolerance matters to small shapes: a square that lies inside a placed item,
but closer to its lower side than the tolerance, is accepted. Without tolerance it
is rejected. -/
theorem C68_small_shapes_slip_in : ∃ c c' : CDE ℚ 2, c.Reachable Ex.tol SearchOracle.first ∧ c'.Reachable Fpa.exact SearchOracle.first ∧
    c.Good ∧ (∀ h ∈ c.allHazards, h.shape.val.Proper) ∧ c'.allHazards = c.allHazards ∧ Ex.tiny.Proper ∧
    (∃ h ∈ c.allHazards, h.entity.position = .interior ∧ ∀ w ∈ bdry Ex.tiny.points, w ∈ interior h.shape.val.points) ∧
    c.polyCollides Ex.tol Ex.tiny [] = some false ∧ c'.polyCollides Fpa.exact Ex.tiny [] = some true := by
  obtain ⟨c, hc⟩ : ∃ c, Ex.tolEngine Ex.hSq = some c := Option.isSome_iff_exists.1 (by decide +kernel)
  have h : (Ex.tolEngine Ex.hSq).map (fun c => (c.allHazards, c.bbox, c.polyCollides Ex.tol Ex.tiny [])) =
      some ([Ex.hBin, Ex.hSq], ⟨0, 0, 8, 8⟩, some false) := by decide +kernel
  rw [hc] at h
  simp only [Option.map_some, Option.some.injEq, Prod.mk.injEq] at h
  obtain ⟨h1, h2, h3⟩ := h
  obtain ⟨c', hr', hs', hd', -, -, -, hc'⟩ := Ex.exists_engine
  have h' : (Ex.start.bind (Ex.runChecked Ex.ops)).map (fun c => c.polyCollides Fpa.exact Ex.tiny []) = some (some true) := by
    decide +kernel
  rw [hc'] at h'
  simp only [Option.map_some, Option.some.injEq] at h'
  refine ⟨c, c', Ex.tolEngine_spec hc, hr', Ex.tol_good Ex.sq_wf rfl rfl h1 h2, ?_, ?_, Ex.tiny_proper, ⟨Ex.hSq, by rw [h1]; simp, rfl, ?_⟩, h3, h'⟩
  · intro x hx
    rw [h1] at hx
    simp only [List.mem_cons, List.not_mem_nil, or_false] at hx
    rcases hx with rfl | rfl
    · exact Ex.bin_proper
    · exact Ex.sq_proper
  · rw [h1]
    unfold CDE.allHazards
    rw [hs', hd']
    rfl
  · intro w hw
    have hb := bdry_subset_bbox hw
    have e : boundingBox Ex.tiny.points = ⟨6499 / 1000, 5001 / 1000, 6501 / 1000, 5003 / 1000⟩ := by decide +kernel
    rw [e] at hb
    obtain ⟨b1, b2, b3, b4⟩ := hb
    simp only at b1 b2 b3 b4
    refine (interior_rectPoly (x0 := 5) (y0 := 5) (x1 := 7) (y1 := 7) (by norm_num) (by norm_num) _).2 ⟨?_, ?_, ?_, ?_⟩ <;> linarith

/-- The tolerance matters to shapes of any size when bounding boxes almost coincide:
a square is accepted on top of an item in the form of a C that it covers
completely. -/
theorem C68_covered_item_missed : ∃ c : CDE ℚ 2, c.Reachable Ex.tol SearchOracle.first ∧ c.Good ∧ Ex.lid.Proper ∧ Ex.lid.Roomy 1 ∧
    (∃ h ∈ c.allHazards, h.entity.position = .interior ∧ ∀ w ∈ bdry h.shape.val.points, w ∈ interior Ex.lid.points) ∧
    c.polyCollides Ex.tol Ex.lid [] = some false := by
  obtain ⟨c, hc⟩ : ∃ c, Ex.tolEngine Ex.hCee = some c := Option.isSome_iff_exists.1 (by decide +kernel)
  have h : (Ex.tolEngine Ex.hCee).map (fun c => (c.allHazards, c.bbox, c.polyCollides Ex.tol Ex.lid [])) =
      some ([Ex.hBin, Ex.hCee], ⟨0, 0, 8, 8⟩, some false) := by decide +kernel
  rw [hc] at h
  simp only [Option.map_some, Option.some.injEq, Prod.mk.injEq] at h
  obtain ⟨h1, h2, h3⟩ := h
  refine ⟨c, Ex.tolEngine_spec hc, Ex.tol_good Ex.cee_wf rfl rfl h1 h2, Ex.lid_proper, ?_, ⟨Ex.hCee, by rw [h1]; simp, rfl, ?_⟩, h3⟩
  · exact Ex.roomy_rect (x0 := 2) (y0 := 2) (x1 := 6) (y1 := 6) (by norm_num) (by norm_num) rfl (by decide +kernel)
      (by decide +kernel) (by decide +kernel) (by decide +kernel)
  · intro w hw
    have hb := bdry_subset_bbox hw
    have e : boundingBox Ex.hCee.shape.val.points = ⟨2001 / 1000, 2001 / 1000, 5999 / 1000, 5999 / 1000⟩ := by decide +kernel
    rw [e] at hb
    obtain ⟨b1, b2, b3, b4⟩ := hb
    simp only at b1 b2 b3 b4
    refine (interior_rectPoly (x0 := 2) (y0 := 2) (x1 := 6) (y1 := 6) (by norm_num) (by norm_num) _).2 ⟨?_, ?_, ?_, ?_⟩ <;> linarith

end Jagua
