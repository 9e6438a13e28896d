import Verif.Props.RoundedGeo
import Verif.Props.Tolerance
import Verif.Lemmas.RoundedEngine

/-! # C69 and C70: the engine in arithmetic with rounding -/

set_option linter.unusedSectionVars false

namespace Jagua

namespace Ex

/-- equality as comparison -/
def fExact : Fpa F32 := ⟨fun a b => decide (a = b)⟩

/-- a polygon with the given pole of inaccessibility -/
def fPoly (pts : List (ℚ × ℚ)) (c : ℚ × ℚ) (rad : ℚ) : Option (SPoly F32) :=
  SPoly.new (fun _ => ⟨⟨f32 c.1, f32 c.2⟩, f32 rad⟩) (pts.map fun p => ⟨f32 p.1, f32 p.2⟩)

/-- a square bin -/
def fBin : SPoly F32 := (fPoly [(0, 0), (2291 / 10, 0), (2291 / 10, 2291 / 10), (0, 2291 / 10)] (114, 114) 114).get (by decide +kernel)

/-- a square item -/
def fItem : SPoly F32 := (fPoly [(75, 70), (95, 70), (95, 90), (75, 90)] (85, 80) 10).get (by decide +kernel)

/-- a triangle on the diagonal of the bin; its third coordinate is one unit in the last place off -/
def fLid : SPoly F32 := (fPoly [(424 / 10, 424 / 10), (2046 / 10, 2046 / 10 - 1 / 65536), (424 / 10, 2046 / 10)] (899 / 10, 1571 / 10) 47).get (by decide +kernel)

def fEngine : Option (CDE F32 2) := do
  let c ← CDE.new fExact SearchOracle.first 2 fBin.bbox [⟨.binExterior, ⟨1, fBin⟩, true⟩]
  (CDEOp.register ⟨.placedItem 3 ⟨0, 0, 0⟩, ⟨2, fItem⟩, true⟩).run fExact SearchOracle.first c

theorem fEngine_spec {c : CDE F32 2} (hc : fEngine = some c) : c.Reachable fExact SearchOracle.first := by
  unfold fEngine at hc
  cases h0 : CDE.new fExact SearchOracle.first 2 fBin.bbox [⟨.binExterior, ⟨1, fBin⟩, true⟩] with
  | none => rw [h0] at hc; simp at hc
  | some c₀ =>
    have hst : (CDE.new fExact SearchOracle.first 2 fBin.bbox [⟨.binExterior, ⟨1, fBin⟩, true⟩]).map (·.allHazards) =
        some [⟨.binExterior, ⟨1, fBin⟩, true⟩] := by decide +kernel
    rw [h0] at hc hst
    replace hc : (CDEOp.register ⟨.placedItem 3 ⟨0, 0, 0⟩, ⟨2, fItem⟩, true⟩).run fExact SearchOracle.first c₀ = some c := hc
    simp only [Option.map_some, Option.some.injEq] at hst
    have hpre : (CDEOp.register ⟨.placedItem 3 ⟨0, 0, 0⟩, ⟨2, fItem⟩, true⟩).Pre c₀ := by
      unfold CDEOp.Pre; simp only [hst]; simp
    exact ⟨_, [⟨.binExterior, ⟨1, fBin⟩, true⟩], c₀, _, by decide, h0, .cons hpre hc (.nil _)⟩

theorem far_of_sides {pts : List (Point ℚ)} {p : Point ℚ} {δ : ℚ}
    (h : ∀ s ∈ sides pts, δ * (|s.2.x - s.1.x| + |s.2.y - s.1.y|) < |(⟨s.1, s.2⟩ : Edge ℚ).side p|) :
    ∀ q ∈ bdry pts, δ < |q.x - p.x| ∨ δ < |q.y - p.y| := by
  rintro q ⟨s, hs, hq⟩
  exact far_of_side (h s hs) q hq

theorem odd_of_test {pts : List (Point ℚ)} {p : Point ℚ} (hp : p ∉ bdry pts) (h0 : pts ≠ []) (hv : (boundingBox pts).Valid)
    (h : (⟨pts, boundingBox pts, 0, ⟨⟨0, 0⟩, 0⟩, none⟩ : SPoly ℚ).collidesPoint Fpa.exact p = true) : p ∈ interior pts :=
  (SPoly.collidesPoint_iff (s := ⟨pts, boundingBox pts, 0, ⟨⟨0, 0⟩, 0⟩, none⟩) ⟨rfl, hv, h0⟩ hp).1 h

end Ex

/-- C70: because of the roundoff, the engine can overlook a large overlap. In
single precision, a triangle and an item overlap: they have an interior point in
common that is more than 3 away from both outlines, and the triangle lies in the
bin. The query reports no collision, because an edge of the triangle runs along
the diagonal of a cell of the quadtree, and neither end of that diagonal is
recognised as a common point of the edge and the cell. -/
theorem C70_overlap_missed : ∃ c : CDE Ex.F32 2, c.Reachable Ex.fExact SearchOracle.first ∧
    (∀ h ∈ c.allHazards, ∃ pole, SPoly.new (fun _ => pole) h.shape.val.points = some h.shape.val) ∧
    (∃ pole, SPoly.new (fun _ => pole) Ex.fLid.points = some Ex.fLid) ∧
    (∃ h ∈ c.allHazards, h.entity.position = .interior ∧ ∃ p : Point ℚ,
      (p ∈ interior h.shape.val.exact ∧ ∀ q ∈ bdry h.shape.val.exact, 3 < |q.x - p.x| ∨ 3 < |q.y - p.y|) ∧
      (p ∈ interior Ex.fLid.exact ∧ ∀ q ∈ bdry Ex.fLid.exact, 3 < |q.x - p.x| ∨ 3 < |q.y - p.y|)) ∧
    (∀ p ∈ Ex.fLid.points, ∀ h ∈ c.allHazards, h.entity = .binExterior → p.exact ∈ interior h.shape.val.exact) ∧
    c.polyCollides Ex.fExact Ex.fLid [] = some false := by
  obtain ⟨c, hc⟩ : ∃ c, Ex.fEngine = some c := Option.isSome_iff_exists.1 (by decide +kernel)
  have h : Ex.fEngine.map (fun c => (c.allHazards, c.polyCollides Ex.fExact Ex.fLid [])) =
      some ([⟨.binExterior, ⟨1, Ex.fBin⟩, true⟩, ⟨.placedItem 3 ⟨0, 0, 0⟩, ⟨2, Ex.fItem⟩, true⟩], some false) := by decide +kernel
  rw [hc] at h
  simp only [Option.map_some, Option.some.injEq, Prod.mk.injEq] at h
  obtain ⟨h1, h2⟩ := h
  have far : ∀ {pts : List (Point ℚ)} {p : Point ℚ}, (∀ q ∈ bdry pts, 3 < |q.x - p.x| ∨ 3 < |q.y - p.y|) → p ∉ bdry pts := by
    intro pts p hp hb
    have := hp p hb
    norm_num at this
  have f1 := Ex.far_of_sides (pts := Ex.fItem.exact) (p := ⟨79, 86⟩) (δ := 3) (by decide +kernel)
  have f2 := Ex.far_of_sides (pts := Ex.fLid.exact) (p := ⟨79, 86⟩) (δ := 3) (by decide +kernel)
  refine ⟨c, Ex.fEngine_spec hc, ?_, ⟨Ex.fLid.poi, by decide +kernel⟩, ⟨⟨.placedItem 3 ⟨0, 0, 0⟩, ⟨2, Ex.fItem⟩, true⟩, by rw [h1]; simp, rfl, ⟨79, 86⟩,
    ⟨Ex.odd_of_test (far f1) (by decide +kernel) (by unfold AARect.Valid; decide +kernel) (by decide +kernel), f1⟩, Ex.odd_of_test (far f2) (by decide +kernel) (by unfold AARect.Valid; decide +kernel) (by decide +kernel), f2⟩, ?_, h2⟩
  · rw [h1]
    intro x hx
    refine ⟨x.shape.val.poi, ?_⟩
    revert x
    decide +kernel
  · rw [h1]
    intro p hp x hx he
    simp only [List.mem_cons, List.not_mem_nil, or_false] at hx
    rcases hx with rfl | rfl
    · have : ∀ p ∈ Ex.fLid.points, (∀ s ∈ sides Ex.fBin.exact, 3 * (|s.2.x - s.1.x| + |s.2.y - s.1.y|) < |(⟨s.1, s.2⟩ : Edge ℚ).side p.exact|) ∧
          (⟨Ex.fBin.exact, boundingBox Ex.fBin.exact, 0, ⟨⟨0, 0⟩, 0⟩, none⟩ : SPoly ℚ).collidesPoint Fpa.exact p.exact = true := by decide +kernel
      obtain ⟨k1, k2⟩ := this p hp
      exact Ex.odd_of_test (far (Ex.far_of_sides k1)) (by decide +kernel) (by unfold AARect.Valid; decide +kernel) k2
    · exact absurd he (by decide)

/-! ## When the roundoff does not matter -/

variable {r : Rounding} {u : ℚ} {n : ℕ}

/-- C69: two edges in general position up to the roundoff, and an edge and a
rectangle in general position, are reported as colliding iff they share a point.
Horizontal and vertical edges need no margin. -/
theorem C69_general_position (st : r.Standard u) (hu : u ≤ 1 / 256) {d : ℚ} :
    (∀ e f : Edge (Rounded r), e.exact.Decided f.exact u d → (e.collidesEdge f = true ↔ (e.exact.pts ∩ f.exact.pts).Nonempty)) ∧
    (∀ (b : AARect (Rounded r)) (e : Edge (Rounded r)), b.exact.Valid → b.exact.Decided e.exact u d →
      (b.collidesEdge e = true ↔ (e.exact.pts ∩ b.exact.pts).Nonempty)) :=
  ⟨fun _ _ h => collidesEdge_decided st hu h, fun _ _ hb h => rect_collidesEdge_decided st hu hb h⟩

/-- C70: in arithmetic with rounding, a query of an engine in a reachable state
answers whether the shape fits, if the cells, edges and bounding boxes that are
compared are in general position up to the roundoff. -/
theorem C70_query_decides_feasibility (st : r.Standard u) (hu : u ≤ 1 / 256) {f : Fpa (Rounded r)} {M ε d δ : ℚ} (hf : f.TolerantIn M ε)
    {o : SearchOracle (Rounded r)} {c : CDE (Rounded r) n} (hc : c.Reachable f o) {s : SPoly (Rounded r)} {irr : List (HazardEntity (Rounded r))}
    (hr : c.Rounds s irr u M ε d δ) :
    ∃ b, c.polyCollides f s irr = some b ∧ (b = true ↔ ¬ s.bbox.exact.pts ⊆ c.bbox.exact.pts ∨
      ∃ h ∈ c.allHazards, h.entity ∉ irr ∧ ∃ w ∈ region s.exact, w ∈ closedHaz h.entity.position h.shape.val.exact) :=
  hc.inv.polyCollides_rounded hr st hu hf

namespace Ex

instance (e : Edge ℚ) : Decidable e.Level := by unfold Edge.Level; infer_instance
instance (e : Edge ℚ) : Decidable e.Upright := by unfold Edge.Upright; infer_instance
instance (e f : Edge ℚ) : Decidable (e.BoxesApart f) := by unfold Edge.BoxesApart; infer_instance
instance (e f : Edge ℚ) (F : ℚ) : Decidable (e.Beside f F) := by unfold Edge.Beside; infer_instance
instance (e f : Edge ℚ) : Decidable (e.Crosses f) := by unfold Edge.Crosses; infer_instance
instance (b : AARect ℚ) (p : Point ℚ) : Decidable (p ∈ b.pts) :=
  inferInstanceAs (Decidable (b.xMin ≤ p.x ∧ p.x ≤ b.xMax ∧ b.yMin ≤ p.y ∧ p.y ≤ b.yMax))
instance (e f : Edge ℚ) (u d : ℚ) : Decidable (e.Decided f u d) := by unfold Edge.Decided; infer_instance
instance (b : AARect ℚ) (e : Edge ℚ) (u d : ℚ) : Decidable (b.Decided e u d) := by unfold AARect.Decided; infer_instance
instance (r : Rounding) (b : AARect ℚ) (δ : ℚ) : Decidable (b.Halved r δ) := by unfold AARect.Halved; infer_instance
instance (pts : List (Point ℚ)) (M : ℚ) : Decidable (Bounded pts M) := by unfold Bounded; infer_instance
instance (a b : AARect ℚ) (ε : ℚ) : Decidable (NotJustInside a b ε) := by unfold NotJustInside; infer_instance

-- touching axis parallel edges, and an edge along a side of a rectangle
example : (fEdge 0 1 4 1).exact.Decided (fEdge 4 0 4 3).exact (1 / 2 ^ 24) 4 ∧ (fEdge 0 1 4 1).collidesEdge (fEdge 4 0 4 3) = true ∧
    (fBox 0 0 3 1).exact.Decided (fEdge 1 1 2 1).exact (1 / 2 ^ 24) 4 ∧ (fBox 0 0 3 1).collidesEdge (fEdge 1 1 2 1) = true := by decide +kernel

/-- a rectangular bin -/
def gBin : SPoly F32 := (fPoly [(0, 0), (16, 0), (16, 121 / 10), (0, 121 / 10)] (8, 6) 6).get (by decide +kernel)

/-- a placed triangle -/
def gItem : SPoly F32 := (fPoly [(1 / 3, 1 / 5), (10, 8 / 7), (3, 9)] (4, 3) 2).get (by decide +kernel)

/-- a triangle that overlaps with it -/
def gHit : SPoly F32 := (fPoly [(6, 27 / 10), (151 / 10, 36 / 10), (143 / 10, 111 / 10)] (12, 6) 2).get (by decide +kernel)

/-- a triangle inside of it -/
def gIn : SPoly F32 := (fPoly [(31 / 10, 27 / 10), (51 / 10, 29 / 10), (39 / 10, 45 / 10)] (4, 33 / 10) (1 / 2)).get (by decide +kernel)

/-- a triangle beside it -/
def gFree : SPoly F32 := (fPoly [(102 / 10, 27 / 10), (151 / 10, 36 / 10), (143 / 10, 111 / 10)] (133 / 10, 6) 2).get (by decide +kernel)

def gHazards : List (Hazard F32) := [⟨.binExterior, ⟨1, gBin⟩, true⟩, ⟨.placedItem 3 ⟨0, 0, 0⟩, ⟨2, gItem⟩, true⟩]

def gEngine : Option (CDE F32 2) := do
  let c ← CDE.new fTol SearchOracle.first 2 gBin.bbox [⟨.binExterior, ⟨1, gBin⟩, true⟩]
  (CDEOp.register ⟨.placedItem 3 ⟨0, 0, 0⟩, ⟨2, gItem⟩, true⟩).run fTol SearchOracle.first c

theorem gEngine_spec {c : CDE F32 2} (hc : gEngine = some c) : c.Reachable fTol SearchOracle.first := by
  unfold gEngine at hc
  cases h0 : CDE.new fTol SearchOracle.first 2 gBin.bbox [⟨.binExterior, ⟨1, gBin⟩, true⟩] with
  | none => rw [h0] at hc; simp at hc
  | some c₀ =>
    have hst : (CDE.new fTol SearchOracle.first 2 gBin.bbox [⟨.binExterior, ⟨1, gBin⟩, true⟩]).map (·.allHazards) =
        some [⟨.binExterior, ⟨1, gBin⟩, true⟩] := by decide +kernel
    rw [h0] at hc hst
    replace hc : (CDEOp.register ⟨.placedItem 3 ⟨0, 0, 0⟩, ⟨2, gItem⟩, true⟩).run fTol SearchOracle.first c₀ = some c := hc
    simp only [Option.map_some, Option.some.injEq] at hst
    have hpre : (CDEOp.register ⟨.placedItem 3 ⟨0, 0, 0⟩, ⟨2, gItem⟩, true⟩).Pre c₀ := by
      unfold CDEOp.Pre; simp only [hst]; simp
    exact ⟨_, [⟨.binExterior, ⟨1, gBin⟩, true⟩], c₀, _, by decide, h0, .cons hpre hc (.nil _)⟩

theorem roomy_of_far {pts : List (Point ℚ)} {p : Point ℚ} {δ : ℚ} (hp : p ∈ interior pts) (h : ∀ q ∈ bdry pts, δ < |q.x - p.x| ∨ δ < |q.y - p.y|) :
    ∀ w ∈ around p δ, w ∈ region pts := by
  intro w hw
  have hδ : 0 ≤ δ := (abs_nonneg _).trans hw.1
  refine .inr ((interior_const (p := p) (q := w) ?_).1 hp)
  intro v hv hb
  have hin : v ∈ (⟨p.x - δ, p.y - δ, p.x + δ, p.y + δ⟩ : AARect ℚ).pts := by
    refine seg_in_rect (r := ⟨p.x - δ, p.y - δ, p.x + δ, p.y + δ⟩) ⟨?_, ?_, ?_, ?_⟩ ⟨?_, ?_, ?_, ?_⟩ hv <;>
      [skip; skip; skip; skip; have := (abs_le.1 hw.1).1; have := (abs_le.1 hw.1).2; have := (abs_le.1 hw.2).1; have := (abs_le.1 hw.2).2] <;>
      dsimp only <;> linarith
  obtain ⟨v1, v2, v3, v4⟩ := hin
  dsimp only at v1 v2 v3 v4
  rcases h v hb with h | h
  · rw [lt_abs] at h; rcases h with h | h <;> linarith
  · rw [lt_abs] at h; rcases h with h | h <;> linarith

/-- what has to be calculated to show that a polygon is large enough -/
theorem tame_of {s : SPoly F32} {M δ : ℚ} (h0 : 0 ≤ δ) (h1 : s.bbox = boundingBox s.points) (h2 : s.points ≠ []) (h3 : Bounded s.exact M)
    (h4 : 2 * (1 / 2 ^ 24) * M ≤ s.bbox.exact.width) (h5 : 32 * (1 / 2 ^ 24) * s.bbox.exact.width ≤ δ)
    (hv : (boundingBox s.exact).Valid)
    (h6 : ∀ t ∈ sides s.exact, δ * (|t.2.x - t.1.x| + |t.2.y - t.1.y|) < |(⟨t.1, t.2⟩ : Edge ℚ).side s.poi.center.exact|)
    (h7 : (⟨s.exact, boundingBox s.exact, 0, ⟨⟨0, 0⟩, 0⟩, none⟩ : SPoly ℚ).collidesPoint Fpa.exact s.poi.center.exact = true) :
    s.Tame (1 / 2 ^ 24) M δ := by
  have hf := far_of_sides h6
  have hb : s.poi.center.exact ∉ bdry s.exact := by
    intro hb
    have := hf _ hb
    simp only [sub_self, abs_zero, or_self] at this
    linarith
  have hi := odd_of_test hb (exact_ne h2) hv h7
  exact ⟨h1, h2, h3, h4, h5, hi, roomy_of_far hi hf⟩

theorem g_tame : ∀ s ∈ [gBin, gItem, gHit, gIn, gFree], s.Tame (1 / 2 ^ 24) 16 (1 / 1000) := by
  have h : ∀ s ∈ [gBin, gItem, gHit, gIn, gFree], s.bbox = boundingBox s.points ∧ s.points ≠ [] ∧ Bounded s.exact 16 ∧
      2 * (1 / 2 ^ 24) * 16 ≤ s.bbox.exact.width ∧ 32 * (1 / 2 ^ 24) * s.bbox.exact.width ≤ 1 / 1000 ∧
      ((boundingBox s.exact).xMin < (boundingBox s.exact).xMax ∧ (boundingBox s.exact).yMin < (boundingBox s.exact).yMax) ∧
      (∀ t ∈ sides s.exact, 1 / 1000 * (|t.2.x - t.1.x| + |t.2.y - t.1.y|) < |(⟨t.1, t.2⟩ : Edge ℚ).side s.poi.center.exact|) ∧
      (⟨s.exact, boundingBox s.exact, 0, ⟨⟨0, 0⟩, 0⟩, none⟩ : SPoly ℚ).collidesPoint Fpa.exact s.poi.center.exact = true := by decide +kernel
  intro s hs
  obtain ⟨h1, h2, h3, h4, h5, hv, h6, h7⟩ := h s hs
  exact tame_of (by norm_num) h1 h2 h3 h4 h5 hv h6 h7

theorem g_rounds {c : CDE F32 2} (h1 : c.allHazards = gHazards) (h2 : c.bbox = gBin.bbox) {s : SPoly F32} (hs : s ∈ [gHit, gIn, gFree]) :
    c.Rounds s [] (1 / 2 ^ 24) 16 (1 / 1000) 16 (1 / 1000) := by
  have hT := g_tame
  refine ⟨by norm_num, by norm_num, le_rfl, ?_, hT s ?_, ?_, ?_, ?_, ?_, ?_, ?_, ?_, ?_⟩
  · rw [h2]; decide +kernel
  · revert hs; simp only [List.mem_cons]; tauto
  · rw [h1]
    intro h hh _
    simp only [gHazards, List.mem_cons, List.not_mem_nil, or_false] at hh
    rcases hh with rfl | rfl
    · exact hT gBin (by simp)
    · exact hT gItem (by simp)
  · rw [h1]; intro h hh _; revert h; decide +kernel
  · rw [h1, h2]; intro h hh _ _; revert h; decide +kernel
  · rw [h1, h2]; intro h hh _; revert h; decide +kernel
  · rw [h2]; revert s; decide +kernel
  · rw [h1]; intro h hh _; revert h; revert s; decide +kernel
  · rw [h1]; intro h hh _; revert h; revert s; decide +kernel
  · have hn : ∀ s ∈ [gHit, gIn, gFree], ∀ h ∈ gHazards, NotJustInside h.shape.val.bbox.exact s.bbox.exact (1 / 1000) := by decide +kernel
    rw [h1]
    exact fun h hh _ _ _ => hn s hs h hh

-- a bin with a placed triangle in single precision, and a triangle that overlaps with it, one inside of it and one beside it
example : ∃ c : CDE F32 2, c.Reachable fTol SearchOracle.first ∧ (∀ M, fTol.TolerantIn M (1 / 1000)) ∧
    (∀ s ∈ [gHit, gIn, gFree], c.Rounds s [] (1 / 2 ^ 24) 16 (1 / 1000) 16 (1 / 1000)) ∧
    c.polyCollides fTol gHit [] = some true ∧ c.polyCollides fTol gIn [] = some true ∧ c.polyCollides fTol gFree [] = some false := by
  obtain ⟨c, hc⟩ : ∃ c, gEngine = some c := Option.isSome_iff_exists.1 (by decide +kernel)
  have h : gEngine.map (fun c => (c.allHazards, c.bbox)) = some (gHazards, gBin.bbox) := by decide +kernel
  have h' : gEngine.map (fun c => (c.polyCollides fTol gHit [], c.polyCollides fTol gIn [], c.polyCollides fTol gFree [])) =
      some (some true, some true, some false) := by decide +kernel
  rw [hc] at h h'
  simp only [Option.map_some, Option.some.injEq, Prod.mk.injEq] at h h'
  obtain ⟨h1, h2⟩ := h
  exact ⟨c, gEngine_spec hc, fun M => ⟨by simp [fTol], by intro a b _ _ h; simpa [fTol] using h⟩, fun s hs => g_rounds h1 h2 hs, h'⟩

end Ex

end Jagua
