import Verif.Spec.RoundedGeo

/-!
# Specification: when the roundoff does not matter to a query of the collision detection engine

The conditions are about the shapes in the rational plane and the rectangles into which the engine divides its area; they can be checked
by calculation. Nothing here refers to the algorithms of the model.
-/

namespace Jagua

/-- The middle of two numbers as it is computed: the sum is rounded, halved and rounded. -/
def Rounding.mid (r : Rounding) (a b : ℚ) : ℚ := r.rnd (r.rnd (a + b) / r.rnd 2)

/-- The four rectangles that the computed middle divides a rectangle into. -/
def AARect.parts (r : Rounding) (b : AARect ℚ) : List (AARect ℚ) :=
  [⟨r.mid b.xMin b.xMax, r.mid b.yMin b.yMax, b.xMax, b.yMax⟩, ⟨b.xMin, r.mid b.yMin b.yMax, r.mid b.xMin b.xMax, b.yMax⟩,
   ⟨b.xMin, b.yMin, r.mid b.xMin b.xMax, r.mid b.yMin b.yMax⟩, ⟨r.mid b.xMin b.xMax, b.yMin, b.xMax, r.mid b.yMin b.yMax⟩]

/-- The rectangles that arise when a rectangle is divided `n` times. -/
def AARect.cells (r : Rounding) : ℕ → AARect ℚ → List (AARect ℚ)
  | 0, b => [b]
  | n + 1, b => b :: (b.parts r).flatMap (AARect.cells r n)

/-- The computed middle of the rectangle lies in it, farther than `δ` from its sides. -/
def AARect.Halved (r : Rounding) (b : AARect ℚ) (δ : ℚ) : Prop :=
  (b.xMin + δ < r.mid b.xMin b.xMax ∧ r.mid b.xMin b.xMax + δ < b.xMax) ∧ b.yMin + δ < r.mid b.yMin b.yMax ∧ r.mid b.yMin b.yMax + δ < b.yMax

/-- The edges in the rational plane. -/
def SPoly.exactEdges {r : Rounding} (s : SPoly (Rounded r)) : List (Edge ℚ) := (sides s.exact).map fun t => ⟨t.1, t.2⟩

/-- A polygon that is large compared to the roundoff: in the direction of the rays, with which points are located, and around its pole of
inaccessibility. -/
structure SPoly.Tame {r : Rounding} (s : SPoly (Rounded r)) (u M δ : ℚ) : Prop where
  bbox_eq : s.bbox = boundingBox s.points
  nonempty : s.points ≠ []
  bounded : Bounded s.exact M
  wide : 2 * u * M ≤ s.bbox.exact.width
  fine : 32 * u * s.bbox.exact.width ≤ δ
  poi : s.poi.center.exact ∈ interior s.exact
  roomy : ∀ w ∈ around s.poi.center.exact δ, w ∈ region s.exact

/-- The roundoff is small compared to the cells of the quadtree, the query shape and the hazards that matter; and what is compared, the
cells, the edges and the bounding boxes, is in general position up to the roundoff. -/
structure CDE.Rounds {r : Rounding} {n : ℕ} (c : CDE (Rounded r) n) (s : SPoly (Rounded r)) (irr : List (HazardEntity (Rounded r)))
    (u M ε d δ : ℚ) : Prop where
  pos : 0 < δ
  nonneg : 0 ≤ ε
  tolerance : ε ≤ δ
  halved : ∀ b ∈ c.bbox.exact.cells r n, b.Halved r δ
  shape : s.Tame u M δ
  hazards : ∀ h ∈ c.allHazards, h.entity ∉ irr → h.shape.val.Tame u M δ
  active : ∀ h ∈ c.allHazards, h.entity ∉ irr → h.active = true
  fits : ∀ h ∈ c.allHazards, h.entity ∉ irr → h.entity.position = .exterior →
    c.bbox.exact.width ≤ h.shape.val.bbox.exact.width ∨ c.bbox.exact.height ≤ h.shape.val.bbox.exact.height
  hazardCells : ∀ h ∈ c.allHazards, h.entity ∉ irr → ∀ b ∈ c.bbox.exact.cells r n, ∀ e ∈ h.shape.val.exactEdges, b.Decided e u d
  shapeCells : ∀ b ∈ c.bbox.exact.cells r n, ∀ e ∈ s.exactEdges, b.Decided e u d
  shapeBoxes : ∀ h ∈ c.allHazards, h.entity ∉ irr → ∀ e ∈ s.exactEdges, h.shape.val.bbox.exact.Decided e u d
  edges : ∀ h ∈ c.allHazards, h.entity ∉ irr → ∀ e ∈ s.exactEdges, ∀ e' ∈ h.shape.val.exactEdges, e.Decided e' u d
  boxes : ∀ h ∈ c.allHazards, h.entity ∉ irr → h.entity.position = .interior → (∀ v ∈ bdry h.shape.val.exact, v ∈ interior s.exact) →
    NotJustInside h.shape.val.bbox.exact s.bbox.exact ε

end Jagua
