import Verif.Spec.Engine

/-!
# Specification: comparisons with a tolerance

What it means that a tolerance is small compared to the shapes and to the cells
of the quadtree. Nothing here refers to the algorithms of the model.
-/

namespace Jagua

variable {K : Type*} [Field K] [LinearOrder K]

/-- The comparison `f` says "equal" for equal numbers and, among numbers of size
at most `M`, only for numbers that are at most `ε` apart. It need not be
symmetric or transitive. -/
structure Fpa.Tolerant (f : Fpa K) (M ε : K) : Prop where
  refl : ∀ a, f.eq a a = true
  near : ∀ a b, |a| ≤ M → |b| ≤ M → f.eq a b = true → |a - b| ≤ ε

/-- Two numbers are equal if their distance is at most the fraction `τ` of the
larger one: what the crate `almost` computes for numbers that are not close to
zero. -/
def Fpa.relative (τ : K) : Fpa K := ⟨fun a b => decide (|a - b| ≤ τ * max |a| |b|)⟩

/-- The closed square with half side `ε` around a point. -/
def around (p : Point K) (ε : K) : Set (Point K) := {q | |q.x - p.x| ≤ ε ∧ |q.y - p.y| ≤ ε}

/-- All coordinates have size at most `M`. -/
def Bounded (pts : List (Point K)) (M : K) : Prop := ∀ p ∈ pts, |p.x| ≤ M ∧ |p.y| ≤ M

/-- The box `a` does not lie inside the box `b` with all four sides at most `ε`
away from those of `b`. -/
def NotJustInside (a b : AARect K) (ε : K) : Prop :=
  b.xMin < a.xMin → a.xMax < b.xMax → b.yMin < a.yMin → a.yMax < b.yMax →
    ε < a.xMin - b.xMin ∨ ε < b.xMax - a.xMax ∨ ε < a.yMin - b.yMin ∨ ε < b.yMax - a.yMax

/-- The square with half side `ε` around the pole of inaccessibility lies in the
shape. -/
def SPoly.Roomy (s : SPoly K) (ε : K) : Prop := ∀ w ∈ around s.poi.center ε, w ∈ region s.points

/-- The tolerance is small compared to the cells of the quadtree: its smallest
cells have sides of at least `2 ε`; and all hazards lie in the square in which
`ε` is the tolerance. -/
structure CDE.Fine {n : ℕ} (c : CDE K n) (M ε : K) : Prop where
  nonneg : 0 ≤ ε
  width : ε * 2 ^ (n + 1) ≤ c.bbox.width
  height : ε * 2 ^ (n + 1) ≤ c.bbox.height
  bounded : ∀ h ∈ c.allHazards, Bounded h.shape.val.points M

/-- The tolerance is small compared to the shape of a query and the hazards that
matter to it; the bounding box of a hazard that the shape covers does not almost
coincide with that of the shape. -/
structure CDE.Tolerates {n : ℕ} (c : CDE K n) (s : SPoly K) (irr : List (HazardEntity K)) (M ε : K) : Prop where
  fine : c.Fine M ε
  bounded : Bounded s.points M
  roomy : s.Roomy ε
  hazards : ∀ h ∈ c.allHazards, h.entity ∉ irr → h.shape.val.Roomy ε
  boxes : ∀ h ∈ c.allHazards, h.entity ∉ irr → h.entity.position = .interior →
    (∀ v ∈ bdry h.shape.val.points, v ∈ interior s.points) → NotJustInside h.shape.val.bbox s.bbox ε

end Jagua
