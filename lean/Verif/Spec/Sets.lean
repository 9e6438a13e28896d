import Verif.Model.Geometry

/-!
# Specification: geometric primitives as point sets

These definitions say what the primitives *mean*. They do not use any of the
functions of the model.
-/

namespace Jagua

variable {K : Type*} [Field K] [LinearOrder K]

/-- The points of the closed segment between two points. -/
def segPts (a b : Point K) : Set (Point K) :=
  {p | ∃ t : K, 0 ≤ t ∧ t ≤ 1 ∧ p.x = a.x + t * (b.x - a.x) ∧ p.y = a.y + t * (b.y - a.y)}

/-- The points of an edge. -/
def Edge.pts (e : Edge K) : Set (Point K) := segPts e.start e.stop

/-- The points of a closed rectangle. -/
def AARect.pts (r : AARect K) : Set (Point K) :=
  {p | r.xMin ≤ p.x ∧ p.x ≤ r.xMax ∧ r.yMin ≤ p.y ∧ p.y ≤ r.yMax}

/-- The points of a closed disc. -/
def Circle.pts (c : Circle K) : Set (Point K) :=
  {p | (p.x - c.center.x) ^ 2 + (p.y - c.center.y) ^ 2 ≤ c.radius ^ 2}

/-- Two edges are parallel: their direction vectors have zero cross product. -/
def Edge.Parallel (e f : Edge K) : Prop :=
  (e.stop.x - e.start.x) * (f.stop.y - f.start.y) = (e.stop.y - e.start.y) * (f.stop.x - f.start.x)

end Jagua
