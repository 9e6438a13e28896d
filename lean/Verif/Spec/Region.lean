import Verif.Spec.Sets
import Mathlib.Data.List.Count
import Mathlib.Algebra.Ring.Parity

/-!
# Specification: the region enclosed by a closed polygon

The even-odd interior of a closed polygonal line, given by its list of
vertices. Nothing here refers to the model of the code.
-/

namespace Jagua

variable {K : Type*} [Field K] [LinearOrder K]

/-- The sides of the closed polygonal line through the given vertices: each
vertex with its successor, and the last one with the first. -/
def sides (pts : List (Point K)) : List (Point K × Point K) :=
  pts.zip (pts.rotate 1)

/-- The closed polygonal line as a point set. -/
def bdry (pts : List (Point K)) : Set (Point K) :=
  {p | ∃ s ∈ sides pts, p ∈ segPts s.1 s.2}

/-- The side `a b` crosses the horizontal ray going right from `p`. Sides are
half-open in `y` direction, so that a vertex on the ray is counted once. -/
def CrossesRay (p : Point K) (s : Point K × Point K) : Prop :=
  ((s.1.y < p.y ∧ p.y ≤ s.2.y) ∨ (s.2.y < p.y ∧ p.y ≤ s.1.y)) ∧
  ∃ c ∈ segPts s.1 s.2, c.y = p.y ∧ p.x < c.x

open Classical in
/-- Number of sides crossed by the ray. -/
noncomputable def rayCount (pts : List (Point K)) (p : Point K) : ℕ :=
  (sides pts).countP fun s => CrossesRay p s

/-- The (open, even-odd) interior of a closed polygonal line. -/
def interior (pts : List (Point K)) : Set (Point K) :=
  {p | p ∉ bdry pts ∧ Odd (rayCount pts p)}

/-- The closed region of a closed polygonal line. -/
def region (pts : List (Point K)) : Set (Point K) := bdry pts ∪ interior pts

/-- Consecutive sides do not fold back onto each other: if the side leaving a
vertex is parallel to the side arriving there, it continues in the same
direction. Every simple polygon has this property. -/
def NoSpike (pts : List (Point K)) : Prop :=
  ∀ s ∈ sides pts, ∀ t ∈ sides pts, s.2 = t.1 →
    (s.2.x - s.1.x) * (t.2.y - t.1.y) = (s.2.y - s.1.y) * (t.2.x - t.1.x) →
    0 < (s.2.x - s.1.x) * (t.2.x - t.1.x) + (s.2.y - s.1.y) * (t.2.y - t.1.y)

/-- The signed area enclosed by a closed polygonal line (shoelace formula). -/
def signedArea (pts : List (Point K)) : K :=
  (1 / 2) * ((sides pts).map fun s => s.1.x * s.2.y - s.2.x * s.1.y).sum

end Jagua
