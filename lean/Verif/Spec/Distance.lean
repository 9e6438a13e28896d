import Verif.Spec.Sets

/-!
# Specification: distances between a point and a set

`IsSqDist p S d` says that `d` is the squared distance from the point `p` to
the set `S`, attained at some point of `S`.
-/

namespace Jagua

variable {K : Type*} [Field K] [LinearOrder K]

/-- `d` is the smallest squared distance from `p` to a point of `S`. -/
def IsSqDist (p : Point K) (S : Set (Point K)) (d : K) : Prop :=
  (∃ q ∈ S, (p.x - q.x) ^ 2 + (p.y - q.y) ^ 2 = d) ∧
  ∀ q ∈ S, d ≤ (p.x - q.x) ^ 2 + (p.y - q.y) ^ 2

/-- The border of a closed rectangle: the points on one of its four sides. -/
def AARect.border (r : AARect K) : Set (Point K) :=
  {p | p ∈ r.pts ∧ (p.x = r.xMin ∨ p.x = r.xMax ∨ p.y = r.yMin ∨ p.y = r.yMax)}

/-- The interior of a rectangle. -/
def AARect.inner (r : AARect K) : Set (Point K) :=
  {p | r.xMin < p.x ∧ p.x < r.xMax ∧ r.yMin < p.y ∧ p.y < r.yMax}

/-- `d` is the smallest distance between a point of `S` and a point of `T`. -/
def IsDist (S T : Set (Point K)) (d : K) : Prop :=
  0 ≤ d ∧ (∃ p ∈ S, ∃ q ∈ T, (p.x - q.x) ^ 2 + (p.y - q.y) ^ 2 = d ^ 2) ∧
  ∀ p ∈ S, ∀ q ∈ T, d ^ 2 ≤ (p.x - q.x) ^ 2 + (p.y - q.y) ^ 2

/-- `d` is the largest distance between two points of `S`. -/
def IsDiameter (S : Set (Point K)) (d : K) : Prop :=
  0 ≤ d ∧ (∃ p ∈ S, ∃ q ∈ S, (p.x - q.x) ^ 2 + (p.y - q.y) ^ 2 = d ^ 2) ∧
  ∀ p ∈ S, ∀ q ∈ S, (p.x - q.x) ^ 2 + (p.y - q.y) ^ 2 ≤ d ^ 2

/-- The border of a disc. -/
def Circle.border (c : Circle K) : Set (Point K) :=
  {p | (p.x - c.center.x) ^ 2 + (p.y - c.center.y) ^ 2 = c.radius ^ 2}

/-- The disc without its border. -/
def Circle.inner (c : Circle K) : Set (Point K) :=
  {p | (p.x - c.center.x) ^ 2 + (p.y - c.center.y) ^ 2 < c.radius ^ 2}

end Jagua
