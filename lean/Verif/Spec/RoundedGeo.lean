import Verif.Spec.Rounding
import Verif.Spec.Region
import Verif.Spec.Tolerance

/-!
# Specification: collision tests in arithmetic with rounding

The numbers of such an arithmetic are rationals, so the shapes they describe are
shapes in the rational plane. Nothing here refers to the algorithms of the model.
-/

namespace Jagua

/-- The standard model of floating point arithmetic: rounding changes a number by at most the fraction `u` of it, is monotone and
treats positive and negative numbers alike, and 1 is representable. Rounding to the nearest number with 24 binary digits, as `f32` does, is
an example with `u = 2 ^ (-24)`, if exponents are not limited: overflow and underflow are left out. -/
structure Rounding.Standard (r : Rounding) (u : ℚ) : Prop where
  one : r.rnd 1 = 1
  neg : ∀ x, r.rnd (-x) = -r.rnd x
  mono : Monotone r.rnd
  near : ∀ x, |r.rnd x - x| ≤ u * |x|

variable {r : Rounding}

/-- the point in the rational plane -/
def Point.exact (p : Point (Rounded r)) : Point ℚ := ⟨p.x.1, p.y.1⟩

/-- the edge in the rational plane -/
def Edge.exact (e : Edge (Rounded r)) : Edge ℚ := ⟨e.start.exact, e.stop.exact⟩

/-- the circle in the rational plane -/
def Circle.exact (c : Circle (Rounded r)) : Circle ℚ := ⟨c.center.exact, c.radius.1⟩

/-- the rectangle in the rational plane -/
def AARect.exact (b : AARect (Rounded r)) : AARect ℚ := ⟨b.xMin.1, b.yMin.1, b.xMax.1, b.yMax.1⟩

/-- the corners in the rational plane -/
def SPoly.exact (s : SPoly (Rounded r)) : List (Point ℚ) := s.points.map Point.exact

/-- Twice the area of the triangle of an edge and a point, with a sign that tells on which side the point is: the distance of the point
from the line through the edge, times the length of the edge. -/
def Edge.side (e : Edge ℚ) (p : Point ℚ) : ℚ :=
  (p.x - e.stop.x) * (e.stop.y - e.start.y) - (p.y - e.stop.y) * (e.stop.x - e.start.x)

/-- The four ends of two edges fit into a square with side `d`. -/
def Edge.Within (e f : Edge ℚ) (d : ℚ) : Prop :=
  ∀ a ∈ [e.start, e.stop, f.start, f.stop], ∀ b ∈ [e.start, e.stop, f.start, f.stop], |a.x - b.x| ≤ d ∧ |a.y - b.y| ≤ d

/-- No end of one edge is close to the line through the other one. -/
def Edge.Clear (e f : Edge ℚ) (F : ℚ) : Prop :=
  (F < |f.side e.start| ∧ F < |f.side e.stop|) ∧ F < |e.side f.start| ∧ F < |e.side f.stop|

/-- The four sides of a rectangle, counterclockwise. -/
def AARect.sides (b : AARect ℚ) : List (Edge ℚ) :=
  [⟨⟨b.xMax, b.yMax⟩, ⟨b.xMin, b.yMax⟩⟩, ⟨⟨b.xMin, b.yMax⟩, ⟨b.xMin, b.yMin⟩⟩,
   ⟨⟨b.xMin, b.yMin⟩, ⟨b.xMax, b.yMin⟩⟩, ⟨⟨b.xMax, b.yMin⟩, ⟨b.xMax, b.yMax⟩⟩]

/-- The edge is horizontal. -/
def Edge.Level (e : Edge ℚ) : Prop := e.start.y = e.stop.y ∧ e.start.x ≠ e.stop.x

/-- The edge is vertical. -/
def Edge.Upright (e : Edge ℚ) : Prop := e.start.x = e.stop.x ∧ e.start.y ≠ e.stop.y

/-- The bounding boxes of two edges have no common point. -/
def Edge.BoxesApart (e f : Edge ℚ) : Prop :=
  (max e.start.x e.stop.x < min f.start.x f.stop.x ∨ max f.start.x f.stop.x < min e.start.x e.stop.x) ∨
    max e.start.y e.stop.y < min f.start.y f.stop.y ∨ max f.start.y f.stop.y < min e.start.y e.stop.y

/-- The edge `e` lies clearly on one side of the line through `f`. -/
def Edge.Beside (e f : Edge ℚ) (F : ℚ) : Prop := (F < f.side e.start ∧ F < f.side e.stop) ∨ (f.side e.start < -F ∧ f.side e.stop < -F)

/-- The ends of each edge lie on different sides of the line through the other one. -/
def Edge.Crosses (e f : Edge ℚ) : Prop := f.side e.start * f.side e.stop < 0 ∧ e.side f.start * e.side f.stop < 0

/-- Two edges in general position, up to the roundoff: their boxes are apart, or one is horizontal and the other vertical, or one lies
clearly beside the other, or no end is close to the line through the other edge. -/
def Edge.Decided (e f : Edge ℚ) (u d : ℚ) : Prop :=
  e.BoxesApart f ∨ (e.Level ∧ f.Upright) ∨ (e.Upright ∧ f.Level) ∨
    (e.Within f d ∧ (e.Beside f (20 * u * d ^ 2) ∨ f.Beside e (20 * u * d ^ 2) ∨ e.Clear f (20 * u * d ^ 2)))

/-- A rectangle and an edge in general position, up to the roundoff: their boxes are apart, or an end of the edge lies in the rectangle,
or the edge is horizontal or vertical, or all corners lie clearly on one side of the edge, or the edge clearly crosses a side. -/
def AARect.Decided (b : AARect ℚ) (e : Edge ℚ) (u d : ℚ) : Prop :=
  ((max e.start.x e.stop.x < b.xMin ∨ b.xMax < min e.start.x e.stop.x) ∨ max e.start.y e.stop.y < b.yMin ∨ b.yMax < min e.start.y e.stop.y) ∨
    (e.start ∈ b.pts ∨ e.stop ∈ b.pts) ∨ (e.Level ∨ e.Upright) ∨
    ((∀ s ∈ b.sides, e.Within s d) ∧ ((∀ s ∈ b.sides, 20 * u * d ^ 2 < e.side s.start) ∨ (∀ s ∈ b.sides, e.side s.start < -(20 * u * d ^ 2)) ∨
      ∃ s ∈ b.sides, e.Clear s (20 * u * d ^ 2) ∧ e.Crosses s))

/-- The squared distance of a point from the centre of a circle is clearly different from the squared radius. -/
def Circle.Clear (c : Circle ℚ) (p : Point ℚ) (u : ℚ) : Prop :=
  5 * u * (((p.x - c.center.x) ^ 2 + (p.y - c.center.y) ^ 2) + c.radius ^ 2) <
    |((p.x - c.center.x) ^ 2 + (p.y - c.center.y) ^ 2) - c.radius ^ 2|

/-- The point is the one of the rectangle that is nearest to the centre of the circle. -/
def Circle.Nearest (c : Circle ℚ) (b : AARect ℚ) (q : Point ℚ) : Prop :=
  q ∈ b.pts ∧ ∀ q' ∈ b.pts, (q.x - c.center.x) ^ 2 + (q.y - c.center.y) ^ 2 ≤ (q'.x - c.center.x) ^ 2 + (q'.y - c.center.y) ^ 2

/-- A comparison with tolerance among representable numbers; see `Fpa.Tolerant`. -/
structure Fpa.TolerantIn (f : Fpa (Rounded r)) (M ε : ℚ) : Prop where
  refl : ∀ a, f.eq a a = true
  near : ∀ a b, |a.1| ≤ M → |b.1| ≤ M → f.eq a b = true → |a.1 - b.1| ≤ ε

/-- The bounding box that is stored is the one of the corners, and its width is `w`. -/
structure SPoly.Boxed (s : SPoly (Rounded r)) (w : ℚ) : Prop where
  bbox_eq : s.bbox = boundingBox s.points
  nonempty : s.points ≠ []
  width : s.bbox.xMax.1 - s.bbox.xMin.1 = w

end Jagua
