import Verif.Arith

/-!
# Geometric primitives

Model of `jagua-rs/src/geometry/primitives/{point,edge,aa_rectangle,circle}.rs`
and `jagua-rs/src/geometry/geo_enums.rs` over numbers `K` with
the operations of `fsize` (`Verif.Arith`, no laws assumed) and a linear order.
The expressions follow the code literally. Functions that take square
roots are in `Verif.Model.Distance`.
-/

namespace Jagua

/-- `geo_enums.rs:3-7` `GeoPosition`. -/
inductive GeoPosition
  | exterior
  | interior
  deriving DecidableEq, Repr

/-- `geo_enums.rs:12-21` `GeoRelation`. -/
inductive GeoRelation
  | intersecting
  | enclosed
  | surrounding
  | disjoint
  deriving DecidableEq, Repr

/-- `primitives/point.rs:8-9` `Point(x, y)`. -/
@[ext] structure Point (K : Type*) where
  x : K
  y : K
  deriving DecidableEq, Repr

/-- `primitives/edge.rs:10-15` `Edge`; `stop` is the field `end`. The panic of
`Edge::new` (lines 18-24) for coinciding end points is `Edge.mk?`. -/
@[ext] structure Edge (K : Type*) where
  start : Point K
  stop : Point K
  deriving DecidableEq, Repr

/-- `primitives/aa_rectangle.rs:10-17` `AARectangle`. -/
@[ext] structure AARect (K : Type*) where
  xMin : K
  yMin : K
  xMax : K
  yMax : K
  deriving DecidableEq, Repr

/-- `primitives/circle.rs:13-18` `Circle`. -/
@[ext] structure Circle (K : Type*) where
  center : Point K
  radius : K
  deriving DecidableEq, Repr

variable {K : Type*} [Arith K] [LinearOrder K]

/-- `util/fpa.rs:11-49` `FPA`: equality of floats up to the tolerance of the
external crate `almost`. The tolerance itself is a parameter of the model. -/
structure Fpa (K : Type*) where
  eq : K → K → Bool

namespace Fpa

/-- The exact comparison (tolerance zero). -/
def exact : Fpa K := ⟨fun a b => decide (a = b)⟩

/-- `util/fpa.rs:42-49`: `partial_cmp` is `Equal` when almost equal, otherwise
the order of the floats; this is the derived `<`. -/
def lt (f : Fpa K) (a b : K) : Bool := !f.eq a b && decide (a < b)

/-- `util/fpa.rs:42-49`, derived `<=`. -/
def le (f : Fpa K) (a b : K) : Bool := f.eq a b || decide (a < b)

end Fpa

namespace Point

/-- `primitives/point.rs:40-42` `Point::sq_distance`. -/
def sqDistance (p q : Point K) : K := (p.x - q.x) ^ 2 + (p.y - q.y) ^ 2

end Point

namespace Edge

/-- `primitives/edge.rs:18-24` `Edge::new`, `none` is the panic. -/
def mk? (s e : Point K) : Option (Edge K) := if s = e then none else some ⟨s, e⟩

/-- `primitives/edge.rs:94-96` -/
def xMin (e : Edge K) : K := min e.start.x e.stop.x
/-- `primitives/edge.rs:98-100` -/
def yMin (e : Edge K) : K := min e.start.y e.stop.y
/-- `primitives/edge.rs:102-104` -/
def xMax (e : Edge K) : K := max e.start.x e.stop.x
/-- `primitives/edge.rs:106-108` -/
def yMax (e : Edge K) : K := max e.start.y e.stop.y

/-- `primitives/edge.rs:143-145` `Edge::bbox`. -/
def bbox (e : Edge K) : AARect K := ⟨e.xMin, e.yMin, e.xMax, e.yMax⟩

/-- `primitives/edge.rs:132-137` `Edge::centroid`. -/
def centroid (e : Edge K) : Point K :=
  ⟨(e.start.x + e.stop.x) / 2, (e.start.y + e.stop.y) / 2⟩

/-- `primitives/edge.rs:44-51` `Edge::scale`. -/
def scale (e : Edge K) (factor : K) : Edge K :=
  let dx := e.stop.x - e.start.x
  let dy := e.stop.y - e.start.y
  ⟨⟨e.start.x - dx * (factor - 1) / 2, e.start.y - dy * (factor - 1) / 2⟩,
   ⟨e.stop.x + dx * (factor - 1) / 2, e.stop.y + dy * (factor - 1) / 2⟩⟩

/-- `primitives/edge.rs:53-56` `Edge::reverse`. -/
def reverse (e : Edge K) : Edge K := ⟨e.stop, e.start⟩

/-- `primitives/edge.rs:204-207`: the shared denominator of `t` and `u`. -/
def denom (e1 e2 : Edge K) : K :=
  (e1.stop.x - e1.start.x) * (e2.stop.y - e2.start.y)
    - (e1.stop.y - e1.start.y) * (e2.stop.x - e2.start.x)

/-- `primitives/edge.rs:190-227` `edge_intersection`. `none` is
`Intersection::No`, `some o` is `Intersection::Yes(o)`. -/
def edgeIntersection (e1 e2 : Edge K) (calcLocation : Bool) : Option (Option (Point K)) :=
  if max e1.xMin e2.xMin > min e1.xMax e2.xMax ∨ max e1.yMin e2.yMin > min e1.yMax e2.yMax then
    none
  else
    let x1 := e1.start.x; let y1 := e1.start.y
    let x2 := e1.stop.x; let y2 := e1.stop.y
    let x3 := e2.start.x; let y3 := e2.start.y
    let x4 := e2.stop.x; let y4 := e2.stop.y
    let tNom := (x2 - x4) * (y4 - y3) - (y2 - y4) * (x4 - x3)
    let tDenom := (x2 - x1) * (y4 - y3) - (y2 - y1) * (x4 - x3)
    let uNom := (x2 - x4) * (y2 - y1) - (y2 - y4) * (x2 - x1)
    let uDenom := (x2 - x1) * (y4 - y3) - (y2 - y1) * (x4 - x3)
    if tDenom = 0 ∨ uDenom = 0 then
      none
    else
      let t := tNom / tDenom
      let u := uNom / uDenom
      if (0 ≤ t ∧ t ≤ 1) ∧ (0 ≤ u ∧ u ≤ 1) then
        if calcLocation then
          some (some ⟨x2 + t * (x1 - x2), y2 + t * (y1 - y2)⟩)
        else
          some none
      else
        none

/-- `primitives/edge.rs:174-181` `CollidesWith<Edge> for Edge`. -/
def collidesEdge (e1 e2 : Edge K) : Bool :=
  match edgeIntersection e1 e2 false with
  | none => false
  | some _ => true

/-- `primitives/edge.rs:58-65` `Edge::collides_at`: the outer `Option` is the
panic of the `expect`, the inner one the result. -/
def collidesAt (e1 e2 : Edge K) : Option (Option (Point K)) :=
  match edgeIntersection e1 e2 true with
  | none => some none
  | some none => none
  | some (some p) => some (some p)

/-- `primitives/edge.rs:68-92` `closest_point_on_edge`. -/
def closestPoint (e : Edge K) (p : Point K) : Point K :=
  let x1 := e.start.x; let y1 := e.start.y
  let x2 := e.stop.x; let y2 := e.stop.y
  let a := p.x - x1
  let b := p.y - y1
  let c := x2 - x1
  let d := y2 - y1
  let dot := a * c + b * d
  let lenSq := c * c + d * d
  let param := if lenSq ≠ 0 then dot / lenSq else -1
  if param < 0 then ⟨x1, y1⟩
  else if param > 1 then ⟨x2, y2⟩
  else ⟨x1 + param * c, y1 + param * d⟩

/-- `primitives/edge.rs:152-159` `sq_distance` of a point to an edge. -/
def sqDistance (e : Edge K) (p : Point K) : K :=
  let c := e.closestPoint p
  (p.x - c.x) ^ 2 + (p.y - c.y) ^ 2

end Edge

namespace AARect

/-- `aa_rectangle.rs:20-35`: the `debug_assert!` of `AARectangle::new`. -/
def Valid (r : AARect K) : Prop := r.xMin < r.xMax ∧ r.yMin < r.yMax

/-- `aa_rectangle.rs:205-210` `CollidesWith<AARectangle>`. -/
def collidesRect (a b : AARect K) : Bool :=
  decide (max a.xMin b.xMin ≤ min a.xMax b.xMax)
    && decide (max a.yMin b.yMin ≤ min a.yMax b.yMax)

/-- `aa_rectangle.rs:212-217` `AlmostCollidesWith<AARectangle>`. -/
def almostCollidesRect (f : Fpa K) (a b : AARect K) : Bool :=
  f.le (max a.xMin b.xMin) (min a.xMax b.xMax)
    && f.le (max a.yMin b.yMin) (min a.yMax b.yMax)

/-- `aa_rectangle.rs:219-224` `CollidesWith<Point>`. -/
def collidesPoint (r : AARect K) (p : Point K) : Bool :=
  decide (p.x ≥ r.xMin) && decide (p.x ≤ r.xMax) && decide (p.y ≥ r.yMin) && decide (p.y ≤ r.yMax)

/-- `aa_rectangle.rs:226-234` `AlmostCollidesWith<Point>`. -/
def almostCollidesPoint (f : Fpa K) (r : AARect K) (p : Point K) : Bool :=
  f.le r.xMin p.x && f.le p.x r.xMax && f.le r.yMin p.y && f.le p.y r.yMax

/-- `aa_rectangle.rs:38-58` `relation_to`. -/
def relationTo (a b : AARect K) : GeoRelation :=
  if a.collidesRect b then
    if a.xMin ≤ b.xMin ∧ a.yMin ≤ b.yMin ∧ a.xMax ≥ b.xMax ∧ a.yMax ≥ b.yMax then .surrounding
    else if a.xMin ≥ b.xMin ∧ a.yMin ≥ b.yMin ∧ a.xMax ≤ b.xMax ∧ a.yMax ≤ b.yMax then .enclosed
    else .intersecting
  else .disjoint

/-- `aa_rectangle.rs:62-82` `almost_relation_to`; `a >= b` on `FPA` is `le b a`
because `almost_equals` is symmetric (assumed of the parameter). -/
def almostRelationTo (f : Fpa K) (a b : AARect K) : GeoRelation :=
  if a.almostCollidesRect f b then
    if f.le a.xMin b.xMin && f.le a.yMin b.yMin && f.le b.xMax a.xMax && f.le b.yMax a.yMax then
      .surrounding
    else if f.le b.xMin a.xMin && f.le b.yMin a.yMin && f.le a.xMax b.xMax && f.le a.yMax b.yMax then
      .enclosed
    else .intersecting
  else .disjoint

/-- `aa_rectangle.rs:153-155` -/
def width (r : AARect K) : K := r.xMax - r.xMin
/-- `aa_rectangle.rs:157-159` -/
def height (r : AARect K) : K := r.yMax - r.yMin
/-- `aa_rectangle.rs:190-192` -/
def area (r : AARect K) : K := (r.xMax - r.xMin) * (r.yMax - r.yMin)

/-- `aa_rectangle.rs:85-101` `inflate_to_square`. -/
def inflateToSquare (r : AARect K) : AARect K :=
  let width := r.xMax - r.xMin
  let height := r.yMax - r.yMin
  let dy := if height < width then (width - height) / 2 else 0
  let dx := if height < width then 0 else if width < height then (height - width) / 2 else 0
  ⟨r.xMin - dx, r.yMin - dy, r.xMax + dx, r.yMax + dy⟩

/-- `aa_rectangle.rs:103-112` `scale`. -/
def scale (r : AARect K) (factor : K) : AARect K :=
  let dx := (r.xMax - r.xMin) * (factor - 1) / 2
  let dy := (r.yMax - r.yMin) * (factor - 1) / 2
  ⟨r.xMin - dx, r.yMin - dy, r.xMax + dx, r.yMax + dy⟩

/-- `aa_rectangle.rs:183-188` `centroid`. -/
def centroid (r : AARect K) : Point K := ⟨(r.xMin + r.xMax) / 2, (r.yMin + r.yMax) / 2⟩

/-- `aa_rectangle.rs:133-140` `corners`. -/
def corners (r : AARect K) : List (Point K) :=
  [⟨r.xMax, r.yMax⟩, ⟨r.xMin, r.yMax⟩, ⟨r.xMin, r.yMin⟩, ⟨r.xMax, r.yMin⟩]

/-- `aa_rectangle.rs:143-151` `edges`; the panic of `Edge::new` cannot occur
for valid rectangles. -/
def edges (r : AARect K) : List (Edge K) :=
  let c0 : Point K := ⟨r.xMax, r.yMax⟩
  let c1 : Point K := ⟨r.xMin, r.yMax⟩
  let c2 : Point K := ⟨r.xMin, r.yMin⟩
  let c3 : Point K := ⟨r.xMax, r.yMin⟩
  [⟨c0, c1⟩, ⟨c1, c2⟩, ⟨c2, c3⟩, ⟨c3, c0⟩]

/-- `aa_rectangle.rs:115` `QUADRANT_NEIGHBOR_LAYOUT`. -/
def quadrantNeighborLayout : Fin 4 → Fin 4 × Fin 4
  | 0 => (1, 3)
  | 1 => (0, 2)
  | 2 => (1, 3)
  | 3 => (0, 2)

/-- `aa_rectangle.rs:120-130` `quadrants`: bounding boxes of the diagonals from
the corners to the centroid. The array `[_; 4]` is a function from `Fin 4`. -/
def quadrants (r : AARect K) : Fin 4 → AARect K
  | 0 => (Edge.mk ⟨r.xMax, r.yMax⟩ r.centroid).bbox
  | 1 => (Edge.mk ⟨r.xMin, r.yMax⟩ r.centroid).bbox
  | 2 => (Edge.mk ⟨r.xMin, r.yMin⟩ r.centroid).bbox
  | 3 => (Edge.mk ⟨r.xMax, r.yMin⟩ r.centroid).bbox

/-- `aa_rectangle.rs:161-171` `from_intersection`. -/
def fromIntersection (a b : AARect K) : Option (AARect K) :=
  let xMin := max a.xMin b.xMin
  let yMin := max a.yMin b.yMin
  let xMax := min a.xMax b.xMax
  let yMax := min a.yMax b.yMax
  if xMin < xMax ∧ yMin < yMax then some ⟨xMin, yMin, xMax, yMax⟩ else none

/-- `aa_rectangle.rs:173-179` `bounding_rectangle`. -/
def boundingRectangle (a b : AARect K) : AARect K :=
  ⟨min a.xMin b.xMin, min a.yMin b.yMin, max a.xMax b.xMax, max a.yMax b.yMax⟩

/-- `aa_rectangle.rs:257-267` `POINT_EDGE_RELATION`. -/
def pointEdgeRelation (p : Point K) (e : Edge K) : Ordering :=
  compare ((p.x - e.start.x) * (e.stop.y - e.start.y) - (p.y - e.start.y) * (e.stop.x - e.start.x)) 0

/-- `aa_rectangle.rs:236-284` `CollidesWith<Edge>`. -/
def collidesEdge (r : AARect K) (e : Edge K) : Bool :=
  if e.xMax < r.xMin ∨ e.xMin > r.xMax ∨ e.yMax < r.yMin ∨ e.yMin > r.yMax then false
  else if r.collidesPoint e.start || r.collidesPoint e.stop then true
  else
    let rel := fun c : Point K => pointEdgeRelation c e
    let c0 := rel ⟨r.xMax, r.yMax⟩
    let c1 := rel ⟨r.xMin, r.yMax⟩
    let c2 := rel ⟨r.xMin, r.yMin⟩
    let c3 := rel ⟨r.xMax, r.yMin⟩
    if c0 = c1 ∧ c1 = c2 ∧ c2 = c3 then false
    else r.edges.any fun re => e.collidesEdge re

/-- `aa_rectangle.rs:287-301` `sq_distance`. -/
def sqDistance (r : AARect K) (p : Point K) : K :=
  let dx := if p.x < r.xMin then (p.x - r.xMin) ^ 2 else if p.x > r.xMax then (p.x - r.xMax) ^ 2 else 0
  let dy := if p.y < r.yMin then (p.y - r.yMin) ^ 2 else if p.y > r.yMax then (p.y - r.yMax) ^ 2 else 0
  fabs (dx + dy)

/-- `aa_rectangle.rs:312-329` `sq_distance_from_border`. -/
def sqDistanceFromBorder (r : AARect K) (p : Point K) : GeoPosition × K :=
  if r.collidesPoint p then
    (.interior, min (min (min (fabs (p.x - r.xMin)) (fabs (p.x - r.xMax))) (fabs (p.y - r.yMin))) (fabs (p.y - r.yMax)))
  else
    (.exterior, r.sqDistance p)

end AARect

namespace Edge

/-- `primitives/edge.rs:183-187` `CollidesWith<AARectangle> for Edge`. -/
def collidesRect (e : Edge K) (r : AARect K) : Bool := r.collidesEdge e

end Edge

namespace Circle

/-- `circle.rs:75-87` `CollidesWith<Circle>`. -/
def collidesCircle (a b : Circle K) : Bool :=
  let dx := a.center.x - b.center.x
  let dy := a.center.y - b.center.y
  decide (dx * dx + dy * dy ≤ (a.radius + b.radius) * (a.radius + b.radius))

/-- `circle.rs:89-93` `CollidesWith<Edge>`. -/
def collidesEdge (c : Circle K) (e : Edge K) : Bool :=
  decide (e.sqDistance c.center ≤ c.radius ^ 2)

/-- `circle.rs:95-108` `CollidesWith<AARectangle>`. -/
def collidesRect (c : Circle K) (r : AARect K) : Bool :=
  let nx := max r.xMin (min c.center.x r.xMax)
  let ny := max r.yMin (min c.center.y r.yMax)
  decide ((nx - c.center.x) ^ 2 + (ny - c.center.y) ^ 2 ≤ c.radius ^ 2)

/-- `circle.rs:110-114` `CollidesWith<Point>`. -/
def collidesPoint (c : Circle K) (p : Point K) : Bool :=
  decide (p.sqDistance c.center ≤ c.radius ^ 2)

/-- `circle.rs:215-218` `bbox`. -/
def bbox (c : Circle K) : AARect K :=
  ⟨c.center.x - c.radius, c.center.y - c.radius, c.center.x + c.radius, c.center.y + c.radius⟩

end Circle

end Jagua
