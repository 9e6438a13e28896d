import Verif.Model.Geometry

/-!
# Simple polygons

Model of `jagua-rs/src/geometry/primitives/simple_polygon.rs`. The field
`diameter` (a square root over the convex hull) is not a field of the model; it
only influences how poles are searched for.
-/

namespace Jagua

variable {K : Type*} [Arith K] [LinearOrder K]

/-- `sp_surrogate.rs:13-26` `SPSurrogate`. -/
structure Surrogate (K : Type*) where
  convexHullIndices : List ℕ
  poles : List (Circle K)
  polesBoundingCircle : Circle K
  piers : List (Edge K)
  nFfPoles : ℕ
  convexHullArea : K
  deriving DecidableEq, Repr

/-- `sp_surrogate.rs:60-62` `ff_poles`. (The slice panics if `nFfPoles` exceeds
the number of poles, which `SPSurrogate::new` line 46 prevents.) -/
def Surrogate.ffPoles (s : Surrogate K) : List (Circle K) := s.poles.take s.nFfPoles

/-- `simple_polygon.rs:25-37` `SimplePolygon` without `diameter`. -/
structure SPoly (K : Type*) where
  points : List (Point K)
  bbox : AARect K
  area : K
  poi : Circle K
  surrogate : Option (Surrogate K) := none
  deriving DecidableEq, Repr

/-- `simple_polygon.rs:85-92` `get_edge` and `edge_iter`: edge `i` goes from
point `i` to point `(i + 1) % n`. `Edge::new` cannot panic because
`SimplePolygon::new` rejects duplicate points (`SPoly.new`). -/
def polyEdges (pts : List (Point K)) : List (Edge K) :=
  List.ofFn fun i : Fin pts.length =>
    ⟨pts[i], pts[(i.val + 1) % pts.length]'(Nat.mod_lt _ (Nat.lt_of_le_of_lt (Nat.zero_le _) i.isLt))⟩

/-- `simple_polygon.rs:117-128` `generate_bounding_box`. The fold starts from
the extreme floats in the code; here from the first point, which is the same for
a non-empty list. (The empty list never occurs: `SPoly.new`.) -/
def boundingBox : List (Point K) → AARect K
  | [] => ⟨0, 0, 0, 0⟩
  | p :: ps => ps.foldl (fun b q => ⟨min b.xMin q.x, min b.yMin q.y, max b.xMax q.x, max b.yMax q.y⟩)
      ⟨p.x, p.y, p.x, p.y⟩

/-- `simple_polygon.rs:132-145` `calculate_area`: the loop runs over the index
pairs `(i, (i + 1) % n)`, which are the edges. -/
def calculateArea (pts : List (Point K)) : K :=
  (1 / 2) * fsum ((polyEdges pts).map fun e => (e.start.y + e.stop.y) * (e.start.x - e.stop.x))

namespace SPoly

/-- `simple_polygon.rs:41-75` `SimplePolygon::new`; `none` is a panic. The pole
of inaccessibility (`calculate_poi`, lines 147-166) is a parameter. -/
def new (poi : List (Point K) → Circle K) (points : List (Point K)) : Option (SPoly K) :=
  if points.length < 3 then none
  else if ¬ points.Nodup then none
  else
    let area := calculateArea points
    if area = 0 then none
    else
      let pts := if area < 0 then points.reverse else points
      let area := if area < 0 then -area else area
      some { points := pts, bbox := boundingBox pts, area := area, poi := poi pts }

/-- `simple_polygon.rs:90-92`. -/
def edges (s : SPoly K) : List (Edge K) := polyEdges s.points

/-- `simple_polygon.rs:293-305`: does the loop body count this edge for the ray
from `p` to the right, ending at x-coordinate `xOut`? -/
def countsEdge (f : Fpa K) (p : Point K) (xOut : K) (e : Edge K) : Bool :=
  if (f.eq e.start.y p.y && f.lt p.x e.start.x) || (f.eq e.stop.y p.y && f.lt p.x e.stop.x) then
    f.lt e.start.y p.y || f.lt e.stop.y p.y
  else
    (Edge.mk p ⟨xOut, p.y⟩).collidesEdge e

/-- `simple_polygon.rs:277-312` `CollidesWith<Point>` (ray casting). The ray is
never degenerate for a point in the bounding box of a polygon of positive width. -/
def collidesPoint (f : Fpa K) (s : SPoly K) (p : Point K) : Bool :=
  if s.bbox.collidesPoint p then
    let xOut := s.bbox.xMax + s.bbox.width
    decide (((s.edges.filter (countsEdge f p xOut)).length) % 2 = 1)
  else false

/-- `simple_polygon.rs:179-202` `centroid`. -/
def centroid (s : SPoly K) : Point K :=
  ⟨fsum (s.edges.map fun e => (e.start.x + e.stop.x) * (e.start.x * e.stop.y - e.stop.x * e.start.y)) / (6 * s.area),
   fsum (s.edges.map fun e => (e.start.y + e.stop.y) * (e.start.x * e.stop.y - e.stop.x * e.start.y)) / (6 * s.area)⟩

/-- `simple_polygon.rs:334-346` `sq_distance_from_border`: smallest squared
distance to an edge; `none` models the `unwrap` of an empty minimum. -/
def sqDistanceFromBorder (f : Fpa K) (s : SPoly K) (p : Point K) : Option (GeoPosition × K) :=
  match s.edges.map (fun e => e.sqDistance p) with
  | [] => none
  | d :: ds => some (if s.collidesPoint f p then .interior else .exterior, ds.foldl min d)

/-- `simple_polygon.rs:315-324` `sq_distance`. -/
def sqDistance (f : Fpa K) (s : SPoly K) (p : Point K) : Option K :=
  if s.collidesPoint f p then some 0
  else match s.edges.map (fun e => e.sqDistance p) with
    | [] => none
    | d :: ds => some (ds.foldl min d)

/-- `simple_polygon.rs:348-361` `From<AARectangle>`. -/
def ofRect (poi : List (Point K) → Circle K) (r : AARect K) : Option (SPoly K) :=
  SPoly.new poi [⟨r.xMin, r.yMin⟩, ⟨r.xMax, r.yMin⟩, ⟨r.xMax, r.yMax⟩, ⟨r.xMin, r.yMax⟩]

end SPoly

end Jagua
