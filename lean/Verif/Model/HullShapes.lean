import Verif.Model.FailFast
import Verif.Model.Transformation

/-! # Convex hull of several shapes -/

namespace Jagua

variable {K : Type*} [Arith K] [LinearOrder K]

/-- `convex_hull.rs:20-24`: the corners of the hull of one shape, from the surrogate if there is one; `none` is an
index out of range. -/
def shapeHullPoints (s : SPoly K) : Option (List (Point K)) :=
  match s.surrogate with
  | some sur => sur.convexHullIndices.mapM fun (i : ℕ) => s.points[i]?
  | none => (convexHullIndices s.points).bind fun idx => idx.mapM fun (i : ℕ) => s.points[i]?

/-- `convex_hull.rs:15-28` `convex_hull_from_shapes`; `none` is a panic. -/
def hullFromShapes (shapes : List (SPoly K)) : Option (List (Point K)) :=
  (shapes.mapM shapeHullPoints).map fun l => convexHull l.flatten

end Jagua
