import Verif.Spec.Region
import Verif.Model.Geometry

/-!
# Specification: the forbidden region of a hazard

An interior hazard forbids the region enclosed by its shape, an exterior hazard
(the outside of the bin) everything that is not inside its shape.
-/

namespace Jagua

variable {K : Type*} [Field K] [LinearOrder K]

/-- The open part of the forbidden region. -/
def openHaz (pos : GeoPosition) (pts : List (Point K)) : Set (Point K) :=
  match pos with
  | .interior => interior pts
  | .exterior => (region pts)ᶜ

/-- The forbidden region including the outline of the shape. -/
def closedHaz (pos : GeoPosition) (pts : List (Point K)) : Set (Point K) :=
  bdry pts ∪ openHaz pos pts

end Jagua
