import Verif.Spec.Region

/-!
# Specification: simple polygons
-/

namespace Jagua

variable {K : Type*} [Field K] [LinearOrder K]

/-- A closed polygonal line that neither crosses nor touches itself: at least three vertices, all different, and
two different sides have no common point but the vertex where one ends and the other begins. -/
def SimplePoly (pts : List (Point K)) : Prop :=
  3 ≤ pts.length ∧ pts.Nodup ∧ ∀ s ∈ sides pts, ∀ t ∈ sides pts, s ≠ t → ∀ w ∈ segPts s.1 s.2, w ∈ segPts t.1 t.2 →
    (w = s.2 ∧ w = t.1) ∨ (w = t.2 ∧ w = s.1)

end Jagua
