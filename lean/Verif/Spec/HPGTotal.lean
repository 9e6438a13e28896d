import Verif.Spec.HPG

/-!
# What can be registered in an engine with a grid
-/

namespace Jagua

variable {K : Type*} [Arith K] [LinearOrder K] {n : ℕ}

/-- A hazard that can be registered in a grid: it is occupied inside, and its shape has a
surrogate with at least one pole, poles of nonnegative radius, and a proper bounding box. -/
structure Hazard.Registrable (h : Hazard K) : Prop where
  inside : h.entity.position = .interior
  surrogate : ∃ s, h.shape.val.surrogate = some s ∧ s.poles ≠ [] ∧ ∀ pole ∈ s.poles, 0 ≤ pole.radius
  width : h.shape.val.bbox.xMin ≤ h.shape.val.bbox.xMax
  height : h.shape.val.bbox.yMin ≤ h.shape.val.bbox.yMax

end Jagua
