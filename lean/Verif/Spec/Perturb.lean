import Verif.Spec.Region

/-!
# Specification: shapes that differ by little

Nothing here refers to the model of the code.
-/

namespace Jagua

variable {K : Type*} [Field K] [LinearOrder K]

/-- The two points differ by at most `ε` in each coordinate. -/
def CloseTo (ε : K) (p q : Point K) : Prop := |p.x - q.x| ≤ ε ∧ |p.y - q.y| ≤ ε

/-- The point is deeper than `ε` inside: no point of the outline is close to it. -/
def DeepIn (ε : K) (pts : List (Point K)) (p : Point K) : Prop := p ∈ interior pts ∧ ∀ q ∈ bdry pts, ¬ CloseTo ε q p

end Jagua
