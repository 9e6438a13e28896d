import Verif.Spec.RoundedGeo
import Verif.Spec.Perturb
import Verif.Spec.Motion
import Verif.Spec.Json

/-!
# Specification: placements in arithmetic with rounding

What the numbers of a placement mean in the real plane.
-/

namespace Jagua

variable {r : Rounding}

/-- the point in the real plane -/
def Point.real (p : Point (Rounded r)) : Point ℝ := ⟨(p.x.1 : ℝ), (p.y.1 : ℝ)⟩

/-- the corners in the real plane -/
def SPoly.real (s : SPoly (Rounded r)) : List (Point ℝ) := s.points.map Point.real

/-- The functions `sin`, `cos` and `atan2` of the float type are close to the mathematical ones, and right for the angle 0. -/
structure Trig.Accurate (tr : Trig (Rounded r)) (η : ℝ) : Prop where
  sin_le : ∀ a, |(tr.sin a).1| ≤ 1
  cos_le : ∀ a, |(tr.cos a).1| ≤ 1
  sin_near : ∀ a, |((tr.sin a).1 : ℝ) - Real.sin (a.1 : ℝ)| ≤ η
  cos_near : ∀ a, |((tr.cos a).1 : ℝ) - Real.cos (a.1 : ℝ)| ≤ η
  atan2_near : ∀ y x, |((tr.atan2 y x).1 : ℝ) - Complex.arg ⟨(x.1 : ℝ), (y.1 : ℝ)⟩| ≤ η
  sin_zero : tr.sin 0 = 0
  cos_zero : tr.cos 0 = 1

/-- Where the transformation moves a point, without any error: it is turned about the origin and then translated. -/
noncomputable def DTransf.move (d : DTransf (Rounded r)) (p : Point ℝ) : Point ℝ :=
  transPt (d.tx.1 : ℝ) (d.ty.1 : ℝ) (rotPt (Real.cos (d.rotation.1 : ℝ)) (Real.sin (d.rotation.1 : ℝ)) p)

/-- The same for the numbers in a file with a solution. -/
noncomputable def JsonPlacedItem.move (p : JsonPlacedItem (Rounded r)) (v : Point ℝ) : Point ℝ :=
  transPt (p.translation.1.1 : ℝ) (p.translation.2.1 : ℝ) (rotPt (Real.cos (p.rotation.1 : ℝ)) (Real.sin (p.rotation.1 : ℝ)) v)

/-- Both coordinates are at most `M`. -/
def Point.UpTo (p : Point (Rounded r)) (M : ℚ) : Prop := |p.x.1| ≤ M ∧ |p.y.1| ≤ M

/-- Both components of the translation are at most `T`. -/
def DTransf.UpTo (d : DTransf (Rounded r)) (T : ℚ) : Prop := |d.tx.1| ≤ T ∧ |d.ty.1| ≤ T

end Jagua
