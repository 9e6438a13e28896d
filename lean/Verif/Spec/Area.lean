import Verif.Spec.Region
import Mathlib.MeasureTheory.Measure.Lebesgue.Basic

/-!
# Specification: the area of a part of the plane
-/

namespace Jagua

/-- The area of a set of points of the plane: its Lebesgue measure. -/
noncomputable def planeArea (S : Set (Point ℝ)) : ENNReal := MeasureTheory.volume {q : ℝ × ℝ | (⟨q.1, q.2⟩ : Point ℝ) ∈ S}

/-- The points that some of the polygons cover. -/
def coveredBy (ss : List (List (Point ℝ))) : Set (Point ℝ) := {v | ∃ s ∈ ss, v ∈ region s}

/-- The part of the plane that is left of a polygon if others are taken away. -/
def remainder (outer : List (Point ℝ)) (holes : List (List (Point ℝ))) : Set (Point ℝ) := {v | v ∈ region outer ∧ ∀ h ∈ holes, v ∉ region h}

/-- The holes lie in the outline, and have no inner points in common. -/
structure HolesFit (outer : List (Point ℝ)) (holes : List (List (Point ℝ))) : Prop where
  inside : ∀ h ∈ holes, region h ⊆ region outer
  apart : holes.Pairwise fun a c => Disjoint (interior a) (interior c)

end Jagua
