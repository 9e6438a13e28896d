import Verif.Spec.Area
import Verif.Spec.Json

/-!
# Specification: which fraction of the given space a solution uses
-/

namespace Jagua

variable {K : Type*} [Field K] [LinearOrder K] {n : ℕ}

/-- A simple polygon with its area. -/
structure SPoly.Measured (s : SPoly K) : Prop where
  simple : SimplePoly s.points
  pos : 0 < s.area
  area : s.area = signedArea s.points

/-- Outline and holes of a bin are simple polygons with their areas, and the area of the bin is the difference. -/
structure Bin.Measured (b : Bin ℝ n) : Prop where
  outer : b.outer.val.Measured
  holes : ∀ s ∈ b.holes, s.val.Measured
  area : b.area = b.outer.val.area - (b.holes.map (·.val.area)).sum

/-- The part of the plane that is free in a bin without items. -/
def Bin.freePart (b : Bin ℝ n) : Set (Point ℝ) := remainder b.outer.val.points (b.holes.map (·.val.points))

/-- The part of the plane that placed items cover. -/
def coveredByItems (items : List (PlacedItem ℝ)) : Set (Point ℝ) := coveredBy (items.map (·.shape.val.points))

/-- The part of the plane that the items of a layout of the output cover. -/
def JsonInstance.coveredIn (tr : Trig ℝ) (ji : JsonInstance ℝ) (placed : List (JsonPlacedItem ℝ)) : Set (Point ℝ) :=
  {v | ∃ p ∈ placed, v ∈ ji.covered tr p}

/-- The part of the plane that a container of the output offers: a given bin without its holes, or a rectangle. -/
def JsonInstance.space (ji : JsonInstance ℝ) : JsonContainer ℝ → Set (Point ℝ)
  | .bin k => match ji.bins.bind (·[k]?) with
    | some b => remainder b.shape.corners b.shape.holes
    | none => ∅
  | .strip width height => {v | 0 ≤ v.x ∧ v.x ≤ width ∧ 0 ≤ v.y ∧ v.y ≤ height}

/-- The sum of the areas of some parts of the plane. -/
noncomputable def totalArea (S : List (Set (Point ℝ))) : ℝ := (S.map fun s => (planeArea s).toReal).sum

/-- The holes of the given bins lie in their bins, and have no inner points in common. -/
def JsonInstance.HolesFit (ji : JsonInstance ℝ) : Prop := ∀ bs, ji.bins = some bs → ∀ b ∈ bs, Jagua.HolesFit b.shape.corners b.shape.holes

/-- The given bins have no holes. -/
def JsonInstance.NoHoles (ji : JsonInstance ℝ) : Prop := ∀ bs, ji.bins = some bs → ∀ b ∈ bs, b.shape.holes = []

end Jagua
