import Verif.Spec.Motion

/-!
# Specification: lines that cross a polygon

Nothing here refers to the model of the code.
-/

namespace Jagua

variable {K : Type*} [Field K] [LinearOrder K]

/-- The point is on the line through `a` and `b`. -/
def OnLine (a b p : Point K) : Prop :=
  (b.x - a.x) * (p.y - a.y) - (b.y - a.y) * (p.x - a.x) = 0

/-- The point is strictly to the left of the line from `a` to `b`. -/
def LeftOf (a b p : Point K) : Prop :=
  0 < (b.x - a.x) * (p.y - a.y) - (b.y - a.y) * (p.x - a.x)

/-- The closed polygonal line crosses the line through `a` and `b` in the middle of sides
only: where one of its vertices is on the line, it comes from and leaves to the same side
of the line, maybe after following the line for a while. -/
def CrossesCleanly (a b : Point K) (pts : List (Point K)) : Prop :=
  ∃ left : Point K → Prop, ∀ s ∈ sides pts,
    (OnLine a b s.1 → ¬ OnLine a b s.2 → (left s.1 ↔ LeftOf a b s.2)) ∧
    (¬ OnLine a b s.1 → OnLine a b s.2 → (left s.2 ↔ LeftOf a b s.1)) ∧
    (OnLine a b s.1 → OnLine a b s.2 → (left s.1 ↔ left s.2))

/-- The line through `a` and `b` meets the closed polygonal line between `a` and `b` only. -/
def Spans (a b : Point K) (pts : List (Point K)) : Prop := ∀ c ∈ bdry pts, OnLine a b c → c ∈ segPts a b

/-- With two points the set contains the segment between them. -/
def ConvexSet (S : Set (Point K)) : Prop := ∀ a ∈ S, ∀ b ∈ S, segPts a b ⊆ S

/-- The smallest of the distances, but at most `cap`. -/
def nearest (cap : K) (ds : List K) : K := ds.foldl min cap

/-- How badly a set of points is covered by poles and piers: every point counts with the
square of its distance to the nearest pole, or pier if there is one within the radius. -/
def coverLoss (dPole : Circle K → Point K → K) (dPier : Edge K → Point K → K) (cap radius : K) (grid : List (Point K))
    (poles : List (Circle K)) (piers : List (Edge K)) : K :=
  (grid.map fun p =>
    (if nearest cap (piers.map (dPier · p)) < radius then
      min (nearest cap (poles.map (dPole · p))) (nearest cap (piers.map (dPier · p)))
     else nearest cap (poles.map (dPole · p))) ^ 2).sum

end Jagua
