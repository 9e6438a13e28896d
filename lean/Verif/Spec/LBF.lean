import Verif.Model.LBF
import Verif.Spec.Problem
import Verif.Spec.Strip
import Verif.Spec.Sets

/-!
# Specification vocabulary for the left-bottom-fill optimizer
-/

namespace Jagua

section Any
variable {K : Type*} [Arith K] [LinearOrder K] {n : ℕ} {R : Type*}

/-- What the random number generator has to respect: an index lies in the slice, a uniform
number lies in its half-open range. -/
structure LEnv.Fair (lenv : LEnv K n R) : Prop where
  choose : ∀ k r, 0 < k → (lenv.choose k r).1 < k
  uniform : ∀ lo hi r, lo < hi → lo ≤ (lenv.uniform lo hi r).1 ∧ (lenv.uniform lo hi r).1 < hi

/-- A generator that does not hit the lower end of the range. -/
def LEnv.OffEnd (lenv : LEnv K n R) : Prop := ∀ lo hi r, lo < hi → lo < (lenv.uniform lo hi r).1

/-- Two angles are the same up to whole turns. -/
def SameTurn (tr : Trig K) (a b : K) : Prop := tr.cos a = tr.cos b ∧ tr.sin a = tr.sin b

/-- The rotations an item allows. -/
def Item.Allows (tr : Trig K) (item : Item K) (a : K) : Prop :=
  match item.allowedRotation with
  | .none => SameTurn tr a 0
  | .continuous => True
  | .discrete as => ∃ b ∈ as, SameTurn tr a b

/-- The transformations a sampler can draw: the shape is moved so that its pole of
inaccessibility is in the origin, rotated by an angle of the item's distribution and moved
to a point of one of the cells. -/
def HPGSampler.CanDraw (tr : Trig K) (s : HPGSampler K) (t : Transf K) : Prop :=
  ∃ c ∈ s.cells, ∃ a x y, (match c.rot with
      | .none => a = 0
      | .range lo hi => lo ≤ a ∧ a < hi
      | .discrete as => a ∈ as) ∧
    c.bbox.xMin ≤ x ∧ x < c.bbox.xMax ∧ c.bbox.yMin ≤ y ∧ y < c.bbox.yMax ∧
    t = (s.pretransform.transformFromDecomposed tr ⟨a, x, y⟩)

/-- What happens to a local search sampler between two samples. -/
inductive LSRun (lenv : LEnv K n R) : LSSampler K → LSSampler K → Prop
  | start (s) : LSRun lenv s s
  | shift {s s'} (ref : DTransf K) : LSRun lenv s s' → LSRun lenv s (s'.shiftMean ref)
  | decay {s s' s''} (progress : K) : LSRun lenv s s' → s'.decayStddev lenv progress = some s'' → LSRun lenv s s''

/-- The copies of item `i` in the layouts of a solution. -/
def Solution.copiesOf (s : Solution K n) (i : ℕ) : ℕ := (s.snapshots.map fun sn => copiesIn sn.placed i).sum

/-- The layouts of a solution in bins with number `b`. -/
def Solution.binsUsed (s : Solution K n) (b : ℕ) : ℕ := s.snapshots.countP fun sn => sn.bin.id = b

end Any

section Exact
variable {K : Type*} [Field K] [LinearOrder K] {n : ℕ}

/-- Outline, holes and zones of the bin are polygons as the constructors mean to produce
them. -/
structure Bin.Shapes (b : Bin K n) : Prop where
  outer : b.outer.val.Proper
  holes : ∀ s ∈ b.holes, s.val.Proper
  zones : ∀ z, some z ∈ b.qualityZones → ∀ s ∈ z.zones, s.val.Proper

/-- The placed items fit in the bin: they lie inside the outline, touch neither holes nor
zones of too low a quality, and do not touch each other. -/
structure Feasible (b : Bin K n) (items : List (PlacedItem K)) : Prop where
  inside : ∀ pi ∈ items, region pi.shape.val.points ⊆ interior b.outer.val.points
  holes : ∀ pi ∈ items, ∀ s ∈ b.holes, Disjoint (region pi.shape.val.points) (region s.val.points)
  zones : ∀ pi ∈ items, ∀ z, some z ∈ b.qualityZones → (∀ q, pi.hazardFilter = some q → z.quality < q) →
    ∀ s ∈ z.zones, Disjoint (region pi.shape.val.points) (region s.val.points)
  apart : items.Pairwise fun a c => Disjoint (region a.shape.val.points) (region c.shape.val.points)

/-- what it means that a shape with a filter can be added to a bin with some of its items -/
structure FitsIn (b : Bin K n) (items : List (PlacedItem K)) (pts : List (Point K)) (filt : Option ℕ) : Prop where
  inside : region pts ⊆ interior b.outer.val.points
  holes : ∀ s ∈ b.holes, Disjoint (region pts) (region s.val.points)
  zones : ∀ z, some z ∈ b.qualityZones → (∀ q, filt = some q → z.quality < q) → ∀ s ∈ z.zones, Disjoint (region pts) (region s.val.points)
  apart : ∀ pi ∈ items, Disjoint (region pts) (region pi.shape.val.points)

end Exact

end Jagua
