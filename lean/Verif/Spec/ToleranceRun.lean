import Verif.Spec.Tolerance
import Verif.Spec.LBF

/-!
# Specification: instances with which a tolerance does not interfere
-/

namespace Jagua

variable {K : Type*} [Field K] [LinearOrder K] {n : ℕ}

/-- The disc around the pole of inaccessibility that contains the square with half side `ε` lies in the shape. -/
def SPoly.RoomyDisc (s : SPoly K) (ε : K) : Prop :=
  ∀ w : Point K, (w.x - s.poi.center.x) ^ 2 + (w.y - s.poi.center.y) ^ 2 ≤ 2 * ε ^ 2 → w ∈ region s.points

/-- The square of the distance of two points. -/
def gap (p q : Point K) : K := (p.x - q.x) ^ 2 + (p.y - q.y) ^ 2

/-- Two points of the second list are farther apart than any two of the first. -/
def Narrower (a b : List (Point K)) : Prop := ∃ v ∈ b, ∃ w ∈ b, ∀ p ∈ a, ∀ q ∈ a, gap p q < gap v w

/-- The first box is smaller than the second in both directions, but in neither by more than `2 ε`. -/
structure AlmostAsLarge (a b : AARect K) (ε : K) : Prop where
  narrow : a.width < b.width
  low : a.height < b.height
  wide : b.width ≤ a.width + 2 * ε
  high : b.height ≤ a.height + 2 * ε

/-- No polygon that can be covered by the item has a box almost as large as that of the item, however the item is turned. -/
def Item.Overtops (tr : Trig K) (item : Item K) (s : SPoly K) (ε : K) : Prop :=
  Narrower s.points item.shape.points → ∀ dt : DTransf K, item.Allows tr dt.rotation →
    ¬ AlmostAsLarge s.bbox (item.shape.transform (Transf.fromDt tr dt)).bbox ε

/-- The tolerance is small compared to the bin: to the cells of its quadtree, its outline, its holes and its quality zones, and none of
these has a box almost as large as that of an item that can cover it. -/
structure Bin.Tolerates (b : Bin K n) (tr : Trig K) (items : List (Item K × ℕ)) (M ε : K) : Prop where
  width : ε * 2 ^ (n + 1) ≤ b.baseCde.bbox.width
  height : ε * 2 ^ (n + 1) ≤ b.baseCde.bbox.height
  box : ∀ p ∈ b.baseCde.bbox.pts, |p.x| ≤ M ∧ |p.y| ≤ M
  outer : Bounded b.outer.val.points M ∧ b.outer.val.Roomy ε
  holes : ∀ s ∈ b.holes, Bounded s.val.points M ∧ s.val.Roomy ε ∧ ∀ x ∈ items, x.1.Overtops tr s.val ε
  zones : ∀ z, some z ∈ b.qualityZones → ∀ s ∈ z.zones, Bounded s.val.points M ∧ s.val.Roomy ε ∧ ∀ x ∈ items, x.1.Overtops tr s.val ε

/-- The tolerance is small compared to the bins and the items, and no item has a box almost as large as that of another one that can cover
it, however the two are turned. -/
structure BPInstance.Tolerates (inst : BPInstance K n) (tr : Trig K) (M ε : K) : Prop where
  nonneg : 0 ≤ ε
  bins : ∀ b ∈ inst.bins, b.1.Tolerates tr inst.items M ε
  roomy : ∀ x ∈ inst.items, x.1.shape.RoomyDisc ε
  boxes : ∀ x ∈ inst.items, ∀ y ∈ inst.items, ∀ dt : DTransf K, y.1.Allows tr dt.rotation →
    x.1.Overtops tr (y.1.shape.transform (Transf.fromDt tr dt)) ε

end Jagua
