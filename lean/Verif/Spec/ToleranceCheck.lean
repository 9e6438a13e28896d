import Verif.Spec.Tolerance
import Verif.Spec.LBF

/-!
# Specification: layouts with which a tolerance does not interfere
-/

namespace Jagua

variable {K : Type*} [Field K] [LinearOrder K] {n : ℕ}

/-- What an item can cover in a layout: holes and quality zones of the bin, other items. -/
inductive Layout.Obstacle (l : Layout K n) (pi : PlacedItem K) : SPoly K → Prop
  | hole {s} : s ∈ l.bin.holes → Obstacle l pi s.val
  | zone {z s} : some z ∈ l.bin.qualityZones → s ∈ z.zones → Obstacle l pi s.val
  | item {pi'} : pi' ∈ l.placed.values → pi'.entity ≠ pi.entity → Obstacle l pi pi'.shape.val

/-- The tolerance is small compared to the bin and to the items where they are placed: all lie in the square in which `ε` is the
tolerance, the cells of the quadtree have sides of at least `2 ε`, each shape contains the square around its pole, and if an item covers
something, their boxes do not almost coincide. -/
structure Layout.Tolerates (l : Layout K n) (M ε : K) : Prop where
  nonneg : 0 ≤ ε
  width : ε * 2 ^ (n + 1) ≤ l.bin.baseCde.bbox.width
  height : ε * 2 ^ (n + 1) ≤ l.bin.baseCde.bbox.height
  outer : Bounded l.bin.outer.val.points M ∧ l.bin.outer.val.Roomy ε
  holes : ∀ s ∈ l.bin.holes, Bounded s.val.points M ∧ s.val.Roomy ε
  zones : ∀ z, some z ∈ l.bin.qualityZones → ∀ s ∈ z.zones, Bounded s.val.points M ∧ s.val.Roomy ε
  items : ∀ pi ∈ l.placed.values, Bounded pi.shape.val.points M ∧ pi.shape.val.Roomy ε
  boxes : ∀ pi ∈ l.placed.values, ∀ s, l.Obstacle pi s → (∀ v ∈ bdry s.points, v ∈ interior pi.shape.val.points) →
    NotJustInside s.bbox pi.shape.val.bbox ε

/-- If the outline of `a` lies in the interior of `s`, the boxes of the two do not almost coincide. -/
def ClearBox (a s : SPoly K) (ε : K) : Prop := (∀ v ∈ bdry a.points, v ∈ interior s.points) → NotJustInside a.bbox s.bbox ε

/-- The tolerance is small compared to a shape that is to be added to a layout, and if the shape covers a hole, a quality zone or a placed
item, their boxes do not almost coincide. -/
structure Layout.ToleratesShape (l : Layout K n) (s : SPoly K) (M ε : K) : Prop where
  bounded : Bounded s.points M
  roomy : s.Roomy ε
  holes : ∀ a ∈ l.bin.holes, ClearBox a.val s ε
  zones : ∀ z, some z ∈ l.bin.qualityZones → ∀ a ∈ z.zones, ClearBox a.val s ε
  items : ∀ pi ∈ l.placed.values, ClearBox pi.shape.val s ε

end Jagua
