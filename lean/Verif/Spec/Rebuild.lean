import Verif.Spec.Json
import Verif.Spec.Strip

/-!
# Specification of solutions that are written and read again
-/

namespace Jagua

variable {K : Type*} [Field K] [LinearOrder K]

/-- Two placed items are the same item at places that differ by `(tx, ty)`. -/
structure PlacedItem.SameMoved (tr : Trig K) (tx ty : K) (a b : PlacedItem K) : Prop where
  item : b.itemId = a.itemId
  filter : b.hazardFilter = a.hazardFilter
  place : ∀ v : Point K, v.transform (Transf.fromDt tr b.dt) = transPt tx ty (v.transform (Transf.fromDt tr a.dt))
  shape : b.shape.val.points = a.shape.val.points.map (transPt tx ty)
  area : b.shape.val.area = a.shape.val.area

/-- Two placed items are the same item at the same place. The shapes are equal, but stored at different addresses; the angles may differ by
whole turns. -/
structure PlacedItem.Same (tr : Trig K) (a b : PlacedItem K) : Prop where
  item : b.itemId = a.itemId
  filter : b.hazardFilter = a.hazardFilter
  place : Transf.fromDt tr b.dt = Transf.fromDt tr a.dt
  shape : b.shape.val = a.shape.val

/-- No item is at the same place as another copy of it. -/
def NoDoubles (tr : Trig K) (placed : List (PlacedItem K)) : Prop :=
  placed.Pairwise fun a b => ¬ (a.itemId = b.itemId ∧ Transf.fromDt tr a.dt = Transf.fromDt tr b.dt)

end Jagua
