import Verif.Model.Polygon

/-!
# Hazards

Model of `jagua-rs/src/collision_detection/hazard.rs` and of the data part of
`jagua-rs/src/geometry/d_transformation.rs`.
-/

namespace Jagua

/-- `d_transformation.rs:11-16` `DTransformation`: rotation angle and translation.
`NotNan` is not modelled: the numbers of the model have no NaN. -/
@[ext] structure DTransf (K : Type*) where
  rotation : K
  tx : K
  ty : K
  deriving DecidableEq, Repr

/-- `hazard.rs:31-40` `HazardEntity`. -/
inductive HazardEntity (K : Type*)
  | placedItem (id : ℕ) (dt : DTransf K)
  | binExterior
  | binHole (id : ℕ)
  | inferiorQualityZone (quality : ℕ) (id : ℕ)
  deriving DecidableEq, Repr

namespace HazardEntity

variable {K : Type*}

/-- `hazard.rs:44-51` `position`. -/
def position : HazardEntity K → GeoPosition
  | placedItem _ _ => .interior
  | binExterior => .exterior
  | binHole _ => .interior
  | inferiorQualityZone _ _ => .interior

/-- `hazard.rs:54-61` `is_dynamic`. -/
def isDynamic : HazardEntity K → Bool
  | placedItem _ _ => true
  | binExterior => false
  | binHole _ => false
  | inferiorQualityZone _ _ => false

/-- `hazard.rs:64-71` `is_universal`. -/
def isUniversal : HazardEntity K → Bool
  | placedItem _ _ => true
  | binExterior => true
  | binHole _ => true
  | inferiorQualityZone _ _ => false

end HazardEntity

/-- `Arc<T>` / `Weak<T>`: a shared allocation is identified by its address `id`.
A `Weak` is modelled by the same pair; whether `upgrade` succeeds is a question
about who else holds the allocation (property C13). -/
structure Arc (α : Type*) where
  id : ℕ
  val : α
  deriving DecidableEq, Repr

/-- `hazard.rs:10-17` `Hazard`. -/
structure Hazard (K : Type*) where
  entity : HazardEntity K
  shape : Arc (SPoly K)
  active : Bool
  deriving DecidableEq, Repr

end Jagua
