import Verif.Model.QTNode

/-!
# The collision detection engine

Model of `jagua-rs/src/collision_detection/cd_engine.rs`: the quadtree and the
three lists of hazards. The hazard proximity grid is a separate component (its
own file); no operation modelled here reads it.

All functions return `none` where the code would panic.
-/

namespace Jagua

variable {K : Type*} [Arith K] [LinearOrder K]

/-- `Vec::swap_remove`: the last element takes the place of the removed one. -/
def swapRemove {α : Type*} (l : List α) (i : ℕ) : List α :=
  match l.getLast? with
  | none => l
  | some a => (l.set i a).dropLast

/-- `cd_engine.rs:27-36` `CDEngine` without the grid and the configuration. The
type parameter `n` is `config.quadtree_depth`. -/
structure CDE (K : Type*) (n : ℕ) where
  tree : QTNode K n
  statics : List (Hazard K)
  dynamics : List (Hazard K)
  bbox : AARect K
  uncommitted : List (Hazard K)

namespace CDE

variable {n : ℕ}

/-- `cd_engine.rs:47-72` `CDEngine::new`. -/
def new (f : Fpa K) (o : SearchOracle K) (n : ℕ) (bbox : AARect K) (statics : List (Hazard K)) : Option (CDE K n) :=
  match statics.foldlM (fun t h => t.register f o (QTHazard.ofHazard h)) (QTNode.new n bbox) with
  | none => none
  | some t => some ⟨t, statics, [], bbox, []⟩

/-- `cd_engine.rs:75-105` `register_hazard`. The `debug_assert!` that the hazard
is not registered yet is a precondition of the theorems. -/
def register (f : Fpa K) (o : SearchOracle K) (c : CDE K n) (h : Hazard K) : Option (CDE K n) :=
  match c.uncommitted.findIdx? (fun u => u.entity = h.entity) with
  | some i => match c.uncommitted[i]? with
    | none => none
    | some u => some { c with
        uncommitted := swapRemove c.uncommitted i
        tree := c.tree.activate o u.entity
        dynamics := c.dynamics ++ [u] }
  | none => match c.tree.register f o (QTHazard.ofHazard h) with
    | none => none
    | some t => some { c with tree := t, dynamics := c.dynamics ++ [h] }

/-- `cd_engine.rs:117-137` `deregister_hazard`. -/
def deregister (o : SearchOracle K) (c : CDE K n) (e : HazardEntity K) (commitInstant : Bool) : Option (CDE K n) :=
  match c.dynamics.findIdx? (fun h => h.entity = e) with
  | none => none
  | some i => match c.dynamics[i]? with
    | none => none
    | some h =>
      if commitInstant then
        (c.tree.deregister e).map fun t => { c with tree := t, dynamics := swapRemove c.dynamics i }
      else
        (c.tree.deactivate o e).map fun t =>
          { c with tree := t, dynamics := swapRemove c.dynamics i, uncommitted := c.uncommitted ++ [h] }

/-- `cd_engine.rs:211-218` `commit_deregisters`. -/
def commit (c : CDE K n) : Option (CDE K n) :=
  (c.uncommitted.foldlM (fun (t : QTNode K n) h => t.deregister h.entity) c.tree).map fun t => { c with tree := t, uncommitted := [] }

/-- `cd_engine.rs:139-149` `create_snapshot`: commits, then copies the list of
dynamic hazards. -/
def createSnapshot (c : CDE K n) : Option (CDE K n × List (Hazard K)) :=
  c.commit.map fun c => (c, c.dynamics)

/-- `cd_engine.rs:153-167`: which entities to remove and which hazards to add.
`IndexSet::swap_remove` returns whether the entity was present. -/
def restorePlan : List (HazardEntity K) → List (Hazard K) → List (Hazard K) → List (HazardEntity K) × List (Hazard K)
  | rem, add, [] => (rem, add)
  | rem, add, h :: hs => match rem.findIdx? (· = h.entity) with
    | some i => restorePlan (swapRemove rem i) add hs
    | none => restorePlan rem (add ++ [h]) hs

/-- `cd_engine.rs:170-178`: removing what is not in the snapshot. -/
def restoreRemove (c : CDE K n) (e : HazardEntity K) : Option (CDE K n) :=
  match c.dynamics.findIdx? (fun h => h.entity = e) with
  | none => none
  | some i => (c.tree.deregister e).map fun t => { c with tree := t, dynamics := swapRemove c.dynamics i }

/-- `cd_engine.rs:181-195`: one uncommitted hazard during `restore`. The second
component is `hazards_to_add`. -/
def restoreUncommitted (o : SearchOracle K) (st : CDE K n × List (Hazard K)) (u : Hazard K) :
    Option (CDE K n × List (Hazard K)) :=
  match st.2.findIdx? (fun h => h.entity = u.entity) with
  | some i => some ({ st.1 with tree := st.1.tree.activate o u.entity, dynamics := st.1.dynamics ++ [u] },
      swapRemove st.2 i)
  | none => (st.1.tree.deregister u.entity).map fun t => ({ st.1 with tree := t }, st.2)

/-- `cd_engine.rs:197-200`: adding a hazard during `restore`. -/
def restoreAdd (f : Fpa K) (o : SearchOracle K) (c : CDE K n) (h : Hazard K) : Option (CDE K n) :=
  (c.tree.register f o (QTHazard.ofHazard h)).map fun t => { c with tree := t, dynamics := c.dynamics ++ [h] }

/-- `cd_engine.rs:152-207` `restore`. -/
def restore (f : Fpa K) (o : SearchOracle K) (c : CDE K n) (snap : List (Hazard K)) : Option (CDE K n) :=
  let plan := restorePlan (c.dynamics.map (·.entity)) [] snap
  (plan.1.foldlM restoreRemove c).bind fun c1 =>
  (c1.uncommitted.foldlM (restoreUncommitted o) ({ c1 with uncommitted := [] }, plan.2)).bind fun st =>
  st.2.foldlM (restoreAdd f o) st.1

/-- `cd_engine.rs:275-279` `all_hazards`. -/
def allHazards (c : CDE K n) : List (Hazard K) := c.statics ++ c.dynamics

/-- `Iterator::any` with a test that may panic. -/
def anyM {α : Type*} (test : α → Option Bool) : List α → Option Bool
  | [] => some false
  | a :: as => match test a with
    | none => none
    | some true => some true
    | some false => anyM test as

/-- `quadtree.collides(..).is_some()` -/
def hits (c : CDE K n) (q : Queryable K) (irr : List (HazardEntity K)) : Option Bool :=
  (c.tree.collides q irr).map Option.isSome

/-- `cd_engine.rs:331-358` `surrogate_collides`, for the already transformed
poles and piers. -/
def surrogateCollides (c : CDE K n) (poles : List (Circle K)) (piers : List (Edge K)) (irr : List (HazardEntity K)) :
    Option Bool :=
  anyM (fun q => c.hits q irr) (poles.map Circle.toQuery ++ piers.map Edge.toQuery)

/-- `cd_engine.rs:362-367` `point_definitely_collides_with`. -/
def pointDefinitelyCollidesWith (c : CDE K n) (p : Point K) (e : HazardEntity K) : Option Tribool :=
  if c.bbox.collidesPoint p then c.tree.definitelyCollidesWith (fun r => r.collidesPoint p) e
  else some .indeterminate

/-- `cd_engine.rs:371-380` `edge_definitely_collides`. -/
def edgeDefinitelyCollides (c : CDE K n) (e : Edge K) (irr : List (HazardEntity K)) : Option Tribool :=
  if !c.bbox.collidesPoint e.start || !c.bbox.collidesPoint e.stop then some .true
  else c.tree.definitelyCollides e.collidesRect irr

/-- `cd_engine.rs:384-395` `circle_definitely_collides`. -/
def circleDefinitelyCollides (c : CDE K n) (ci : Circle K) (irr : List (HazardEntity K)) : Option Tribool :=
  if c.bbox.collidesPoint ci.center then c.tree.definitelyCollides ci.collidesRect irr
  else some .true

/-- `cd_engine.rs:397-405` `poly_collides_by_edge_intersection`. -/
def byEdgeIntersection (c : CDE K n) (shape : SPoly K) (irr : List (HazardEntity K)) : Option Bool :=
  anyM (fun e => c.hits e.toQuery irr) shape.edges

/-- `cd_engine.rs:447-453`: deciding inclusion by the ray casting of `omega`. -/
def inclusionTest (f : Fpa K) (pos : GeoPosition) (omega : SPoly K) (p : Point K) : Bool :=
  match pos with
  | .interior => omega.collidesPoint f p
  | .exterior => !omega.collidesPoint f p

/-- `cd_engine.rs:418-454` `poly_or_hazard_are_contained`. The pointer
comparison `std::ptr::eq(haz_shape, s_omega)` is true exactly in the branch
`Surrounding`, because the query shape is not the hazard's own allocation. -/
def containedTest (f : Fpa K) (c : CDE K n) (shape : SPoly K) (haz : Hazard K) : Option Bool :=
  match haz.shape.val.bbox.almostRelationTo f shape.bbox with
  | .surrounding =>
    match c.tree.definitelyCollidesWith (fun r => r.collidesPoint shape.poi.center) haz.entity with
    | none => none
    | some .true => some true
    | some .false => some false
    | some .indeterminate => some (inclusionTest f haz.entity.position haz.shape.val shape.poi.center)
  | .enclosed => some (inclusionTest f haz.entity.position shape haz.shape.val.poi.center)
  | .disjoint | .intersecting => some (match haz.entity.position with
    | .interior => false
    | .exterior => true)

/-- `cd_engine.rs:407-416` `poly_collides_by_containment`. -/
def byContainment (f : Fpa K) (c : CDE K n) (shape : SPoly K) (irr : List (HazardEntity K)) : Option Bool :=
  anyM (c.containedTest f shape) (c.allHazards.filter fun h => h.active && !irr.contains h.entity)

/-- `cd_engine.rs:311-324` `poly_collides`. -/
def polyCollides (f : Fpa K) (c : CDE K n) (shape : SPoly K) (irr : List (HazardEntity K)) : Option Bool :=
  match c.bbox.relationTo shape.bbox with
  | .surrounding => match c.byEdgeIntersection shape irr with
    | none => none
    | some true => some true
    | some false => c.byContainment f shape irr
  | .disjoint | .enclosed | .intersecting => some true

/-- `cd_engine.rs:289-305` `surrogate_or_poly_collides`: `shape` is the
reference shape already transformed, `poles` and `piers` its surrogate. -/
def surrogateOrPolyCollides (f : Fpa K) (c : CDE K n) (poles : List (Circle K)) (piers : List (Edge K))
    (shape : SPoly K) (irr : List (HazardEntity K)) : Option Bool :=
  match c.surrogateCollides poles piers irr with
  | none => none
  | some true => some true
  | some false => c.polyCollides f shape irr

/-- `Vec::drain(a..b)` -/
def drain {α : Type*} (l : List α) (a b : ℕ) : List α := l.take a ++ l.drop b

/-- `cd_engine.rs:457-483` `hazards_within`. -/
def hazardsWithin (c : CDE K n) (q : Queryable K) (irr det : List (HazardEntity K)) : Option (List (HazardEntity K)) :=
  match c.tree.collect q (det ++ irr) with
  | none => none
  | some d =>
    let d := drain d det.length (det.length + irr.length)
    if !c.bbox.collidesPoint q.centroid && d.isEmpty then
      if !irr.contains .binExterior then some (d ++ [.binExterior]) else some d
    else some d

/-- `cd_engine.rs:505-509`: the containment loop of `collect_poly_collisions`. -/
def collectContained (f : Fpa K) (c : CDE K n) (shape : SPoly K) (det : List (HazardEntity K)) (h : Hazard K) :
    Option (List (HazardEntity K)) :=
  if det.contains h.entity then some det
  else match c.containedTest f shape h with
    | none => none
    | some true => some (det ++ [h.entity])
    | some false => some det

/-- `cd_engine.rs:487-513` `collect_poly_collisions`. -/
def collectPolyCollisions (f : Fpa K) (c : CDE K n) (shape : SPoly K) (irr det : List (HazardEntity K)) :
    Option (List (HazardEntity K)) :=
  (shape.edges.foldlM (fun d e => c.tree.collect e.toQuery d) (det ++ irr)).bind fun d =>
  ((c.allHazards.filter (·.active)).foldlM (c.collectContained f shape) d).map fun d =>
  drain d det.length (det.length + irr.length)

/-- `cd_engine.rs:517-540` `collect_surrogate_collisions`, for the already
transformed poles and piers. -/
def collectSurrogateCollisions (c : CDE K n) (poles : List (Circle K)) (piers : List (Edge K))
    (irr det : List (HazardEntity K)) : Option (List (HazardEntity K)) :=
  ((poles.map Circle.toQuery ++ piers.map Edge.toQuery).foldlM (fun d q => c.tree.collect q d) (det ++ irr)).map fun d =>
  drain d det.length (det.length + irr.length)

end CDE

end Jagua
