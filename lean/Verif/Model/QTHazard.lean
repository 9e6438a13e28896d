import Verif.Model.Hazard
import Mathlib.Data.Fin.VecNotation

/-!
# Hazards inside quadtree nodes

Model of `collision_detection/quadtree/{qt_hazard,qt_partial_hazard,qt_traits}.rs`.
Panics (`unreachable!`, index out of range, `expect`) are the result `none`.
-/

namespace Jagua

variable {K : Type*} [Arith K] [LinearOrder K]

/-- `qt_traits.rs:9` `QTQueryable`: a shape that can be tested against edges and
rectangles and has a centroid. -/
structure Queryable (K : Type*) where
  edge : Edge K → Bool
  rect : AARect K → Bool
  centroid : Point K

/-- `qt_traits.rs:12` an edge as a query. -/
def Edge.toQuery (e : Edge K) : Queryable K := ⟨e.collidesEdge, e.collidesRect, e.centroid⟩
/-- `qt_traits.rs:11` a rectangle as a query. -/
def AARect.toQuery (r : AARect K) : Queryable K := ⟨r.collidesEdge, r.collidesRect, r.centroid⟩
/-- `qt_traits.rs:13` a circle as a query. -/
def Circle.toQuery (c : Circle K) : Queryable K := ⟨c.collidesEdge, c.collidesRect, c.center⟩

/-- `qt_partial_hazard.rs:91-97` `RelevantEdges`. -/
inductive RelevantEdges
  | all
  | some (indices : List ℕ)
  deriving DecidableEq, Repr

/-- `qt_partial_hazard.rs:12-15` `PartialQTHaz`. -/
structure PartialHaz (K : Type*) where
  shape : Arc (SPoly K)
  edges : RelevantEdges
  deriving DecidableEq, Repr

/-- `qt_hazard.rs:25-32` `QTHazPresence`. -/
inductive Presence (K : Type*)
  | none
  | partly (p : PartialHaz K)
  | entire
  deriving DecidableEq, Repr

/-- `qt_hazard.rs:179-187` conversion to `u8`. -/
def Presence.rank : Presence K → ℕ
  | .none => 0
  | .partly _ => 1
  | .entire => 2

/-- `matches!(_, QTHazPresence::Partial(_))` -/
def Presence.isPartial : Presence K → Bool
  | .partly _ => true
  | _ => false

/-- `matches!(_, QTHazPresence::Entire)` -/
def Presence.isEntire : Presence K → Bool
  | .entire => true
  | _ => false

/-- `qt_hazard.rs:17-21` `QTHazard`. -/
structure QTHazard (K : Type*) where
  entity : HazardEntity K
  presence : Presence K
  active : Bool
  deriving DecidableEq, Repr

/-- `qt_hazard.rs:189-200` `From<Hazard>`; sets `active: true` whatever the
hazard says. `qt_partial_hazard.rs:17-27`: all edges. -/
def QTHazard.ofHazard (h : Hazard K) : QTHazard K :=
  ⟨h.entity, .partly ⟨h.shape, .all⟩, true⟩

/-- `simple_polygon.rs:85-88` `get_edge`, `none` is the index panic. -/
def SPoly.getEdge (s : SPoly K) (i : ℕ) : Option (Edge K) := s.edges[i]?

/-- `iter().any(..)` over edge indices: stops at the first hit, panics on an
index out of range that is reached. -/
def anyEdge (s : SPoly K) (test : Edge K → Bool) : List ℕ → Option Bool
  | [] => some false
  | i :: is => match s.getEdge i with
    | none => none
    | some e => if test e then some true else anyEdge s test is

/-- `qt_partial_hazard.rs:57-88` `CollidesWith<T> for PartialQTHaz`. `BBOX_CHECK_THRESHOLD`
is 10. -/
def PartialHaz.collides (p : PartialHaz K) (q : Queryable K) : Option Bool :=
  let s := p.shape.val
  match p.edges with
  | .all => if q.rect s.bbox then some (s.edges.any q.edge) else some false
  | .some idx =>
    if idx.length = 0 then none
    else if idx.length < 10 then anyEdge s q.edge idx
    else if q.rect s.bbox then anyEdge s q.edge idx
    else some false

/-- `qt_hazard.rs:34-43` `QTHazard::new`. -/
def QTHazard.new (entity : HazardEntity K) (presence : Presence K) (active : Bool) : Option (QTHazard K) :=
  match presence with
  | .none => none
  | p => some ⟨entity, p, active⟩

/-- `qt_hazard.rs:146-176` `add_edge_to_q_presences`, for one quadrant. The
quadrants do not interact in this function, so it is given per quadrant. The
outer `none` is a panic: bad index, or an `unreachable!` state. -/
def addEdgeToPresence (quad : AARect K) (shape : Arc (SPoly K)) (st : Option (Presence K)) (i : ℕ) :
    Option (Option (Presence K)) :=
  match shape.val.getEdge i with
  | none => none
  | some e =>
    if quad.collidesEdge e then
      match st with
      | none => some (some (.partly ⟨shape, .some [i]⟩))
      | some (.partly ⟨sh, .some idx⟩) => some (some (.partly ⟨sh, .some (idx ++ [i])⟩))
      | some (.partly ⟨_, .all⟩) => none
      | some .none => none
      | some .entire => none
    else some st

/-- `qt_hazard.rs:83-104`: the loop over the relevant edges. -/
def edgePhase (quad : AARect K) (p : PartialHaz K) : Option (Option (Presence K)) :=
  let idx := match p.edges with
    | .all => List.range p.shape.val.points.length
    | .some idx => idx
  idx.foldlM (addEdgeToPresence quad p.shape) none

/-- Sequencing of four possibly panicking computations. -/
def seq4 {α : Type*} (f : Fin 4 → Option α) : Option (Fin 4 → α) :=
  match f 0, f 1, f 2, f 3 with
  | some a, some b, some c, some d => some ![a, b, c, d]
  | _, _, _, _ => none

/-- `qt_hazard.rs:119-131`: presence of a quadrant without edges, from its
centroid. -/
def centroidPresence (f : Fpa K) (entity : HazardEntity K) (s : SPoly K) (quad : AARect K) : Presence K :=
  match entity.position, s.collidesPoint f quad.centroid with
  | .interior, true => .entire
  | .exterior, false => .entire
  | _, _ => .none

/-- `qt_hazard.rs:110-132`: the presence given to a quadrant `i` without edges,
from its resolved neighbors if there are any. -/
def resolveValue (f : Fpa K) (entity : HazardEntity K) (s : SPoly K) (quads : Fin 4 → AARect K)
    (st : Fin 4 → Option (Presence K)) (i : Fin 4) : Presence K :=
  match st (AARect.quadrantNeighborLayout i).1, st (AARect.quadrantNeighborLayout i).2 with
  | some .entire, _ => .entire
  | _, some .entire => .entire
  | some .none, _ => .none
  | _, some .none => .none
  | _, _ => centroidPresence f entity s (quads i)

/-- `qt_hazard.rs:108-134`: one step `i` of the loop determining the presences
of the quadrants without edges. -/
def resolveStep (f : Fpa K) (entity : HazardEntity K) (s : SPoly K) (quads : Fin 4 → AARect K)
    (st : Fin 4 → Option (Presence K)) (i : Fin 4) : Fin 4 → Option (Presence K) :=
  if (st i).isNone then Function.update st i (some (resolveValue f entity s quads st i)) else st

/-- `qt_hazard.rs:48-144` `constrict`. -/
def QTHazard.constrict (f : Fpa K) (h : QTHazard K) (quads : Fin 4 → AARect K) :
    Option (Fin 4 → Option (QTHazard K)) :=
  match h.presence with
  | .none => some fun _ => none
  | .entire => some fun _ => some h
  | .partly p =>
    let s := p.shape.val
    match [0, 1, 2, 3].find? (fun i : Fin 4 => s.bbox.relationTo (quads i) = .enclosed) with
    | some j => some fun i => QTHazard.new h.entity (if i = j then h.presence else .none) h.active
    | none =>
      match seq4 (fun i => edgePhase (quads i) p) with
      | none => none
      | some st =>
        let st := [0, 1, 2, 3].foldl (resolveStep f h.entity s quads) st
        seq4 fun i => (st i).map fun pr => QTHazard.new h.entity pr h.active

end Jagua
