import Verif.Model.CDE
import Verif.Spec.HazardRegion
import Verif.Lemmas.PolyBasic

/-!
# Specification vocabulary for the collision detection engine

Operation sequences and what it means that two engines answer alike.
-/

namespace Jagua

section Any
variable {K : Type*} [Arith K] [LinearOrder K] {n : ℕ}

/-- Everything a caller can do to an engine. Taking a snapshot is `commit` as far
as the engine is concerned; `restore` gets the content of a snapshot. -/
inductive CDEOp (K : Type*)
  | register (h : Hazard K)
  | deregister (e : HazardEntity K) (commitInstant : Bool)
  | commit
  | restore (snap : List (Hazard K))

/-- The obligations of the caller: hazards have pairwise distinct entities, only
registered hazards are deregistered. -/
def CDEOp.Pre (c : CDE K n) : CDEOp K → Prop
  | .register h => (∀ x ∈ c.allHazards, x.entity ≠ h.entity)
  | .deregister e _ => ∃ h ∈ c.dynamics, h.entity = e
  | .commit => True
  | .restore snap => (snap.map (·.entity)).Nodup ∧ ∀ h ∈ snap, ∀ s ∈ c.statics, s.entity ≠ h.entity

/-- Running an operation; `none` is a panic. -/
def CDEOp.run (f : Fpa K) (o : SearchOracle K) : CDEOp K → CDE K n → Option (CDE K n)
  | .register h, c => c.register f o h
  | .deregister e ci, c => c.deregister o e ci
  | .commit, c => c.commit
  | .restore snap, c => c.restore f o snap

/-- Running a sequence of operations in which every operation meets its
obligations. -/
inductive CDERun (f : Fpa K) (o : SearchOracle K) : CDE K n → List (CDEOp K) → CDE K n → Prop
  | nil (c) : CDERun f o c [] c
  | cons {c op c' ops c''} : op.Pre c → op.run f o c = some c' → CDERun f o c' ops c'' → CDERun f o c (op :: ops) c''

/-- Engines that come out of `CDEngine::new` and a sequence of operations. -/
def CDE.Reachable (f : Fpa K) (o : SearchOracle K) (c : CDE K n) : Prop :=
  ∃ (bbox : AARect K) (statics : List (Hazard K)) (c₀ : CDE K n) (ops : List (CDEOp K)),
    (statics.map (·.entity)).Nodup ∧ CDE.new f o n bbox statics = some c₀ ∧ CDERun f o c₀ ops c

/-- All yes/no and three-valued queries agree. -/
structure SameAnswers (f : Fpa K) (c d : CDE K n) : Prop where
  poly : ∀ shape irr, c.polyCollides f shape irr = d.polyCollides f shape irr
  surrogate : ∀ poles piers irr, c.surrogateCollides poles piers irr = d.surrogateCollides poles piers irr
  both : ∀ poles piers shape irr,
    c.surrogateOrPolyCollides f poles piers shape irr = d.surrogateOrPolyCollides f poles piers shape irr
  edge : ∀ e irr, c.edgeDefinitelyCollides e irr = d.edgeDefinitelyCollides e irr
  circle : ∀ ci irr, c.circleDefinitelyCollides ci irr = d.circleDefinitelyCollides ci irr
  point : ∀ p e, c.pointDefinitelyCollidesWith p e = d.pointDefinitelyCollidesWith p e

/-- A hazard without the address of its shape: entity, polygon and flag. -/
def Hazard.erase (h : Hazard K) : Hazard K := { h with shape := ⟨0, h.shape.val⟩ }

/-- Entities determine hazards: all hazards ever handed to the engine are, up to
the address of the shape, `φ` of their entity. -/
def CDE.Consistent (φ : HazardEntity K → Hazard K) (c : CDE K n) : Prop :=
  ∀ h ∈ c.dynamics ++ c.uncommitted, h.erase = φ h.entity

/-- The same for the operations. -/
def CDEOp.Consistent (φ : HazardEntity K → Hazard K) : CDEOp K → Prop
  | .register h => h.erase = φ h.entity
  | .deregister _ _ => True
  | .commit => True
  | .restore snap => ∀ h ∈ snap, h.erase = φ h.entity

/-- `a` is the shape of a hazard stored somewhere in the tree. -/
def QTNode.Stores (a : Arc (SPoly K)) : {n : ℕ} → QTNode K n → Prop
  | _, .leaf _ v => ∃ h ∈ v.hazards, ∃ p, h.presence = .partly p ∧ p.shape = a
  | _, .node _ v cs => (∃ h ∈ v.hazards, ∃ p, h.presence = .partly p ∧ p.shape = a) ∨ ∃ i, (cs i).Stores a

end Any

section Exact
variable {K : Type*} [Field K] [LinearOrder K] {n : ℕ}

/-- The geometric assumptions on an engine: its box is a proper rectangle, the
shapes are polygons with their bounding box, hazards have the flag
`Hazard::new` gives them (`hazard.rs:20-26`), and the box of an exterior hazard
is as wide or as high as the engine's box (bins inflate the bounding box of
their outline to a square, `bin.rs:45`). -/
structure CDE.Good (c : CDE K n) : Prop where
  box : c.bbox.Valid
  shapes : ∀ h ∈ c.allHazards, h.shape.val.WF
  active : ∀ h ∈ c.allHazards, h.active = true
  fits : ∀ h ∈ c.allHazards, h.entity.position = .exterior →
    c.bbox.width ≤ h.shape.val.bbox.width ∨ c.bbox.height ≤ h.shape.val.bbox.height

/-- A shape as the constructors of the code mean to produce it: a polygon with
its bounding box that does not fold back onto itself and has its pole of
inaccessibility in its interior. -/
structure SPoly.Proper (s : SPoly K) : Prop where
  wf : s.WF
  noSpike : NoSpike s.points
  poi : s.poi.center ∈ interior s.points

end Exact

end Jagua
