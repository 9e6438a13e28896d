import Verif.Model.Problem
import Verif.Spec.Engine

/-!
# Problems that differ in memory addresses only

Shapes are allocated on the heap and shared; the model records the address of every shape. The
definitions below say when two bins, engines, layouts or problems are alike up to these addresses and up to
the inner structure of the quadtree.
-/

namespace Jagua

variable {K : Type*} {n : ℕ}

/-- a shape without its address -/
def Arc.strip {α : Type*} (a : Arc α) : Arc α := ⟨0, a.val⟩

/-- a placed item without the address of its shape -/
def PlacedItem.erase (pi : PlacedItem K) : PlacedItem K := { pi with shape := pi.shape.strip }

/-- a quality zone without the addresses of its shapes -/
def QualityZone.erase (z : QualityZone K) : QualityZone K := { z with zones := z.zones.map Arc.strip }

/-- the slots with other values -/
def SlotMap.mapVals {α β : Type*} (g : α → β) (m : SlotMap α) : SlotMap β := ⟨m.slots.map fun s => ⟨s.version, s.val.map g⟩, m.free⟩

/-- the same box and the same hazards in the same order, up to addresses; nothing waits for removal -/
structure CDE.Twin (c d : CDE K n) : Prop where
  bbox : c.bbox = d.bbox
  statics : c.statics.map Hazard.erase = d.statics.map Hazard.erase
  dynamics : c.dynamics.map Hazard.erase = d.dynamics.map Hazard.erase
  settled : c.uncommitted = [] ∧ d.uncommitted = []

/-- the same bin up to addresses -/
structure Bin.Twin (b b' : Bin K n) : Prop where
  id : b.id = b'.id
  outer : b.outer.val = b'.outer.val
  value : b.value = b'.value
  pretransform : b.pretransform = b'.pretransform
  holes : b.holes.map Arc.strip = b'.holes.map Arc.strip
  zones : b.qualityZones.map (Option.map QualityZone.erase) = b'.qualityZones.map (Option.map QualityZone.erase)
  area : b.area = b'.area
  cde : b.baseCde.Twin b'.baseCde

/-- the same layout up to addresses: equal items in equal slots -/
structure Layout.Twin (l l' : Layout K n) : Prop where
  id : l.id = l'.id
  bin : l.bin.Twin l'.bin
  placed : l.placed.mapVals PlacedItem.erase = l'.placed.mapVals PlacedItem.erase
  cde : l.cde.Twin l'.cde

/-- the same instance up to addresses -/
structure BPInstance.Twin (i i' : BPInstance K n) : Prop where
  items : i.items = i'.items
  bins : List.Forall₂ (fun b b' : Bin K n × ℕ => b.1.Twin b'.1 ∧ b.2 = b'.2) i.bins i'.bins

/-- the same problem up to addresses -/
structure BPProblem.Twin (p p' : BPProblem K n) : Prop where
  inst : p.inst.Twin p'.inst
  layouts : List.Forall₂ Layout.Twin p.layouts p'.layouts
  templates : List.Forall₂ Layout.Twin p.templates p'.templates
  missing : p.missing = p'.missing
  binQtys : p.binQtys = p'.binQtys
  layoutCounter : p.layoutCounter = p'.layoutCounter
  solutionCounter : p.solutionCounter = p'.solutionCounter
  unmodified : p.unmodified = p'.unmodified
  refSolution : p.refSolution = p'.refSolution
  removed : List.Forall₂ Layout.Twin p.removed p'.removed

/-- the same problem up to addresses -/
structure SPProblem.Twin (p p' : SPProblem K n) : Prop where
  inst : p.inst = p'.inst
  layout : p.layout.Twin p'.layout
  missing : p.missing = p'.missing
  layoutCounter : p.layoutCounter = p'.layoutCounter
  solutionCounter : p.solutionCounter = p'.solutionCounter

/-- the same snapshot up to addresses -/
structure LayoutSnapshot.Twin (s s' : LayoutSnapshot K n) : Prop where
  id : s.id = s'.id
  bin : s.bin.Twin s'.bin
  placed : s.placed.mapVals PlacedItem.erase = s'.placed.mapVals PlacedItem.erase
  hazards : s.cdeSnapshot.map Hazard.erase = s'.cdeSnapshot.map Hazard.erase
  usage : s.usage = s'.usage

/-- the same solution up to addresses -/
structure Solution.Twin (s s' : Solution K n) : Prop where
  id : s.id = s'.id
  snapshots : List.Forall₂ LayoutSnapshot.Twin s.snapshots s'.snapshots
  usage : s.usage = s'.usage
  placed : s.placed = s'.placed
  target : s.target = s'.target
  binQtys : s.binQtys = s'.binQtys

end Jagua
