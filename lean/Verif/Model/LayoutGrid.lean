import Verif.Model.LBFGrid

/-!
# Layouts with the proximity grids of their engines

In `Verif.Model.Layout` the engine of a layout has no grid. Here it has one, as in the code (`cd_engine.rs:27-36`), and all methods of a layout that
change its engine are modelled with it, `flush_changes` among them.
-/

namespace Jagua

variable {K : Type*} [Arith K] [LinearOrder K] {n : ℕ}

/-- `layout.rs:18-27` `Layout`, with the grid of its engine beside it. -/
structure GridLayout (K : Type*) (n : ℕ) where
  layout : Layout K n
  grid : Option (HPG K)

/-- `layout.rs:155-166` `LayoutSnapshot`, with the grid in its `CDESnapshot` (`cd_engine.rs:40-44`) beside it. -/
structure GridLayoutSnapshot (K : Type*) (n : ℕ) where
  snap : LayoutSnapshot K n
  grid : Option (Grid K (HPGCell K))

/-- `layout.rs:26`: the engine of a layout -/
def GridLayout.engine (s : GridLayout K n) : HCDE K n := ⟨s.layout.cde, s.grid⟩

/-- `cd_engine.rs:40-44`: the snapshot of the engine in a snapshot of a layout -/
def GridLayoutSnapshot.engine (s : GridLayoutSnapshot K n) : HSnap K := ⟨s.snap.cdeSnapshot, s.grid⟩

namespace GridLayout

/-- `layout.rs:30-38` `Layout::new`. The grid is in the engine of the bin, which was made with the bin (`bin.rs:70-73`); it is computed here, since making it
does not depend on anything else. -/
def new (henv : HEnv K) (nCells : ℕ) (id : ℕ) (bin : Bin K n) : Option (GridLayout K n) :=
  (bin.newGrid henv nCells).map fun g => ⟨Layout.new id bin, g⟩

/-- `layout.rs:46-55` `change_bin` -/
def changeBin (henv : HEnv K) (env : Env K) (nCells : ℕ) (s : GridLayout K n) (bin : Bin K n) : Option (GridLayout K n) :=
  (bin.newGrid henv nCells).bind fun g =>
  (s.layout.placed.values.foldlM (fun (c : HCDE K n) pi => c.register henv env.o (Hazard.new pi.entity pi.shape)) ⟨bin.baseCde, g⟩).map fun c =>
    ⟨{ s.layout with bin := bin, cde := c.cde }, c.hpg⟩

/-- `layout.rs:57-65` `create_snapshot` -/
def createSnapshot (henv : HEnv K) (s : GridLayout K n) : Option (GridLayout K n × GridLayoutSnapshot K n) :=
  (s.engine.createSnapshot henv).map fun c =>
    (⟨{ s.layout with cde := c.1.cde }, c.1.hpg⟩,
      ⟨⟨s.layout.id, s.layout.bin, s.layout.placed, c.2.dynamics, s.layout.usage⟩, c.2.grid⟩)

/-- `layout.rs:67-75` `restore` -/
def restore (henv : HEnv K) (env : Env K) (s : GridLayout K n) (x : GridLayoutSnapshot K n) : Option (GridLayout K n) :=
  if s.layout.id ≠ x.snap.id then none
  else (s.engine.restore henv env.o x.engine).map fun c => ⟨{ s.layout with placed := x.snap.placed, cde := c.cde }, c.hpg⟩

/-- `layout.rs:81-91` `place_item` -/
def placeItem (henv : HEnv K) (env : Env K) (addr : ℕ) (s : GridLayout K n) (item : Item K) (dt : DTransf K) : Option (SlotKey × GridLayout K n) :=
  let pi := PlacedItem.new env addr item dt
  let ins := s.layout.placed.insert pi
  (s.engine.register henv env.o (Hazard.new pi.entity pi.shape)).map fun c => (ins.1, ⟨{ s.layout with placed := ins.2, cde := c.cde }, c.hpg⟩)

/-- `layout.rs:93-106` `remove_item` -/
def removeItem (henv : HEnv K) (env : Env K) (s : GridLayout K n) (key : SlotKey) (commitInstant : Bool) : Option (PlacedItem K × GridLayout K n) :=
  match s.layout.placed.remove key with
  | none => none
  | some (pi, m) => (s.engine.deregister henv env.o pi.entity commitInstant).map fun c => (pi, ⟨{ s.layout with placed := m, cde := c.cde }, c.hpg⟩)

/-- `layout.rs:146-149` `flush_changes` -/
def flushChanges (henv : HEnv K) (s : GridLayout K n) : Option (GridLayout K n) :=
  (s.engine.flush henv).map fun c => ⟨{ s.layout with cde := c.cde }, c.hpg⟩

end GridLayout

end Jagua
