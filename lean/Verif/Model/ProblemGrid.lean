import Verif.Model.LayoutGrid

/-!
# Strip packing problems with the proximity grid of the strip

The methods of a strip packing problem that the optimizer does not use, with the grid in the engine of the layout; the other ones are in
`Verif.Model.LBFGrid`.
-/

namespace Jagua

variable {K : Type*} [Arith K] [LinearOrder K] {n : ℕ}

/-- `layout.rs:40-44` `from_snapshot` -/
def GridLayout.fromSnapshot (henv : HEnv K) (env : Env K) (nCells : ℕ) (x : GridLayoutSnapshot K n) : Option (GridLayout K n) :=
  (GridLayout.new henv nCells x.snap.id x.snap.bin).bind fun l => l.restore henv env x

/-- `solution.rs:14-29` `Solution` of a strip packing problem, with the grid in the snapshot of its layout beside it. -/
structure GridSolution (K : Type*) (n : ℕ) where
  sol : Solution K n
  grid : Option (Grid K (HPGCell K))

namespace GridSP

/-- `strip_packing.rs:23-31`: the layout of the problem -/
def gridLayout (s : GridSP K n) : GridLayout K n := ⟨s.p.layout, s.grid⟩

/-- `strip_packing.rs:193-207` `remove_item` -/
def removeItem (henv : HEnv K) (env : Env K) (s : GridSP K n) (idx : LayoutIndex) (key : SlotKey) (commitInstant : Bool) :
    Option (PlacingOption K × GridSP K n) :=
  if idx ≠ .real 0 then none
  else (s.gridLayout.removeItem henv env key commitInstant).bind fun r =>
    (SPProblem.deregisterItem { s.p with layout := r.2.layout } r.1.itemId).map fun p => (PlacingOption.ofPlaced idx r.1, ⟨p, r.2.grid⟩)

/-- `strip_packing.rs:64-69` `modify_strip_at_front` -/
def modifyAtFront (henv : HEnv K) (nCells : ℕ) (env : StripEnv K) (addr : ℕ) (addrs : ℕ → ℕ) (s : GridSP K n) (width : K) : Option (GridSP K n) :=
  let b := s.p.layout.bin.outer.val.bbox
  (AARect.new env.overflowChecks (b.xMax - width) b.yMin b.xMax b.yMax).bind (s.modifyStrip henv nCells env addr addrs)

/-- `strip_packing.rs:209-233` `create_solution` -/
def createSolution (henv : HEnv K) (s : GridSP K n) : Option (GridSolution K n × GridSP K n) :=
  let p := { s.p with solutionCounter := s.p.solutionCounter + 1 }
  (s.gridLayout.createSnapshot henv).map fun r =>
    let p := { p with layout := r.1.layout }
    (⟨{ id := p.solutionCounter, snapshots := [r.2.snap], usage := problemUsage [p.layout]
        placed := placedQtys p.inst.qtys p.missing, target := p.inst.qtys, binQtys := [0] }, r.2.grid⟩, ⟨p, r.1.grid⟩)

/-- `strip_packing.rs:235-254` `restore_to_solution` -/
def restore (henv : HEnv K) (nCells : ℕ) (env : Env K) (s : GridSP K n) (sol : GridSolution K n) : Option (GridSP K n) :=
  match sol.sol.snapshots with
  | [] => none
  | x :: _ =>
    (if s.p.layout.id = x.id then s.gridLayout.restore henv env ⟨x, sol.grid⟩ else GridLayout.fromSnapshot henv env nCells ⟨x, sol.grid⟩).bind fun l =>
    (missingOfSolution env.overflowChecks s.p.inst.qtys sol.sol.placed s.p.missing).map fun m => ⟨{ s.p with layout := l.layout, missing := m }, l.grid⟩

/-- `problem_generic.rs:92-97` `flush_changes`: the only layout of the problem (`strip_packing.rs:256-262`) is flushed. -/
def flushChanges (henv : HEnv K) (s : GridSP K n) : Option (GridSP K n) :=
  (s.gridLayout.flushChanges henv).map fun l => ⟨{ s.p with layout := l.layout }, l.grid⟩

end GridSP

end Jagua
