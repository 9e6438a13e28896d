import Verif.Model.LayoutGrid
import Verif.Spec.Layout
import Verif.Spec.LBFGrid

/-!
# Specification vocabulary for layouts with proximity grids
-/

namespace Jagua

variable {K : Type*} [Arith K] [LinearOrder K] {n : ℕ}

/-- The operations on a layout. `restore i` is given the snapshot taken `i`-th since the bin was last changed. -/
inductive GridLayoutOp (K : Type*) (n : ℕ)
  | place (addr : ℕ) (item : Item K) (dt : DTransf K)
  | remove (key : SlotKey) (commitInstant : Bool)
  | flush
  | snapshot
  | restore (i : ℕ)
  | changeBin (bin : Bin K n) (nCells : ℕ)

/-- A layout and the snapshots taken since its bin was last changed. -/
structure GridLayoutState (K : Type*) (n : ℕ) where
  layout : GridLayout K n
  snaps : List (GridLayoutSnapshot K n)

/-- The obligations of the caller: those for layouts without a grid; a new bin has a grid. -/
def GridLayoutOp.Pre (henv : HEnv K) (env : Env K) (cat : ℕ → Item K) (st : GridLayoutState K n) : GridLayoutOp K n → Prop
  | .place _ item dt => item = cat item.id ∧ ∀ pi ∈ st.layout.layout.placed.values, ¬ (pi.itemId = item.id ∧ pi.dt = dt)
  | .remove key _ => ∃ pi, st.layout.layout.placed.get? key = some pi
  | .flush => True
  | .snapshot => True
  | .restore i => i < st.snaps.length
  | .changeBin bin nCells => bin.Built env ∧ bin.newGrid henv nCells ≠ none

/-- Running an operation; `none` is a panic. -/
def GridLayoutOp.run (henv : HEnv K) (env : Env K) : GridLayoutOp K n → GridLayoutState K n → Option (GridLayoutState K n)
  | .place addr item dt, st => (st.layout.placeItem henv env addr item dt).map fun r => { st with layout := r.2 }
  | .remove key ci, st => (st.layout.removeItem henv env key ci).map fun r => { st with layout := r.2 }
  | .flush, st => (st.layout.flushChanges henv).map fun l => { st with layout := l }
  | .snapshot, st => (st.layout.createSnapshot henv).map fun r => ⟨r.1, st.snaps ++ [r.2]⟩
  | .restore i, st => match st.snaps[i]? with
    | none => none
    | some s => (st.layout.restore henv env s).map fun l => { st with layout := l }
  | .changeBin bin nCells, st => (st.layout.changeBin henv env nCells bin).map fun l => ⟨l, []⟩

/-- Whether removals are waiting to be processed after an operation, given whether there were any before. -/
def GridLayoutOp.waiting (b : Bool) : GridLayoutOp K n → Bool
  | .place .. => b
  | .remove _ true => b
  | .remove _ false => true
  | .flush => false
  | .snapshot => false
  | .restore _ => false
  | .changeBin .. => false

/-- Layouts that come from `Layout::new` and any sequence of operations that meet the obligations of the caller, and whether removals are
waiting. -/
inductive GridLayoutReach (henv : HEnv K) (env : Env K) (cat : ℕ → Item K) : GridLayoutState K n → Bool → Prop
  | new {nCells id : ℕ} {bin : Bin K n} {l : GridLayout K n} : bin.Built env → GridLayout.new henv nCells id bin = some l →
      GridLayoutReach henv env cat ⟨l, []⟩ false
  | step {st st' : GridLayoutState K n} {b : Bool} {op : GridLayoutOp K n} : GridLayoutReach henv env cat st b → op.Pre henv env cat st →
      op.run henv env st = some st' → GridLayoutReach henv env cat st' (op.waiting b)

/-- The same layout without its grid. -/
def GridLayoutState.forget (st : GridLayoutState K n) : LayoutState K n := ⟨st.layout.layout, st.snaps.map (·.snap)⟩

/-- The same operation on a layout without a grid; flushing does nothing there. -/
def GridLayoutOp.runForget (env : Env K) : GridLayoutOp K n → LayoutState K n → Option (LayoutState K n)
  | .place addr item dt, st => (LayoutOp.place addr item dt).run env st
  | .remove key ci, st => (LayoutOp.remove key ci).run env st
  | .flush, st => some st
  | .snapshot, st => LayoutOp.snapshot.run env st
  | .restore i, st => (LayoutOp.restore i).run env st
  | .changeBin bin _, st => ((LayoutOp.changeBin bin).run env st).map fun st => { st with snaps := [] }

end Jagua
