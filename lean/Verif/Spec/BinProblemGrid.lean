import Verif.Model.BinProblemGrid
import Verif.Spec.Problem
import Verif.Spec.LBFGrid

/-!
# Specification vocabulary for bin packing problems with proximity grids
-/

namespace Jagua

variable {K : Type*} [Arith K] [LinearOrder K] {n : ℕ}

/-- The operations on a bin packing problem with grids. As for `BPOp`; for a layout that is registered it is also given whether removals are waiting in it. -/
inductive GridBPOp (K : Type*) (n : ℕ)
  | place (addr : ℕ) (opt : PlacingOption K)
  | remove (idx : LayoutIndex) (key : SlotKey) (commitInstant : Bool)
  | registerLayout (l : GridLayout K n) (waiting : Bool)
  | deregisterLayout (idx : LayoutIndex)
  | solution (hint : Option ℕ)
  | restore (j : ℕ)
  | flush

/-- A problem with grids and the solutions made so far. -/
structure GridBPState (K : Type*) (n : ℕ) where
  s : GridBPProblem K n
  sols : List (GridBPSolution K n)

/-- The same solution without grids. -/
def GridBPSolution.forget (x : GridBPSolution K n) : Solution K n :=
  ⟨x.id, x.snapshots.map (·.snap), x.usage, x.placed, x.target, x.binQtys⟩

/-- The same problem without grids. -/
def GridBPProblem.forget (s : GridBPProblem K n) : BPProblem K n :=
  ⟨s.inst, s.layouts.map (·.layout), s.templates.map (·.layout), s.missing, s.binQtys, s.layoutCounter, s.solutionCounter, s.unmodified, s.refSolution,
    s.removed.map (·.layout)⟩

def GridBPState.forget (st : GridBPState K n) : BPState K n := ⟨st.s.forget, st.sols.map (·.forget)⟩

/-- The same operation on problems without grids; there is none for flushing. -/
def GridBPOp.plain : GridBPOp K n → Option (BPOp K n)
  | .place addr opt => some (.place addr opt)
  | .remove idx key ci => some (.remove idx key ci)
  | .registerLayout l _ => some (.registerLayout l.layout)
  | .deregisterLayout idx => some (.deregisterLayout idx)
  | .solution hint => some (.solution hint)
  | .restore j => some (.restore j)
  | .flush => none

/-- The layouts with grids that a caller can make themselves, and whether removals are waiting in them: new ones, clones of those of the problem, and what becomes of them by
placing items of the instance, removing items and flushing. -/
inductive GridLayoutOwn (henv : HEnv K) (nCells : ℕ) (env : Env K) (st : GridBPState K n) (w : List ℕ) : GridLayout K n → Bool → Prop
  | new {id : ℕ} {bin : Bin K n} {l : GridLayout K n} : bin.Built env → GridLayout.new henv nCells id bin = some l → GridLayoutOwn henv nCells env st w l false
  | layout {l : GridLayout K n} : l ∈ st.s.layouts → GridLayoutOwn henv nCells env st w l (decide (l.layout.id ∈ w))
  | template {l : GridLayout K n} : l ∈ st.s.templates → GridLayoutOwn henv nCells env st w l false
  | clone {l : GridLayout K n} {b : Bool} (id : ℕ) : GridLayoutOwn henv nCells env st w l b → GridLayoutOwn henv nCells env st w ⟨l.layout.cloneWithId id, l.grid⟩ b
  | place {l : GridLayout K n} {b : Bool} {addr i : ℕ} {item : Item K × ℕ} {dt : DTransf K} {r : SlotKey × GridLayout K n} : GridLayoutOwn henv nCells env st w l b →
      st.s.inst.items[i]? = some item → (∀ pi ∈ l.layout.placed.values, ¬ (pi.itemId = i ∧ pi.dt = dt)) → l.placeItem henv env addr item.1 dt = some r →
      GridLayoutOwn henv nCells env st w r.2 b
  | remove {l : GridLayout K n} {b ci : Bool} {key : SlotKey} {pi : PlacedItem K} {r : PlacedItem K × GridLayout K n} : GridLayoutOwn henv nCells env st w l b →
      l.layout.placed.get? key = some pi → l.removeItem henv env key ci = some r → GridLayoutOwn henv nCells env st w r.2 (if ci then b else true)
  | flush {l l' : GridLayout K n} {b : Bool} : GridLayoutOwn henv nCells env st w l b → l.flushChanges henv = some l' → GridLayoutOwn henv nCells env st w l' false

/-- The obligations of the caller: those for problems without grids; a layout that is registered is one that the caller can make. -/
structure GridBPOp.Pre (henv : HEnv K) (nCells : ℕ) (env : Env K) (st : GridBPState K n) (w : List ℕ) (op : GridBPOp K n) : Prop where
  plain : ∀ o, op.plain = some o → o.Pre env st.forget
  own : ∀ l b, op = .registerLayout l b → GridLayoutOwn henv nCells env st w l b

/-- Running an operation; `none` is a panic. `nCells` is the number of cells wanted, which is fixed in the configuration. -/
def GridBPOp.run (henv : HEnv K) (nCells : ℕ) (env : Env K) : GridBPOp K n → GridBPState K n → Option (GridBPState K n)
  | .place addr opt, st => (st.s.placeItem henv env addr opt).map fun r => { st with s := r.2 }
  | .remove idx key ci, st => (st.s.removeItem henv env idx key ci).map fun r => { st with s := r.2 }
  | .registerLayout l _, st => (st.s.registerLayout l).map fun r => { st with s := r.2 }
  | .deregisterLayout idx, st => (st.s.deregisterLayout idx).map fun s => { st with s := s }
  | .solution none, st => (st.s.createSolution henv none).map fun r => ⟨r.2, st.sols ++ [r.1]⟩
  | .solution (some j), st => match st.sols[j]? with
    | none => none
    | some x => (st.s.createSolution henv (some x)).map fun r => ⟨r.2, st.sols ++ [r.1]⟩
  | .restore j, st => match st.sols[j]? with
    | none => none
    | some x => (st.s.restore henv nCells env x).map fun s => { st with s := s }
  | .flush, st => (st.s.flushChanges henv).map fun s => { st with s := s }

/-- The same operation on a problem without grids; flushing does nothing there. -/
def GridBPOp.runForget (env : Env K) (op : GridBPOp K n) (st : BPState K n) : Option (BPState K n) :=
  match op.plain with
  | some o => o.run env st
  | none => some st

/-- The ids of the layouts with removals waiting to be processed after an operation, given those before: lazy removals from a layout wait until changes are flushed,
or a solution is made or restored. -/
def GridBPOp.waiting (st : GridBPState K n) (w : List ℕ) : GridBPOp K n → List ℕ
  | .place .. => w
  | .remove _ _ true => w
  | .remove (.real i) _ false => match st.s.layouts[i]? with
    | some l => l.layout.id :: w
    | none => w
  | .remove (.template _) _ false => w
  | .registerLayout l b => if b then l.layout.id :: w else w.filter (· ≠ l.layout.id)
  | .deregisterLayout _ => w
  | .solution _ => []
  | .restore _ => []
  | .flush => []

/-- Problems that come from `BPProblem::new` and any sequence of operations that meet the obligations of the caller, and the ids of layouts with waiting removals. -/
inductive GridBPReach (henv : HEnv K) (nCells : ℕ) (env : Env K) : GridBPState K n → List ℕ → Prop
  | new {inst : BPInstance K n} {s : GridBPProblem K n} : inst.Built env → GridBPProblem.new henv nCells inst = some s → GridBPReach henv nCells env ⟨s, []⟩ []
  | step {st st' : GridBPState K n} {w : List ℕ} {op : GridBPOp K n} : GridBPReach henv nCells env st w → op.Pre henv nCells env st w →
      op.run henv nCells env st = some st' → GridBPReach henv nCells env st' (op.waiting st w)

end Jagua
