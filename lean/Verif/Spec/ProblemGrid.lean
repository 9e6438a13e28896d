import Verif.Model.ProblemGrid
import Verif.Spec.Strip
import Verif.Spec.LBFGrid

/-!
# Specification vocabulary for strip packing problems with proximity grids
-/

namespace Jagua

variable {K : Type*} [Arith K] [LinearOrder K] {n : ℕ}

/-- The operations on a strip packing problem and `flush_changes`. -/
inductive GridSPOp (K : Type*)
  | op (o : SPOp K)
  | flush

/-- A problem with a grid and the solutions made so far. -/
structure GridSPState (K : Type*) (n : ℕ) where
  s : GridSP K n
  sols : List (GridSolution K n)

/-- The same problem without the grid. -/
def GridSPState.forget (st : GridSPState K n) : SPState K n := ⟨st.s.p, st.sols.map (·.sol)⟩

/-- The obligations of the caller: those for problems without a grid. -/
def GridSPOp.Pre (env : StripEnv K) (st : GridSPState K n) : GridSPOp K → Prop
  | .op o => o.Pre env st.forget
  | .flush => True

/-- Running an operation; `none` is a panic. `nCells` is the number of cells wanted, which is fixed in the configuration. -/
def GridSPOp.run (henv : HEnv K) (nCells : ℕ) (env : StripEnv K) : GridSPOp K → GridSPState K n → Option (GridSPState K n)
  | .op (.place addr opt), st => (st.s.placeItem henv env.toEnv addr opt).map fun r => { st with s := r.2 }
  | .op (.remove idx key ci), st => (st.s.removeItem henv env.toEnv idx key ci).map fun r => { st with s := r.2 }
  | .op (.modify addr addrs rect), st => (st.s.modifyStrip henv nCells env addr addrs rect).map fun s => { st with s := s }
  | .op (.inBack addr addrs w), st => (st.s.modifyInBack henv nCells env addr addrs w).map fun s => { st with s := s }
  | .op (.atFront addr addrs w), st => (st.s.modifyAtFront henv nCells env addr addrs w).map fun s => { st with s := s }
  | .op (.centered addr addrs w), st => (st.s.modifyCentered henv nCells env addr addrs w).map fun s => { st with s := s }
  | .op (.fit addr addrs), st => (st.s.fitStrip henv nCells env addr addrs).map fun s => { st with s := s }
  | .op .solution, st => (st.s.createSolution henv).map fun r => ⟨r.2, st.sols ++ [r.1]⟩
  | .op (.restore j), st => match st.sols[j]? with
    | none => none
    | some x => (st.s.restore henv nCells env.toEnv x).map fun s => { st with s := s }
  | .flush, st => (st.s.flushChanges henv).map fun s => { st with s := s }

/-- The same operation on a problem without a grid; flushing does nothing there. -/
def GridSPOp.runForget (env : StripEnv K) : GridSPOp K → SPState K n → Option (SPState K n)
  | .op o, st => o.run env st
  | .flush, st => some st

/-- Whether removals are waiting to be processed after an operation, given whether there were any before. -/
def GridSPOp.waiting (b : Bool) : GridSPOp K → Bool
  | .op (.place ..) => b
  | .op (.remove _ _ true) => b
  | .op (.remove _ _ false) => true
  | _ => false

/-- Problems that come from `SPProblem::new` and any sequence of operations that meet the obligations of the caller, and whether removals are waiting. -/
inductive GridSPReach (henv : HEnv K) (nCells : ℕ) (env : StripEnv K) : GridSPState K n → Bool → Prop
  | new {inst : SPInstance K} {addr : ℕ} {width : K} {s : GridSP K n} : inst.Built → GridSP.new henv nCells env n addr inst width = some s →
      GridSPReach henv nCells env ⟨s, []⟩ false
  | step {st st' : GridSPState K n} {b : Bool} {op : GridSPOp K} : GridSPReach henv nCells env st b → op.Pre env st →
      op.run henv nCells env st = some st' → GridSPReach henv nCells env st' (op.waiting b)

end Jagua
