import Verif.Model.Main
import Verif.Model.LBFGrid

/-!
# The program with the proximity grids of its engines

As `Verif.Model.Main`, with the grids kept by the optimizer instead of a parameter. `nCells` is `hpg_n_cells` of the configuration of the engine.
-/

namespace Jagua

variable {K : Type*} [Arith K] [LinearOrder K] {n : ℕ} {R : Type*}

/-- `main.rs:66-67`: the solution, with `lbf_optimizer.rs:45-61` choosing the kind of problem. -/
def mainSolveG (env : MEnv K n R) (henv : HEnv K) (nCells : ℕ) (cfg : MainConfig K) (mem : MainMem) (inst : Instance K n) : Option (Solution K n) :=
  match inst with
  | .bp i => (lbfSolveBPG env.lenv henv nCells env.toEnv cfg.lbf mem.items mem.fuel i (mainRng env cfg)).map (·.1)
  | .sp i => (lbfSolveSPG (n := n) env.lenv henv nCells env.toStripEnv cfg.lbf mem.items mem.again mem.first mem.last mem.lastItems mem.fuel i (mainRng env cfg)).map (·.1)

/-- `main.rs:52-89`: the solution that is written. The grids of the bins are made when the optimizer starts; in the code they are made when the
instance is read, also for the bins before they are centered. -/
def mainSolutionG (env : MEnv K n R) (henv : HEnv K) (nCells : ℕ) (cfg : MainConfig K) (mem : MainMem) (ji : JsonInstance K) : Option (JsonSolution K) :=
  (mainInstance env cfg mem ji).bind fun inst => (mainSolveG env henv nCells cfg mem inst).bind fun sol => composeSolution env.tr inst sol

end Jagua
