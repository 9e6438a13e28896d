import Verif.Model.Svg
import Verif.Model.LBF

/-!
# The program

Model of `lbf/src/main.rs`: reading an instance, solving it, and writing the solution and its pictures. The command line, the files and
the log are left out; so are the parts of the output that are copied from the input (the instance and the configuration).
-/

namespace Jagua

variable {K : Type*} [Arith K] [LinearOrder K] {n : ℕ} {R : Type*}

/-- `lbf_config.rs:10-26` `LBFConfig` without the configuration of the engine, whose depth of the quadtree is the parameter `n` elsewhere and
whose other parts are those of `PEnv.surr` and `LEnv.grid`. -/
structure MainConfig (K : Type*) where
  tolerance : Option K
  seed : Option ℕ
  lbf : LbfConfig
  svg : SvgOptions

/-- What the program gets from outside: `seedFrom` is `SmallRng::seed_from_u64` and `entropy` the generator made by
`SmallRng::from_entropy`. `hpg` gives the grid of the engine when a layout is drawn. -/
structure MEnv (K : Type*) (n : ℕ) (R : Type*) extends SvgEnv K, StripEnv K where
  lenv : LEnv K n R
  seedFrom : ℕ → R
  entropy : R
  hpg : LayoutSnapshot K n → Option (HPG K)

/-- The addresses of the shapes that are allocated in the course of a run, and the bound on the rounds of the optimizer. -/
structure MainMem where
  /-- bins as they are read, and bins that have been centered -/
  bins : ℕ → ℕ → ℕ → ℕ
  centered : ℕ → ℕ → ℕ → ℕ
  /-- placed items -/
  items : ℕ → ℕ → ℕ
  /-- items placed again after the strip got longer -/
  again : ℕ → ℕ → ℕ → ℕ
  /-- the first strip and the last one with its items -/
  first : ℕ
  last : ℕ
  lastItems : ℕ → ℕ
  /-- bins that are drawn -/
  drawn : ℕ → ℕ → ℕ → ℕ
  fuel : ℕ

/-- `main.rs:52-59`: the instance, read with centering. -/
def mainInstance (env : MEnv K n R) (cfg : MainConfig K) (mem : MainMem) (ji : JsonInstance K) : Option (Instance K n) :=
  parseInstance env.toPEnv ⟨cfg.tolerance, true⟩ n mem.bins mem.centered ji

/-- `main.rs:61-64`: the generator of random numbers. -/
def mainRng (env : MEnv K n R) (cfg : MainConfig K) : R :=
  match cfg.seed with
  | some seed => env.seedFrom seed
  | none => env.entropy

/-- `main.rs:66-67`: the solution, with `lbf_optimizer.rs:45-61` choosing the kind of problem. -/
def mainSolve (env : MEnv K n R) (cfg : MainConfig K) (mem : MainMem) (inst : Instance K n) : Option (Solution K n) :=
  match inst with
  | .bp i => (lbfSolveBP env.lenv env.toEnv cfg.lbf mem.items mem.fuel i (mainRng env cfg)).map (·.1)
  | .sp i => (lbfSolveSP (n := n) env.lenv env.toStripEnv cfg.lbf mem.items mem.again mem.first mem.last mem.lastItems mem.fuel i (mainRng env cfg)).map (·.1)

/-- `main.rs:52-89`: the solution that is written. -/
def mainSolution (env : MEnv K n R) (cfg : MainConfig K) (mem : MainMem) (ji : JsonInstance K) : Option (JsonSolution K) :=
  (mainInstance env cfg mem ji).bind fun inst => (mainSolve env cfg mem inst).bind fun sol => composeSolution env.tr inst sol

/-- `main.rs:91-99`: the pictures that are written. -/
def mainPictures (env : MEnv K n R) (cfg : MainConfig K) (mem : MainMem) (ji : JsonInstance K) : Option (List (Svg K)) :=
  (mainInstance env cfg mem ji).bind fun inst => (mainSolve env cfg mem inst).bind fun sol =>
  sol.snapshots.zipIdx.mapM fun (x : LayoutSnapshot K n × ℕ) => snapshotToSvg env.toSvgEnv cfg.svg (mem.drawn x.2) inst (env.hpg x.1) x.1

end Jagua
