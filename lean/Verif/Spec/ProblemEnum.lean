import Verif.Model.ProblemEnum
import Verif.Spec.Strip

/-!
# Specification vocabulary for the interface that all problems share
-/

namespace Jagua

variable {K : Type*} [Arith K] [LinearOrder K] {n : ℕ}

/-- A problem of either kind and the solutions made so far. -/
inductive ProblemState (K : Type*) (n : ℕ)
  | bp (st : BPState K n)
  | sp (st : SPState K n)

/-- the problem -/
def ProblemState.p : ProblemState K n → Problem K n
  | .bp st => .bp st.p
  | .sp st => .sp st.p

/-- the solutions made so far -/
def ProblemState.sols : ProblemState K n → List (Solution K n)
  | .bp st => st.sols
  | .sp st => st.sols

/-- Problems that come from their constructor and any sequence of operations, also
those that only one kind of problem has. -/
def ProblemState.Reachable (env : StripEnv K) : ProblemState K n → Prop
  | .bp st => st.Reachable env.toEnv
  | .sp st => st.Reachable env

/-- Any sequence of operations leads from one state to the other. -/
inductive ProblemState.Leads (env : StripEnv K) : ProblemState K n → ProblemState K n → Prop
  | bp {st st' : BPState K n} (ops : List (BPOp K n)) : BPRun env.toEnv st ops st' → ProblemState.Leads env (.bp st) (.bp st')
  | sp {st st' : SPState K n} (ops : List (SPOp K)) : SPRun env st ops st' → ProblemState.Leads env (.sp st) (.sp st')

/-- The layouts that are offered for placing an item. -/
def Problem.Offers (p : Problem K n) (idx : LayoutIndex) : Prop :=
  idx ∈ p.layoutIndices ∨ ∃ ts, p.templatesWithStock = some ts ∧ idx ∈ ts

/-- The item exists, and no copy of it is in that very position in the layout. -/
def Problem.CanTake (p : Problem K n) (opt : PlacingOption K) : Prop :=
  opt.itemId < p.items.length ∧ ∀ l, p.getLayout opt.layoutIdx = some l →
    ∀ pi ∈ l.placed.values, ¬ (pi.itemId = opt.itemId ∧ pi.dt = opt.dt)

end Jagua
