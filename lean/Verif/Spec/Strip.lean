import Verif.Model.Problem
import Verif.Spec.Problem

/-!
# Specification vocabulary for strip packing
-/

namespace Jagua

variable {K : Type*} [Arith K] [LinearOrder K] {n : ℕ}

/-- The instance comes out of `SPInstance::new`. -/
def SPInstance.Built (inst : SPInstance K) : Prop := SPInstance.new inst.items inst.stripHeight = some inst

/-- the catalogue of an instance -/
def SPInstance.cat (inst : SPInstance K) : ℕ → Item K := catOf inst.items

/-- The operations on a strip packing problem. The caller keeps all solutions.
`addr` and `addrs` are the addresses of the shapes allocated on the way. -/
inductive SPOp (K : Type*)
  | place (addr : ℕ) (opt : PlacingOption K)
  | remove (idx : LayoutIndex) (key : SlotKey) (commitInstant : Bool)
  | modify (addr : ℕ) (addrs : ℕ → ℕ) (rect : AARect K)
  | inBack (addr : ℕ) (addrs : ℕ → ℕ) (width : K)
  | atFront (addr : ℕ) (addrs : ℕ → ℕ) (width : K)
  | centered (addr : ℕ) (addrs : ℕ → ℕ) (width : K)
  | fit (addr : ℕ) (addrs : ℕ → ℕ)
  | solution
  | restore (j : ℕ)

/-- A problem and the solutions made so far. -/
structure SPState (K : Type*) (n : ℕ) where
  p : SPProblem K n
  sols : List (Solution K n)

/-- The obligations of the caller: items, layout and keys exist, the same item is
not placed twice with the same transformation, and a restored solution does not
exceed the demand, unless overflow checks are off. -/
def SPOp.Pre (env : StripEnv K) (st : SPState K n) : SPOp K → Prop
  | .place _ opt => opt.layoutIdx = .real 0 ∧ opt.itemId < st.p.inst.items.length ∧
      ∀ pi ∈ st.p.layout.placed.values, ¬ (pi.itemId = opt.itemId ∧ pi.dt = opt.dt)
  | .remove idx key _ => idx = .real 0 ∧ ∃ pi, st.p.layout.placed.get? key = some pi
  | .restore j => ∃ s, st.sols[j]? = some s ∧
      (env.overflowChecks = true → ∀ (i : ℕ) (x : Item K × ℕ) (c : ℕ), st.p.inst.items[i]? = some x → s.placed[i]? = some c → c ≤ x.2)
  | _ => True

/-- Running an operation; `none` is a panic. -/
def SPOp.run (env : StripEnv K) : SPOp K → SPState K n → Option (SPState K n)
  | .place addr opt, st => (st.p.placeItem env.toEnv addr opt).map fun r => { st with p := r.2 }
  | .remove idx key ci, st => (st.p.removeItem env.toEnv idx key ci).map fun r => { st with p := r.2 }
  | .modify addr addrs rect, st => (st.p.modifyStrip env addr addrs rect).map fun p => { st with p := p }
  | .inBack addr addrs w, st => (st.p.modifyInBack env addr addrs w).map fun p => { st with p := p }
  | .atFront addr addrs w, st => (st.p.modifyAtFront env addr addrs w).map fun p => { st with p := p }
  | .centered addr addrs w, st => (st.p.modifyCentered env addr addrs w).map fun p => { st with p := p }
  | .fit addr addrs, st => (st.p.fitStrip env addr addrs).map fun p => { st with p := p }
  | .solution, st => st.p.createSolution.map fun r => ⟨r.2, st.sols ++ [r.1]⟩
  | .restore j, st => match st.sols[j]? with
    | none => none
    | some s => (st.p.restore env.toEnv s).map fun p => { st with p := p }

/-- Running operations that meet their obligations and do not panic. -/
inductive SPRun (env : StripEnv K) : SPState K n → List (SPOp K) → SPState K n → Prop
  | nil (st) : SPRun env st [] st
  | cons {st op st' ops st''} : op.Pre env st → op.run env st = some st' → SPRun env st' ops st'' →
      SPRun env st (op :: ops) st''

/-- Problems that come from `SPProblem::new` and any sequence of operations. -/
def SPState.Reachable (env : StripEnv K) (st : SPState K n) : Prop :=
  ∃ (inst : SPInstance K) (addr : ℕ) (width : K) (p : SPProblem K n) (ops : List (SPOp K)), inst.Built ∧
    SPProblem.new env n addr inst width = some p ∧ SPRun env ⟨p, []⟩ ops st

/-- The caller places an item only after the engine of the layout reported that
the item, moved to its place, does not collide with anything. -/
def SPOp.Checked (env : StripEnv K) (st : SPState K n) : SPOp K → Prop
  | .place _ opt => ∀ x, st.p.inst.items[opt.itemId]? = some x →
      st.p.layout.cde.polyCollides env.f (x.1.shape.transform (Transf.fromDt env.tr opt.dt)) [] = some false
  | _ => True

/-- Running operations where every placement was checked. -/
inductive SPCheckedRun (env : StripEnv K) : SPState K n → List (SPOp K) → SPState K n → Prop
  | nil (st) : SPCheckedRun env st [] st
  | cons {st op st' ops st''} : op.Pre env st → op.Checked env st → op.run env st = some st' →
      SPCheckedRun env st' ops st'' → SPCheckedRun env st (op :: ops) st''

/-- Problems that come from `SPProblem::new` and operations where every placement was checked. -/
def SPState.CheckedReachable (env : StripEnv K) (st : SPState K n) : Prop :=
  ∃ (inst : SPInstance K) (addr : ℕ) (width : K) (p : SPProblem K n) (ops : List (SPOp K)), inst.Built ∧
    SPProblem.new env n addr inst width = some p ∧ SPCheckedRun env ⟨p, []⟩ ops st

end Jagua
