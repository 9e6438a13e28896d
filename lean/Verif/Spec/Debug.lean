import Verif.Model.Debug
import Verif.Spec.Layout
import Verif.Spec.Problem
import Verif.Spec.Strip

/-!
# Specification vocabulary for debug builds

Running the operations of layouts and problems with the functions that check the
assertions of the code. `none` is a panic, also one of an assertion.
-/

namespace Jagua

variable {K : Type*} [Arith K] [LinearOrder K] {n : ℕ}

/-- `CDEOp.run` in a debug build. -/
def CDEOp.runDbg (f : Fpa K) (o : SearchOracle K) : CDEOp K → CDE K n → Option (CDE K n)
  | .register h, c => c.registerDbg f o h
  | .deregister e ci, c => c.deregisterDbg o e ci
  | .commit, c => c.commitDbg
  | .restore snap, c => c.restoreDbg f o snap

/-- `LayoutOp.run` in a debug build. -/
def LayoutOp.runDbg (env : Env K) : LayoutOp K n → LayoutState K n → Option (LayoutState K n)
  | .place addr item dt, st => (st.layout.placeItemDbg env addr item dt).map fun r => { st with layout := r.2 }
  | .remove key ci, st => (st.layout.removeItemDbg env key ci).map fun r => { st with layout := r.2 }
  | .snapshot, st => st.layout.createSnapshotDbg.map fun r => ⟨r.1, st.snaps ++ [r.2]⟩
  | .restore i, st => match st.snaps[i]? with
    | none => none
    | some s => (st.layout.restoreDbg env s).map fun l => { st with layout := l }
  | .changeBin bin, st => (st.layout.changeBinDbg env bin).map fun l => { st with layout := l }

/-- The operation restores a snapshot of another bin than the layout has now. -/
def LayoutOp.MovesBack (st : LayoutState K n) : LayoutOp K n → Prop
  | .restore i => ∃ s, st.snaps[i]? = some s ∧ st.layout.bin.id ≠ s.bin.id
  | _ => False

/-- The bin an operation gives to the layout has an extent. -/
def LayoutOp.BinOk : LayoutOp K n → Prop
  | .changeBin bin => bin.outer.val.bbox.Valid
  | _ => True

/-- All bins of the instance have an extent. -/
def BPInstance.Sized (inst : BPInstance K n) : Prop := ∀ b ∈ inst.bins, b.1.outer.val.bbox.Valid

/-- `BPOp.run` in a debug build. (Registering and removing a whole layout makes no
check.) -/
def BPOp.runDbg (env : Env K) : BPOp K n → BPState K n → Option (BPState K n)
  | .place addr opt, st => (st.p.placeItemDbg env addr opt).map fun r => { st with p := r.2 }
  | .remove idx key ci, st => (st.p.removeItemDbg env idx key ci).map fun r => { st with p := r.2 }
  | .registerLayout l, st => (st.p.registerLayout l).map fun r => { st with p := r.2 }
  | .deregisterLayout idx, st => (st.p.deregisterLayout idx).map fun p => { st with p := p }
  | .solution none, st => (st.p.createSolutionDbg none).map fun r => ⟨r.2, st.sols ++ [r.1]⟩
  | .solution (some j), st => match st.sols[j]? with
    | none => none
    | some s => (st.p.createSolutionDbg (some s)).map fun r => ⟨r.2, st.sols ++ [r.1]⟩
  | .restore j, st => match st.sols[j]? with
    | none => none
    | some s => (st.p.restoreDbg env s).map fun p => { st with p := p }

/-- `SPOp.run` in a debug build. -/
def SPOp.runDbg (env : StripEnv K) : SPOp K → SPState K n → Option (SPState K n)
  | .place addr opt, st => (st.p.placeItemDbg env.toEnv addr opt).map fun r => { st with p := r.2 }
  | .remove idx key ci, st => (st.p.removeItemDbg env.toEnv idx key ci).map fun r => { st with p := r.2 }
  | .modify addr addrs rect, st => (st.p.modifyStripDbg env addr addrs rect).map fun p => { st with p := p }
  | .inBack addr addrs w, st => (st.p.modifyInBackDbg env addr addrs w).map fun p => { st with p := p }
  | .atFront addr addrs w, st => (st.p.modifyAtFrontDbg env addr addrs w).map fun p => { st with p := p }
  | .centered addr addrs w, st => (st.p.modifyCenteredDbg env addr addrs w).map fun p => { st with p := p }
  | .fit addr addrs, st => (st.p.fitStripDbg env addr addrs).map fun p => { st with p := p }
  | .solution, st => st.p.createSolutionDbg.map fun r => ⟨r.2, st.sols ++ [r.1]⟩
  | .restore j, st => match st.sols[j]? with
    | none => none
    | some s => (st.p.restoreDbg env.toEnv s).map fun p => { st with p := p }

/-- a whole run in a debug build -/
def runAllDbg {σ ω : Type*} (run : ω → σ → Option σ) (st : σ) (ops : List ω) : Option σ := ops.foldlM (fun s op => run op s) st

end Jagua
