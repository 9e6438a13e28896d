import Verif.Model.Layout
import Verif.Spec.Engine

/-!
# Specification vocabulary for layouts

What a caller may do with a layout, and which bins and items there are.
-/

namespace Jagua

variable {K : Type*} [Arith K] [LinearOrder K] {n : ℕ}

/-- The bin comes out of `Bin::new` (also `Bin::from_strip` ends there). -/
def Bin.Built (env : Env K) (b : Bin K n) : Prop :=
  ∃ id outer value pretransform holes zones, Bin.new env n id outer value pretransform holes zones = some b

/-- The placed item is an item of the catalogue, moved by its transformation. -/
def PlacedItem.Ok (env : Env K) (cat : ℕ → Item K) (pi : PlacedItem K) : Prop :=
  pi.hazardFilter = (cat pi.itemId).hazardFilter ∧
  pi.shape.val = (cat pi.itemId).shape.transform (Transf.fromDt env.tr pi.dt)

/-- The operations on a layout. The caller keeps all snapshots; `restore i` is
given the one taken `i`-th. -/
inductive LayoutOp (K : Type*) (n : ℕ)
  | place (addr : ℕ) (item : Item K) (dt : DTransf K)
  | remove (key : SlotKey) (commitInstant : Bool)
  | snapshot
  | restore (i : ℕ)
  | changeBin (bin : Bin K n)

/-- A layout and the snapshots taken so far. -/
structure LayoutState (K : Type*) (n : ℕ) where
  layout : Layout K n
  snaps : List (LayoutSnapshot K n)

/-- The obligations of the caller: items come from the catalogue (same id, same
item), the same item is not placed twice with the same transformation, keys are
valid, bins are built by the constructor. -/
def LayoutOp.Pre (env : Env K) (cat : ℕ → Item K) (st : LayoutState K n) : LayoutOp K n → Prop
  | .place _ item dt => item = cat item.id ∧ ∀ pi ∈ st.layout.placed.values, ¬ (pi.itemId = item.id ∧ pi.dt = dt)
  | .remove key _ => ∃ pi, st.layout.placed.get? key = some pi
  | .snapshot => True
  | .restore i => i < st.snaps.length
  | .changeBin bin => bin.Built env

/-- Running an operation; `none` is a panic. -/
def LayoutOp.run (env : Env K) : LayoutOp K n → LayoutState K n → Option (LayoutState K n)
  | .place addr item dt, st => (st.layout.placeItem env addr item dt).map fun r => { st with layout := r.2 }
  | .remove key ci, st => (st.layout.removeItem env key ci).map fun r => { st with layout := r.2 }
  | .snapshot, st => st.layout.createSnapshot.map fun r => ⟨r.1, st.snaps ++ [r.2]⟩
  | .restore i, st => match st.snaps[i]? with
    | none => none
    | some s => (st.layout.restore env s).map fun l => { st with layout := l }
  | .changeBin bin, st => (st.layout.changeBin env bin).map fun l => { st with layout := l }

/-- Running operations that meet their obligations. -/
inductive LayoutRun (env : Env K) (cat : ℕ → Item K) : LayoutState K n → List (LayoutOp K n) → LayoutState K n → Prop
  | nil (st) : LayoutRun env cat st [] st
  | cons {st op st' ops st''} : op.Pre env cat st → op.run env st = some st' → LayoutRun env cat st' ops st'' →
      LayoutRun env cat st (op :: ops) st''

/-- Layouts that come from `Layout::new` and any sequence of operations. -/
def LayoutState.Reachable (env : Env K) (cat : ℕ → Item K) (st : LayoutState K n) : Prop :=
  ∃ (id : ℕ) (bin : Bin K n) (ops : List (LayoutOp K n)), bin.Built env ∧ LayoutRun env cat ⟨Layout.new id bin, []⟩ ops st

end Jagua
