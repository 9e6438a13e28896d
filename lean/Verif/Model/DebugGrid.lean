import Verif.Model.Debug
import Verif.Model.HPG

/-!
# Debug builds: the hazard proximity grid

The functions of `Model/HPG.lean` with the checks of `debug_assert!`. A failed check is
a panic (`none`). Making a new grid checks only that cells have an extent.
-/

namespace Jagua

variable {K : Type*} [Arith K] [LinearOrder K]

/-- `boundary_fill.rs:50-62` `init_queue` with the check of line 51. -/
def BFill.initQueueDbg {α : Type*} (b : BFill) (g : Grid K α) : Option BFill :=
  assertThen (b.nVisited = 0 ∧ b.queue = []) (b.initQueue g)

/-- `boundary_fill.rs:33-47` `new` -/
def BFill.newDbg {α : Type*} (g : Grid K α) (box : AARect K) : Option BFill :=
  BFill.initQueueDbg ⟨List.replicate (g.rows.length * g.cols.length) .notQueued, g.rowsInRange box.yMin box.yMax,
    g.colsInRange box.xMin box.xMax, [], 0, false⟩ g

/-- `boundary_fill.rs:106-124` `reset` with the check of line 107. -/
def BFill.resetDbg {α : Type*} (b : BFill) (g : Grid K α) (box : AARect K) : Option BFill :=
  assertThen (b.state.length = g.rows.length * g.cols.length)
    (BFill.initQueueDbg ⟨b.state.map fun _ => .notQueued, g.rowsInRange box.yMin box.yMax, g.colsInRange box.xMin box.xMax, [], 0, false⟩ g)

namespace HPGCell

/-- `hpg_cell.rs:123-154` `register_hazard` with the check of line 124. -/
def registerHazardDbg (env : HEnv K) (c : HPGCell K) (h : Hazard K) : Option (HPGCell K × HPGCellUpdate) :=
  assertThen h.entity.isUniversal (c.registerHazard env h)

/-- `hpg_cell.rs:156-196` `register_hazard_pole` with the check of line 157. -/
def registerPoleDbg (env : HEnv K) (c : HPGCell K) (h : Hazard K) (pole : Circle K) : Option (HPGCell K × HPGCellUpdate) :=
  assertThen h.entity.isUniversal (c.registerPole env h pole)

/-- `hpg_cell.rs:95-120` -/
def registerLoopDbg (env : HEnv K) : ℕ → HPGCell K → List (Hazard K × Option K) → Option (HPGCell K)
  | k, c, l => match firstMin l, k with
    | none, _ => some c
    | some _, 0 => none
    | some (i, (h, none)), k + 1 => (c.registerHazardDbg env h).bind fun (r : HPGCell K × HPGCellUpdate) =>
      registerLoopDbg env k r.1 (swapRemove l i)
    | some (i, (h, some d)), k + 1 =>
      if d ≤ c.uni.1 then (c.registerHazardDbg env h).bind fun (r : HPGCell K × HPGCellUpdate) =>
        registerLoopDbg env k r.1 (swapRemove l i)
      else some c

/-- `hpg_cell.rs:70-121` `register_hazards` -/
def registerHazardsDbg (env : HEnv K) (c : HPGCell K) (hs : List (Hazard K)) : Option (HPGCell K) :=
  ((hs.filter (·.active)).mapM (boundingProx env c.centroid)).bind fun l => registerLoopDbg env l.length c l

/-- `hpg_cell.rs:198-216` `deregister_hazards` -/
def deregisterHazardsDbg (env : HEnv K) (es : List (HazardEntity K)) (remaining : List (Hazard K)) (c : HPGCell K) : Option (HPGCell K) :=
  if es.contains c.uni.2 then registerHazardsDbg env { c with uni := c.staticUni } remaining else some c

end HPGCell

namespace HPG

/-- `hazard_proximity_grid.rs:87-103` -/
def fillLoopDbg (env : HEnv K) (h : Hazard K) (pole : Circle K) : ℕ → Grid K (HPGCell K) → BFill → Option (Grid K (HPGCell K) × BFill)
  | 0, _, _ => none
  | k + 1, g, b => b.pop.bind fun (r : Option ℕ × BFill) =>
    match r.1 with
    | none => some (g, r.2)
    | some i => match g.cells[i]? with
      | none => none
      | some none => (r.2.report g i .exterior).bind fun b' => fillLoopDbg env h pole k g b'
      | some (some c) => (c.registerPoleDbg env h pole).bind fun (u : HPGCell K × HPGCellUpdate) =>
        let g' := { g with cells := g.cells.set i (some u.1) }
        (r.2.report g' i (if u.2 = .neighborsNotAffected then .exterior else .interior)).bind fun b' => fillLoopDbg env h pole k g' b'

/-- `hazard_proximity_grid.rs:76-104`; the seed box is built with the checks of
`AARectangle::new`. -/
def registerPoleDbg (env : HEnv K) (radius : K) (h : Hazard K) (st : Grid K (HPGCell K) × BFill) (pole : Circle K) :
    Option (Grid K (HPGCell K) × BFill) :=
  let box := seedBox radius pole
  assertThen (box.xMin < box.xMax ∧ box.yMin < box.yMax)
    ((st.2.resetDbg st.1 box).bind fun b => fillLoopDbg env h pole (st.1.cells.length + 1) st.1 b)

/-- `assertions.rs:390-438` `hpg_update_no_affected_cells_remain`: registering the
hazard in every cell once more affects no cell. It does this on the grid itself, not on
a copy, but only affected cells change. The messages are left out. -/
def noneAffected (env : HEnv K) (g : HPG K) (h : Hazard K) : Option Bool :=
  let affected (o : Option (HPGCell K)) : Option Bool := match o with
    | none => some false
    | some c => (c.registerHazardDbg env h).map fun (r : HPGCell K × HPGCellUpdate) => decide (r.2 = HPGCellUpdate.affected)
  (g.grid.cells.mapM affected).map fun (l : List Bool) => !l.contains true

/-- `hazard_proximity_grid.rs:69-110` `register_hazard` with the check of line 106. -/
def registerDbg (env : HEnv K) (g : HPG K) (h : Hazard K) : Option (HPG K) :=
  h.shape.val.surrogate.bind fun (s : Surrogate K) =>
  (BFill.newDbg g.grid h.shape.val.bbox).bind fun b =>
  (s.poles.foldlM (registerPoleDbg env g.cellRadius h) (g.grid, b)).bind fun (st : Grid K (HPGCell K) × BFill) =>
  (noneAffected env { g with grid := st.1 } h).bind fun b => assertThen b (some { g with grid := st.1 })

/-- `hazard_proximity_grid.rs:112-127` `deregister_hazard` -/
def deregisterDbg (env : HEnv K) (g : HPG K) (e : HazardEntity K) (remaining : List (Hazard K)) (processNow : Bool) : Option (HPG K) :=
  if processNow then (mapCells (HPGCell.deregisterHazardsDbg env [e] remaining) g.grid).map fun grid => { g with grid := grid }
  else some { g with uncommitted := g.uncommitted ++ [e] }

/-- `hazard_proximity_grid.rs:129-142` `flush_deregisters` -/
def flushDbg (env : HEnv K) (g : HPG K) (remaining : List (Hazard K)) : Option (HPG K) :=
  if g.isDirty then (mapCells (HPGCell.deregisterHazardsDbg env g.uncommitted remaining) g.grid).map fun grid =>
    { g with grid := grid, uncommitted := [] }
  else some g

end HPG

/-! ## The engine with its grid -/

namespace HCDE

variable {n : ℕ}

/-- `cd_engine.rs:75-105` `register_hazard` -/
def registerDbg (env : HEnv K) (o : SearchOracle K) (c : HCDE K n) (h : Hazard K) : Option (HCDE K n) :=
  let h' := (c.cde.uncommitted.find? fun u => u.entity = h.entity).getD h
  (c.cde.registerDbg env.f o h).bind fun cde => (onGrid c.hpg fun g => g.registerDbg env h').map fun hpg => ⟨cde, hpg⟩

/-- `cd_engine.rs:117-137` `deregister_hazard` -/
def deregisterDbg (env : HEnv K) (o : SearchOracle K) (c : HCDE K n) (e : HazardEntity K) (commitInstant : Bool) : Option (HCDE K n) :=
  (c.cde.deregisterDbg o e commitInstant).bind fun cde =>
  (onGrid c.hpg fun g => g.deregisterDbg env e cde.dynamics commitInstant).map fun hpg => ⟨cde, hpg⟩

/-- `cd_engine.rs:254-258` `flush_haz_prox_grid` -/
def flushDbg (env : HEnv K) (c : HCDE K n) : Option (HCDE K n) :=
  (onGrid c.hpg fun g => g.flushDbg env c.cde.dynamics).map fun hpg => { c with hpg := hpg }

/-- `cd_engine.rs:211-218` `commit_deregisters` -/
def commitDbg (env : HEnv K) (c : HCDE K n) : Option (HCDE K n) :=
  c.cde.commitDbg.bind fun cde => flushDbg env ⟨cde, c.hpg⟩

/-- `cd_engine.rs:139-149` `create_snapshot` -/
def createSnapshotDbg (env : HEnv K) (c : HCDE K n) : Option (HCDE K n × HSnap K) :=
  (c.commitDbg env).bind fun (c' : HCDE K n) =>
  if (c'.hpg.map HPG.isDirty).getD false then none else some (c', ⟨c'.cde.dynamics, c'.hpg.map HPG.grid⟩)

/-- `cd_engine.rs:152-207` `restore` -/
def restoreDbg (env : HEnv K) (o : SearchOracle K) (c : HCDE K n) (s : HSnap K) : Option (HCDE K n) :=
  (c.cde.restoreDbg env.f o s.dynamics).bind fun cde =>
  (onGrid c.hpg fun g => s.grid.bind fun grid => g.restore grid).map fun hpg => ⟨cde, hpg⟩

end HCDE

end Jagua
