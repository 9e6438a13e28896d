import Verif.Model.ProblemGrid

/-!
# Bin packing problems with the proximity grids of their bins

All methods of a bin packing problem that change its layouts, with the grids in the engines of the layouts. Without grids they are in
`Verif.Model.Problem`.
-/

namespace Jagua

variable {K : Type*} [Arith K] [LinearOrder K] {n : ℕ}

/-- `solution.rs:14-29` `Solution` of a bin packing problem, with the grids in the snapshots of its layouts; the time stamp is left out. -/
structure GridBPSolution (K : Type*) (n : ℕ) where
  id : ℕ
  snapshots : List (GridLayoutSnapshot K n)
  usage : K
  placed : List ℕ
  target : List ℕ
  binQtys : List ℕ

/-- `bin_packing.rs:14-26` `BPProblem`, with the grids of its layouts. -/
structure GridBPProblem (K : Type*) (n : ℕ) where
  inst : BPInstance K n
  layouts : List (GridLayout K n)
  templates : List (GridLayout K n)
  missing : List ℤ
  binQtys : List ℕ
  layoutCounter : ℕ
  solutionCounter : ℕ
  unmodified : List ℕ
  refSolution : Option ℕ
  removed : List (GridLayout K n)

namespace GridBPProblem

/-- `bin_packing.rs:29-60` `BPProblem::new`; `none` if a bin has no grid (it could not have been made). -/
def new (henv : HEnv K) (nCells : ℕ) (inst : BPInstance K n) : Option (GridBPProblem K n) :=
  (inst.bins.zipIdx.mapM fun b => GridLayout.new henv nCells b.2 b.1.1).map fun ts =>
    { inst := inst
      layouts := []
      templates := ts
      missing := inst.items.map fun x => (x.2 : ℤ)
      binQtys := inst.bins.map (·.2)
      layoutCounter := inst.bins.length
      solutionCounter := 0
      unmodified := []
      refSolution := none
      removed := [] }

/-- `bin_packing.rs:97-100` `register_bin` -/
def registerBin (s : GridBPProblem K n) (b : ℕ) : Option (GridBPProblem K n) :=
  match s.binQtys[b]? with
  | none => none
  | some q => if 0 < q then some { s with binQtys := s.binQtys.set b (q - 1) } else none

/-- `bin_packing.rs:102-104` `deregister_bin` -/
def deregisterBin (s : GridBPProblem K n) (b : ℕ) : Option (GridBPProblem K n) :=
  (addAt s.binQtys b 1).map fun q => { s with binQtys := q }

/-- `problem_generic.rs:111-113` `register_included_item` -/
def registerItem (s : GridBPProblem K n) (i : ℕ) : Option (GridBPProblem K n) :=
  (addAt s.missing i (-1)).map fun m => { s with missing := m }

/-- `problem_generic.rs:115-117` `deregister_included_item` -/
def deregisterItem (s : GridBPProblem K n) (i : ℕ) : Option (GridBPProblem K n) :=
  (addAt s.missing i 1).map fun m => { s with missing := m }

/-- `bin_packing.rs:106-111` `layout_has_changed` -/
def layoutHasChanged (s : GridBPProblem K n) (id : ℕ) : GridBPProblem K n := { s with unmodified := s.unmodified.erase id }

/-- `bin_packing.rs:66-74` `register_layout` -/
def registerLayout (s : GridBPProblem K n) (l : GridLayout K n) : Option (LayoutIndex × GridBPProblem K n) :=
  (s.registerBin l.layout.bin.id).bind fun s =>
  (l.layout.placed.values.foldlM (fun (s : GridBPProblem K n) pi => s.registerItem pi.itemId) s).map fun s =>
  (.real s.layouts.length, { s with layouts := s.layouts ++ [l] })

/-- `bin_packing.rs:76-90` `deregister_layout` (also `remove_layout`, lines 62-64) -/
def deregisterLayout (s : GridBPProblem K n) : LayoutIndex → Option (GridBPProblem K n)
  | .template _ => none
  | .real i => match s.layouts[i]? with
    | none => none
    | some l =>
      let s := { s with layouts := s.layouts.eraseIdx i }
      let s := s.layoutHasChanged l.layout.id
      (s.deregisterBin l.layout.bin.id).bind fun s =>
      (l.layout.placed.values.foldlM (fun (s : GridBPProblem K n) pi => s.deregisterItem pi.itemId) s).map fun s =>
      { s with removed := s.removed ++ [l] }

/-- `bin_packing.rs:92-95` `reset_unmodified_layouts` -/
def resetUnmodified (s : GridBPProblem K n) (sol : ℕ) : GridBPProblem K n :=
  { s with unmodified := s.layouts.map (·.layout.id), refSolution := some sol }

/-- `bin_packing.rs:116-125`: finding or making the layout to place in. The grid is cloned with the template. -/
def targetLayout (s : GridBPProblem K n) : LayoutIndex → Option (ℕ × GridBPProblem K n)
  | .real i => some (i, s)
  | .template i =>
    let s := { s with layoutCounter := s.layoutCounter + 1 }
    match s.templates[i]? with
    | none => none
    | some t => (s.registerLayout ⟨t.layout.cloneWithId s.layoutCounter, t.grid⟩).bind fun r => match r.1 with
      | .real j => some (j, r.2)
      | .template _ => none

/-- `bin_packing.rs:115-138` `place_item` -/
def placeItem (henv : HEnv K) (env : Env K) (addr : ℕ) (s : GridBPProblem K n) (opt : PlacingOption K) :
    Option ((LayoutIndex × SlotKey) × GridBPProblem K n) :=
  (s.targetLayout opt.layoutIdx).bind fun r =>
  match r.2.layouts[r.1]?, r.2.inst.items[opt.itemId]? with
  | some l, some item =>
    (l.placeItem henv env addr item.1 opt.dt).bind fun pl =>
    (GridBPProblem.registerItem { r.2 with layouts := r.2.layouts.set r.1 pl.2 } opt.itemId).map fun s =>
    ((.real r.1, pl.1), s.layoutHasChanged pl.2.layout.id)
  | _, _ => none

/-- `bin_packing.rs:140-160` `remove_item` -/
def removeItem (henv : HEnv K) (env : Env K) (s : GridBPProblem K n) (idx : LayoutIndex) (key : SlotKey) (commitInstant : Bool) :
    Option (PlacingOption K × GridBPProblem K n) :=
  match idx with
  | .template _ => none
  | .real i => match s.layouts[i]? with
    | none => none
    | some l =>
      let s := s.layoutHasChanged l.layout.id
      (l.removeItem henv env key commitInstant).bind fun r =>
      let s := { s with layouts := s.layouts.set i r.2 }
      (if r.2.layout.isEmpty then s.deregisterLayout (.real i) else some s).bind fun s =>
      (s.deregisterItem r.1.itemId).map fun s => (PlacingOption.ofPlaced (.real i) r.1, s)

/-- `bin_packing.rs:166-187`, the snapshot of one layout: taken from the old solution if there is one and the layout was not modified since. -/
def snapshotLayout (henv : HEnv K) (unmodified : List ℕ) (old : Option (GridBPSolution K n)) (l : GridLayout K n) :
    Option (GridLayout K n × GridLayoutSnapshot K n) :=
  match old with
  | some o =>
    if unmodified.contains l.layout.id then (o.snapshots.find? fun x => x.snap.id = l.layout.id).map fun x => (l, x)
    else l.createSnapshot henv
  | none => l.createSnapshot henv

/-- `bin_packing.rs:162-216` `create_solution` -/
def createSolution (henv : HEnv K) (s : GridBPProblem K n) (old : Option (GridBPSolution K n)) : Option (GridBPSolution K n × GridBPProblem K n) :=
  let s : GridBPProblem K n := { s with solutionCounter := s.solutionCounter + 1 }
  let placed := placedQtys s.inst.qtys s.missing
  if old.all fun o => decide (s.refSolution = some o.id) then
    (s.layouts.mapM (snapshotLayout henv s.unmodified old)).map fun (rs : List (GridLayout K n × GridLayoutSnapshot K n)) =>
      let s : GridBPProblem K n := { s with layouts := rs.map (·.1) }
      let sol : GridBPSolution K n :=
        { id := s.solutionCounter, snapshots := rs.map (·.2), usage := problemUsage (s.layouts.map (·.layout)), placed := placed
          target := s.inst.qtys, binQtys := s.binQtys }
      (sol, s.resetUnmodified sol.id)
  else none

/-- `bin_packing.rs:232-248`: restoring the layouts that occur in the solution. -/
def restoreCommon (henv : HEnv K) (env : Env K) (unmodified : List ℕ) (snaps : List (GridLayoutSnapshot K n)) (l : GridLayout K n) : Option (GridLayout K n) :=
  match snaps.find? fun x => x.snap.id = l.layout.id with
  | none => some l
  | some x => if unmodified.contains l.layout.id then some l else l.restore henv env x

/-- `bin_packing.rs:257-277`: one layout of the solution that may be missing in the problem. -/
def restoreMissing (henv : HEnv K) (nCells : ℕ) (env : Env K) (present : List ℕ) (st : List (GridLayout K n) × List (GridLayout K n)) (x : GridLayoutSnapshot K n) :
    Option (List (GridLayout K n) × List (GridLayout K n)) :=
  if present.contains x.snap.id then some st
  else match st.2.findIdx? fun l => l.layout.id = x.snap.id with
    | some i => match st.2[i]? with
      | none => none
      | some l => (l.restore henv env x).map fun l => (st.1 ++ [l], swapRemove st.2 i)
    | none => (GridLayout.fromSnapshot henv env nCells x).map fun l => (st.1 ++ [l], st.2)

/-- `bin_packing.rs:219-279`: the layouts after restoring. -/
def restoreLayouts (henv : HEnv K) (nCells : ℕ) (env : Env K) (s : GridBPProblem K n) (sol : GridBPSolution K n) : Option (List (GridLayout K n)) :=
  if some sol.id ≠ s.refSolution then sol.snapshots.mapM (GridLayout.fromSnapshot henv env nCells)
  else
    (s.layouts.mapM (restoreCommon henv env s.unmodified sol.snapshots)).bind fun ls =>
    let inSol := fun (l : GridLayout K n) => (sol.snapshots.find? fun x => x.snap.id = l.layout.id).isSome
    let present := (ls.filter inSol).map (·.layout.id)
    let notIn := (ls.filter fun l => !inSol l).map (·.layout.id)
    let ls := notIn.foldl (fun ls id => ls.filter fun (l : GridLayout K n) => l.layout.id ≠ id) ls
    (sol.snapshots.foldlM (restoreMissing henv nCells env present) (ls, s.removed)).map fun (r : List (GridLayout K n) × List (GridLayout K n)) => r.1

/-- `bin_packing.rs:218-299` `restore_to_solution` -/
def restore (henv : HEnv K) (nCells : ℕ) (env : Env K) (s : GridBPProblem K n) (sol : GridBPSolution K n) : Option (GridBPProblem K n) :=
  (restoreLayouts henv nCells env s sol).bind fun ls =>
  (missingOfSolution env.overflowChecks s.inst.qtys sol.placed s.missing).bind fun missing =>
  if s.binQtys.length ≠ sol.binQtys.length then none
  else some ({ s with layouts := ls, missing := missing, binQtys := sol.binQtys, removed := [] }.resetUnmodified sol.id)

/-- `problem_generic.rs:92-97` `flush_changes`: all layouts of the problem (`bin_packing.rs:305-307`) are flushed; templates are not. -/
def flushChanges (henv : HEnv K) (s : GridBPProblem K n) : Option (GridBPProblem K n) :=
  (s.layouts.mapM (GridLayout.flushChanges henv)).map fun ls => { s with layouts := ls }

end GridBPProblem

end Jagua
