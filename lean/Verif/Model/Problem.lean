import Verif.Model.Layout

/-!
# Problems

Model of `jagua-rs/src/entities/{placing_option,solution}.rs`,
`entities/instances/*.rs` and `entities/problems/*.rs`.

All functions return `none` where the code would panic. The time stamp of a
solution is left out. Missing quantities (`isize`) are unbounded integers.
-/

namespace Jagua

variable {K : Type*} [Arith K] [LinearOrder K] {n : ℕ}

/-- `problem_generic.rs:125-128` `LayoutIndex`. -/
inductive LayoutIndex
  | real (i : ℕ)
  | template (i : ℕ)
  deriving DecidableEq, Repr

/-- `placing_option.rs:6-14` `PlacingOption`. -/
structure PlacingOption (K : Type*) where
  layoutIdx : LayoutIndex
  itemId : ℕ
  dt : DTransf K
  deriving DecidableEq, Repr

/-- `placing_option.rs:16-23` `from_placed_item`. -/
def PlacingOption.ofPlaced (idx : LayoutIndex) (pi : PlacedItem K) : PlacingOption K := ⟨idx, pi.itemId, pi.dt⟩

/-- `solution.rs:13-29` `Solution` without the time stamp. -/
structure Solution (K : Type*) (n : ℕ) where
  id : ℕ
  snapshots : List (LayoutSnapshot K n)
  usage : K
  placed : List ℕ
  target : List ℕ
  binQtys : List ℕ

/-- `solution.rs:52-58` `is_complete`. -/
def Solution.isComplete (s : Solution K n) (qtys : List ℕ) : Option Bool :=
  CDE.anyM (fun x : ℕ × ℕ => (qtys[x.2]?).map fun q => decide (x.1 < q)) s.placed.zipIdx |>.map not

/-- `solution.rs:60-71` `completeness`, given the areas of the items' shapes. -/
def Solution.completeness (s : Solution K n) (items : List (Item K × ℕ)) : Option K :=
  (s.placed.zipIdx.mapM fun (x : ℕ × ℕ) => (items[x.2]?).map fun it => it.1.shape.area * (x.1 : K)).map fun as =>
    fsum as / fsum (items.map fun it => it.1.shape.area * (it.2 : K))

/-- `solution.rs:72-79` `missing_item_qtys`. -/
def Solution.missingItemQtys (s : Solution K n) (qtys : List ℕ) : Option (List ℤ) :=
  s.placed.zipIdx.mapM fun (x : ℕ × ℕ) => (qtys[x.2]?).map fun q => (q : ℤ) - (x.1 : ℤ)

/-- `solution.rs:81-83` `n_items_placed`. -/
def Solution.nItemsPlaced (s : Solution K n) : ℕ := s.placed.sum

/-- `(a - b) as isize` for `usize` values: with overflow checks the subtraction
panics below zero, without them it wraps and the cast gives the difference. -/
def usizeSubAsIsize (overflowChecks : Bool) (a b : ℕ) : Option ℤ :=
  if a < b ∧ overflowChecks = true then none else some ((a : ℤ) - b)

/-- `v[i] += d`; panics if out of range. -/
def addAt {α : Type*} [Add α] (v : List α) (i : ℕ) (d : α) : Option (List α) :=
  match v[i]? with
  | none => none
  | some x => some (v.set i (x + d))

/-- `problem_generic.rs:46-51` `placed_item_qtys`: `item_qty(i) - missing` as
`usize`. (The cast of a negative number would wrap; `C19` shows it is never
negative.) -/
def placedQtys (qtys : List ℕ) (missing : List ℤ) : List ℕ :=
  missing.zipIdx.map fun m => ((qtys[m.2]?.getD 0 : ℕ) - m.1 : ℤ).toNat

/-- `problem_generic.rs:53-61` `usage`: `0.0 / 0.0` (NaN) without layouts is `0`
in the field. -/
def problemUsage (ls : List (Layout K n)) : K :=
  fsum (ls.map fun l => l.bin.area * l.usage) / fsum (ls.map (·.bin.area))

/-- `bin_packing.rs:281-288`, `strip_packing.rs:245-251`: the missing quantities
of a solution. -/
def missingOfSolution (overflowChecks : Bool) (qtys : List ℕ) (placed : List ℕ) (missing : List ℤ) : Option (List ℤ) :=
  missing.zipIdx.mapM fun m =>
    match qtys[m.2]?, placed[m.2]? with
    | some q, some p => usizeSubAsIsize overflowChecks q p
    | _, _ => none

/-! ## Bin packing -/

/-- `instances/bin_packing.rs:11-18` `BPInstance` without the item area. -/
structure BPInstance (K : Type*) (n : ℕ) where
  items : List (Item K × ℕ)
  bins : List (Bin K n × ℕ)

/-- `util/assertions.rs:30-36` `instance_item_bin_ids_correct`. -/
def idsCorrect (items : List (Item K × ℕ)) (bins : List (Bin K n × ℕ)) : Bool :=
  items.zipIdx.all (fun x => x.1.1.id = x.2) && bins.zipIdx.all (fun x => x.1.1.id = x.2)

/-- `instances/bin_packing.rs:21-34` `BPInstance::new`. -/
def BPInstance.new (items : List (Item K × ℕ)) (bins : List (Bin K n × ℕ)) : Option (BPInstance K n) :=
  if idsCorrect items bins then some ⟨items, bins⟩ else none

/-- the demanded quantities -/
def BPInstance.qtys (inst : BPInstance K n) : List ℕ := inst.items.map (·.2)

/-- `bin_packing.rs:14-26` `BPProblem`. -/
structure BPProblem (K : Type*) (n : ℕ) where
  inst : BPInstance K n
  layouts : List (Layout K n)
  templates : List (Layout K n)
  missing : List ℤ
  binQtys : List ℕ
  layoutCounter : ℕ
  solutionCounter : ℕ
  unmodified : List ℕ
  refSolution : Option ℕ
  removed : List (Layout K n)

namespace BPProblem

/-- `bin_packing.rs:29-60` `BPProblem::new`. -/
def new (inst : BPInstance K n) : BPProblem K n :=
  { inst := inst
    layouts := []
    templates := inst.bins.zipIdx.map fun b => Layout.new b.2 b.1.1
    missing := inst.items.map fun x => (x.2 : ℤ)
    binQtys := inst.bins.map (·.2)
    layoutCounter := inst.bins.length
    solutionCounter := 0
    unmodified := []
    refSolution := none
    removed := [] }

/-- `bin_packing.rs:97-100` `register_bin`. -/
def registerBin (p : BPProblem K n) (b : ℕ) : Option (BPProblem K n) :=
  match p.binQtys[b]? with
  | none => none
  | some q => if 0 < q then some { p with binQtys := p.binQtys.set b (q - 1) } else none

/-- `bin_packing.rs:102-104` `deregister_bin`. -/
def deregisterBin (p : BPProblem K n) (b : ℕ) : Option (BPProblem K n) :=
  (addAt p.binQtys b 1).map fun q => { p with binQtys := q }

/-- `problem_generic.rs:111-113` `register_included_item`. -/
def registerItem (p : BPProblem K n) (i : ℕ) : Option (BPProblem K n) :=
  (addAt p.missing i (-1)).map fun m => { p with missing := m }

/-- `problem_generic.rs:115-117` `deregister_included_item`. -/
def deregisterItem (p : BPProblem K n) (i : ℕ) : Option (BPProblem K n) :=
  (addAt p.missing i 1).map fun m => { p with missing := m }

/-- `bin_packing.rs:106-111` `layout_has_changed`: removes the first occurrence. -/
def layoutHasChanged (p : BPProblem K n) (id : ℕ) : BPProblem K n := { p with unmodified := p.unmodified.erase id }

/-- `bin_packing.rs:66-74` `register_layout`. -/
def registerLayout (p : BPProblem K n) (l : Layout K n) : Option (LayoutIndex × BPProblem K n) :=
  (p.registerBin l.bin.id).bind fun p =>
  (l.placed.values.foldlM (fun (p : BPProblem K n) pi => p.registerItem pi.itemId) p).map fun p =>
  (.real p.layouts.length, { p with layouts := p.layouts ++ [l] })

/-- `bin_packing.rs:76-90` `deregister_layout` (also `remove_layout`, lines 62-64). -/
def deregisterLayout (p : BPProblem K n) : LayoutIndex → Option (BPProblem K n)
  | .template _ => none
  | .real i => match p.layouts[i]? with
    | none => none
    | some l =>
      let p := { p with layouts := p.layouts.eraseIdx i }
      let p := p.layoutHasChanged l.id
      (p.deregisterBin l.bin.id).bind fun p =>
      (l.placed.values.foldlM (fun (p : BPProblem K n) pi => p.deregisterItem pi.itemId) p).map fun p =>
      { p with removed := p.removed ++ [l] }

/-- `bin_packing.rs:92-95` `reset_unmodified_layouts`. -/
def resetUnmodified (p : BPProblem K n) (sol : ℕ) : BPProblem K n :=
  { p with unmodified := p.layouts.map (·.id), refSolution := some sol }

/-- `bin_packing.rs:116-125`: finding or making the layout to place in. -/
def targetLayout (p : BPProblem K n) : LayoutIndex → Option (ℕ × BPProblem K n)
  | .real i => some (i, p)
  | .template i =>
    let p := { p with layoutCounter := p.layoutCounter + 1 }
    match p.templates[i]? with
    | none => none
    | some t => (p.registerLayout (t.cloneWithId p.layoutCounter)).bind fun r => match r.1 with
      | .real j => some (j, r.2)
      | .template _ => none

/-- `bin_packing.rs:115-138` `place_item`. -/
def placeItem (env : Env K) (addr : ℕ) (p : BPProblem K n) (opt : PlacingOption K) :
    Option ((LayoutIndex × SlotKey) × BPProblem K n) :=
  (p.targetLayout opt.layoutIdx).bind fun r =>
  match r.2.layouts[r.1]?, r.2.inst.items[opt.itemId]? with
  | some l, some item =>
    (l.placeItem env addr item.1 opt.dt).bind fun pl =>
    (BPProblem.registerItem { r.2 with layouts := r.2.layouts.set r.1 pl.2 } opt.itemId).map fun p =>
    ((.real r.1, pl.1), p.layoutHasChanged pl.2.id)
  | _, _ => none

/-- `bin_packing.rs:140-160` `remove_item`. -/
def removeItem (env : Env K) (p : BPProblem K n) (idx : LayoutIndex) (key : SlotKey) (commitInstant : Bool) :
    Option (PlacingOption K × BPProblem K n) :=
  match idx with
  | .template _ => none
  | .real i => match p.layouts[i]? with
    | none => none
    | some l =>
      let p := p.layoutHasChanged l.id
      (l.removeItem env key commitInstant).bind fun r =>
      let p := { p with layouts := p.layouts.set i r.2 }
      (if r.2.isEmpty then p.deregisterLayout (.real i) else some p).bind fun p =>
      (p.deregisterItem r.1.itemId).map fun p => (PlacingOption.ofPlaced (.real i) r.1, p)

instance (old : Option (Solution K n)) (P : Solution K n → Prop) [DecidablePred P] : Decidable (∀ o, old = some o → P o) :=
  match old with
  | none => isTrue (by simp)
  | some o => decidable_of_iff (P o) (by simp)

/-- `bin_packing.rs:166-187`, the snapshot of one layout: taken from the old
solution if there is one and the layout was not modified since. -/
def snapshotLayout (unmodified : List ℕ) (old : Option (Solution K n)) (l : Layout K n) :
    Option (Layout K n × LayoutSnapshot K n) :=
  match old with
  | some o =>
    if unmodified.contains l.id then (o.snapshots.find? fun s => s.id = l.id).map fun s => (l, s)
    else l.createSnapshot
  | none => l.createSnapshot

/-- `bin_packing.rs:162-216` `create_solution`. -/
def createSolution (p : BPProblem K n) (old : Option (Solution K n)) : Option (Solution K n × BPProblem K n) :=
  let p : BPProblem K n := { p with solutionCounter := p.solutionCounter + 1 }
  let placed := placedQtys p.inst.qtys p.missing
  if ∀ o, old = some o → p.refSolution = some o.id then
    (p.layouts.mapM (snapshotLayout p.unmodified old)).map fun (rs : List (Layout K n × LayoutSnapshot K n)) =>
      let p : BPProblem K n := { p with layouts := rs.map (·.1) }
      let sol : Solution K n :=
        { id := p.solutionCounter, snapshots := rs.map (·.2), usage := problemUsage p.layouts, placed := placed
          target := p.inst.qtys, binQtys := p.binQtys }
      (sol, p.resetUnmodified sol.id)
  else none

/-- `bin_packing.rs:232-248`: restoring the layouts that occur in the solution. -/
def restoreCommon (env : Env K) (unmodified : List ℕ) (snaps : List (LayoutSnapshot K n)) (l : Layout K n) : Option (Layout K n) :=
  match snaps.find? fun s => s.id = l.id with
  | none => some l
  | some s => if unmodified.contains l.id then some l else l.restore env s

/-- `bin_packing.rs:257-277`: one layout of the solution that may be missing in
the problem. The state is the layouts and the removed layouts. (The binary
search in the sorted list of ids finds an id iff it is in the list.) -/
def restoreMissing (env : Env K) (present : List ℕ) (st : List (Layout K n) × List (Layout K n)) (s : LayoutSnapshot K n) :
    Option (List (Layout K n) × List (Layout K n)) :=
  if present.contains s.id then some st
  else match st.2.findIdx? fun l => l.id = s.id with
    | some i => match st.2[i]? with
      | none => none
      | some l => (l.restore env s).map fun l => (st.1 ++ [l], swapRemove st.2 i)
    | none => (Layout.fromSnapshot env s).map fun l => (st.1 ++ [l], st.2)

/-- `bin_packing.rs:219-279`: the layouts after restoring. -/
def restoreLayouts (env : Env K) (p : BPProblem K n) (sol : Solution K n) : Option (List (Layout K n)) :=
  if some sol.id ≠ p.refSolution then sol.snapshots.mapM (Layout.fromSnapshot env)
  else
    (p.layouts.mapM (restoreCommon env p.unmodified sol.snapshots)).bind fun ls =>
    let inSol := fun (l : Layout K n) => (sol.snapshots.find? fun s => s.id = l.id).isSome
    let present := (ls.filter inSol).map (·.id)
    let notIn := (ls.filter fun l => !inSol l).map (·.id)
    let ls := notIn.foldl (fun ls id => ls.filter fun (l : Layout K n) => l.id ≠ id) ls
    (sol.snapshots.foldlM (restoreMissing env present) (ls, p.removed)).map fun (r : List (Layout K n) × List (Layout K n)) => r.1

/-- `bin_packing.rs:218-299` `restore_to_solution`. -/
def restore (env : Env K) (p : BPProblem K n) (sol : Solution K n) : Option (BPProblem K n) :=
  (restoreLayouts env p sol).bind fun ls =>
  (missingOfSolution env.overflowChecks p.inst.qtys sol.placed p.missing).bind fun missing =>
  if p.binQtys.length ≠ sol.binQtys.length then none
  else some ({ p with layouts := ls, missing := missing, binQtys := sol.binQtys, removed := [] }.resetUnmodified sol.id)

/-- `problem_generic.rs:73-81` `template_layout_indices_with_stock`; `none` if
a bin id is out of range. -/
def templatesWithStock (p : BPProblem K n) : Option (List LayoutIndex) :=
  (p.templates.zipIdx.mapM fun t => (p.binQtys[t.1.bin.id]?).map fun q =>
    if q = 0 then [] else [LayoutIndex.template t.2]).map List.flatten

/-- `problem_generic.rs:83-88` `get_layout`. -/
def getLayout (p : BPProblem K n) : LayoutIndex → Option (Layout K n)
  | .real i => p.layouts[i]?
  | .template i => p.templates[i]?

/-- `problem_generic.rs:63-65` `used_bin_cost`. -/
def usedBinCost (p : BPProblem K n) : ℕ := (p.layouts.map (·.bin.value)).sum

end BPProblem

/-- `util/assertions.rs:53-68` `layouts_match`. -/
def layoutsMatch (l : Layout K n) (s : LayoutSnapshot K n) : Bool :=
  if l.bin.id ≠ s.bin.id then false
  else s.placed.values.all fun x => l.placed.values.any fun y => y.itemId = x.itemId ∧ y.dt = x.dt

/-- `util/assertions.rs:38-51` `problem_matches_solution`, used in `debug_assert!`
at the end of `create_solution` and `restore_to_solution`. -/
def problemMatchesSolution (ls : List (Layout K n)) (s : Solution K n) : Option Bool :=
  (CDE.anyM (fun (l : Layout K n) => (s.snapshots.find? fun sn => sn.id = l.id).map fun sn => !layoutsMatch l sn) ls).map not

/-! ## Strip packing -/

/-- `instances/strip_packing.rs:10-18` `SPInstance` without the item area. -/
structure SPInstance (K : Type*) where
  items : List (Item K × ℕ)
  stripHeight : K

/-- `instances/strip_packing.rs:20-34` `SPInstance::new`. -/
def SPInstance.new (items : List (Item K × ℕ)) (stripHeight : K) : Option (SPInstance K) :=
  if items.zipIdx.all (fun x => x.1.1.id = x.2) then some ⟨items, stripHeight⟩ else none

/-- the demanded quantities -/
def SPInstance.qtys (inst : SPInstance K) : List ℕ := inst.items.map (·.2)

/-- `strip_packing.rs:23-31` `SPProblem`. -/
structure SPProblem (K : Type*) (n : ℕ) where
  inst : SPInstance K
  layout : Layout K n
  missing : List ℤ
  layoutCounter : ℕ
  solutionCounter : ℕ

/-- `aa_rectangle.rs:20-35` `AARectangle::new`: the check is made in debug builds. -/
def AARect.new (debug : Bool) (xMin yMin xMax yMax : K) : Option (AARect K) :=
  if (xMin < xMax ∧ yMin < yMax) ∨ debug = false then some ⟨xMin, yMin, xMax, yMax⟩ else none

/-- `strip_packing.rs:302-317` `occupied_range`. The fold starts with the first
item instead of the largest and smallest number. -/
def occupiedRange (l : Layout K n) : Option (K × K) :=
  match l.placed.values with
  | [] => none
  | pi :: ps => some (ps.foldl (fun r (pi : PlacedItem K) => (min r.1 pi.shape.val.bbox.xMin, max r.2 pi.shape.val.bbox.xMax))
      (pi.shape.val.bbox.xMin, pi.shape.val.bbox.xMax))

/-- `strip_packing.rs:320-326` `occupied_width`. -/
def occupiedWidth (l : Layout K n) : K :=
  match occupiedRange l with
  | some r => r.2 - r.1
  | none => 0

/-- What strip packing gets from outside besides `Env`: the value of a strip bin,
and `FPA::tolerance()`. -/
structure StripEnv (K : Type*) extends Env K where
  stripValue : SPoly K → ℕ
  tolerance : K

namespace SPProblem

/-- `strip_packing.rs:34-53` `SPProblem::new`; `addr` is the address of the
strip's shape. -/
def new (env : StripEnv K) (n : ℕ) (addr : ℕ) (inst : SPInstance K) (width : K) : Option (SPProblem K n) :=
  match AARect.new env.overflowChecks 0 0 width inst.stripHeight with
  | none => none
  | some rect => (Bin.fromStrip env.toEnv n addr env.stripValue rect).map fun b =>
    { inst := inst, layout := Layout.new 0 b, missing := inst.items.map fun (x : Item K × ℕ) => (x.2 : ℤ), layoutCounter := 0
      solutionCounter := 0 }

/-- `problem_generic.rs:111-113` `register_included_item`. -/
def registerItem (p : SPProblem K n) (i : ℕ) : Option (SPProblem K n) :=
  (addAt p.missing i (-1)).map fun m => { p with missing := m }

/-- `problem_generic.rs:115-117` `deregister_included_item`. -/
def deregisterItem (p : SPProblem K n) (i : ℕ) : Option (SPProblem K n) :=
  (addAt p.missing i 1).map fun m => { p with missing := m }

/-- `strip_packing.rs:180-191` `place_item`. -/
def placeItem (env : Env K) (addr : ℕ) (p : SPProblem K n) (opt : PlacingOption K) :
    Option ((LayoutIndex × SlotKey) × SPProblem K n) :=
  if opt.layoutIdx ≠ .real 0 then none
  else match p.inst.items[opt.itemId]? with
    | none => none
    | some item => (p.layout.placeItem env addr item.1 opt.dt).bind fun pl =>
      (SPProblem.registerItem { p with layout := pl.2 } opt.itemId).map fun p => ((.real 0, pl.1), p)

/-- `strip_packing.rs:193-207` `remove_item`. -/
def removeItem (env : Env K) (p : SPProblem K n) (idx : LayoutIndex) (key : SlotKey) (commitInstant : Bool) :
    Option (PlacingOption K × SPProblem K n) :=
  if idx ≠ .real 0 then none
  else (p.layout.removeItem env key commitInstant).bind fun r =>
    (SPProblem.deregisterItem { p with layout := r.2 } r.1.itemId).map fun p => (PlacingOption.ofPlaced idx r.1, p)

/-- `strip_packing.rs:116-122` the entities to ignore. -/
def ignoreList (l : Layout K n) : List (HazardEntity K) :=
  (l.cde.allHazards.map (·.entity)).filter fun e => e ≠ .binExterior

/-- `strip_packing.rs:114-143`: placing one item back in the resized strip. The
error message for items that do not fit is left out. -/
def placeBack (env : Env K) (p : SPProblem K n) (x : ℕ × ℕ × DTransf K) : Option (SPProblem K n) :=
  match p.inst.items[x.2.1]? with
  | none => none
  | some item =>
    match p.layout.cde.polyCollides env.f (item.1.shape.transform (Transf.fromDt env.tr x.2.2)) (ignoreList p.layout) with
    | none => none
    | some true => some p
    | some false => (p.placeItem env x.1 ⟨.real 0, x.2.1, x.2.2⟩).map (·.2)

/-- `strip_packing.rs:93-144` `modify_strip`. `addrs i` is the address of the
shape of the `i`-th item placed back, `addr` that of the strip's shape. -/
def modifyStrip (env : StripEnv K) (addr : ℕ) (addrs : ℕ → ℕ) (p : SPProblem K n) (rect : AARect K) : Option (SPProblem K n) :=
  let items := p.layout.placed.values.map fun pi => (pi.itemId, pi.dt)
  let p := { p with missing := p.inst.items.map fun (x : Item K × ℕ) => (x.2 : ℤ), layoutCounter := p.layoutCounter + 1 }
  (Bin.fromStrip env.toEnv n addr env.stripValue rect).bind fun b =>
  let p := { p with layout := Layout.new p.layoutCounter b }
  (items.zipIdx.map fun (x : (ℕ × DTransf K) × ℕ) => (addrs x.2, x.1)).foldlM (placeBack env.toEnv) p

/-- `strip_packing.rs:56-61` `modify_strip_in_back`. -/
def modifyInBack (env : StripEnv K) (addr : ℕ) (addrs : ℕ → ℕ) (p : SPProblem K n) (width : K) : Option (SPProblem K n) :=
  let b := p.layout.bin.outer.val.bbox
  (AARect.new env.overflowChecks b.xMin b.yMin (b.xMin + width) b.yMax).bind (p.modifyStrip env addr addrs)

/-- `strip_packing.rs:64-69` `modify_strip_at_front`. -/
def modifyAtFront (env : StripEnv K) (addr : ℕ) (addrs : ℕ → ℕ) (p : SPProblem K n) (width : K) : Option (SPProblem K n) :=
  let b := p.layout.bin.outer.val.bbox
  (AARect.new env.overflowChecks (b.xMax - width) b.yMin b.xMax b.yMax).bind (p.modifyStrip env addr addrs)

/-- `strip_packing.rs:72-89` `modify_strip_centered`. -/
def modifyCentered (env : StripEnv K) (addr : ℕ) (addrs : ℕ → ℕ) (p : SPProblem K n) (width : K) : Option (SPProblem K n) :=
  let range := (occupiedRange p.layout).getD (0, 0)
  let added := width - occupiedWidth p.layout
  let b := p.layout.bin.outer.val.bbox
  (AARect.new env.overflowChecks (range.1 - added / 2) b.yMin (range.2 + added / 2) b.yMax).bind (p.modifyStrip env addr addrs)

/-- `strip_packing.rs:147-158` `fit_strip`. -/
def fitStrip (env : StripEnv K) (addr : ℕ) (addrs : ℕ → ℕ) (p : SPProblem K n) : Option (SPProblem K n) :=
  (p.modifyCentered env addr addrs (occupiedWidth p.layout * (1 + env.tolerance))).bind fun p' =>
  if p.layout.placed.len = p'.layout.placed.len then some p' else none

/-- `strip_packing.rs:209-233` `create_solution`. -/
def createSolution (p : SPProblem K n) : Option (Solution K n × SPProblem K n) :=
  let p := { p with solutionCounter := p.solutionCounter + 1 }
  p.layout.createSnapshot.map fun r =>
    let p := { p with layout := r.1 }
    ({ id := p.solutionCounter, snapshots := [r.2], usage := problemUsage [p.layout]
       placed := placedQtys p.inst.qtys p.missing, target := p.inst.qtys, binQtys := [0] }, p)

/-- `strip_packing.rs:235-254` `restore_to_solution`. -/
def restore (env : Env K) (p : SPProblem K n) (sol : Solution K n) : Option (SPProblem K n) :=
  match sol.snapshots with
  | [] => none
  | s :: _ =>
    (if p.layout.id = s.id then p.layout.restore env s else Layout.fromSnapshot env s).bind fun l =>
    (missingOfSolution env.overflowChecks p.inst.qtys sol.placed p.missing).map fun m => { p with layout := l, missing := m }

end SPProblem

end Jagua
