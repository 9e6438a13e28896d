import Verif.Model.LBF
import Verif.Model.HPG

/-!
# The optimizer with the proximity grids of its layouts

In `Verif.Model.LBF` the grid of a layout is a parameter. Here it is part of the state, as in the code: every
collision detection engine has its own grid (`cd_engine.rs:27-36`), made with the engine and updated when items are placed. The
grids are kept beside the problem, in lists in the same order as the layouts.
-/

namespace Jagua

variable {K : Type*} [Arith K] [LinearOrder K] {n : ℕ} {R : Type*}

/-- `hpg_sampler.rs:37-38`, `cd_engine.rs:245-251`: the cells of the grid; `none` is the panic if there is no grid or it is dirty. -/
def readCells (o : Option (HPG K)) : Option (List (HPGCell K)) :=
  o.bind fun g => if g.isDirty then none else some (g.grid.cells.filterMap id)

/-- The search with the given grid. -/
def LEnv.withGrid (lenv : LEnv K n R) (g : Option (HPG K)) : LEnv K n R := { lenv with grid := fun _ => readCells g }

/-- `cd_engine.rs:47-57`: the grid in the engine of a new bin; `nCells` is `config.hpg_n_cells`. -/
def Bin.newGrid (henv : HEnv K) (nCells : ℕ) (b : Bin K n) : Option (Option (HPG K)) :=
  if nCells = 0 then some none else (HPG.new henv b.baseCde.bbox b.baseCde.statics nCells).map some

/-- `layout.rs:81-91` `place_item`, `cd_engine.rs:75-105`: the grid after placing an item. -/
def Layout.placeGrid (henv : HEnv K) (env : Env K) (addr : ℕ) (l : Layout K n) (g : Option (HPG K)) (item : Item K) (dt : DTransf K) :
    Option (Option (HPG K)) :=
  let pi := PlacedItem.new env addr item dt
  HCDE.onGrid g fun g => g.register henv ((l.cde.uncommitted.find? fun u => u.entity = pi.entity).getD (Hazard.new pi.entity pi.shape))

/-! ## Bin packing -/

/-- `bin_packing.rs:14-26` `BPProblem` with the grids of its layouts and templates. -/
structure GridBP (K : Type*) (n : ℕ) where
  p : BPProblem K n
  grids : List (Option (HPG K))
  templates : List (Option (HPG K))

namespace GridBP

/-- `bin_packing.rs:29-60` `BPProblem::new`: the templates have copies of the engines of the bins. -/
def new (henv : HEnv K) (nCells : ℕ) (inst : BPInstance K n) : Option (GridBP K n) :=
  (inst.bins.mapM fun (b : Bin K n × ℕ) => b.1.newGrid henv nCells).map fun ts => ⟨BPProblem.new inst, [], ts⟩

/-- the grid of a layout or template -/
def grid (s : GridBP K n) : LayoutIndex → Option (Option (HPG K))
  | .real i => s.grids[i]?
  | .template i => s.templates[i]?

/-- `bin_packing.rs:115-138` `place_item`: a template is copied with its grid. -/
def placeItem (henv : HEnv K) (env : Env K) (addr : ℕ) (s : GridBP K n) (opt : PlacingOption K) : Option ((LayoutIndex × SlotKey) × GridBP K n) :=
  (s.p.placeItem env addr opt).bind fun q =>
  (s.p.getLayout opt.layoutIdx).bind fun l =>
  (s.grid opt.layoutIdx).bind fun g =>
  (s.p.inst.items[opt.itemId]?).bind fun item =>
  (l.placeGrid henv env addr g item.1 opt.dt).map fun g' =>
  (q.1, match opt.layoutIdx with
    | .real i => ⟨q.2, s.grids.set i g', s.templates⟩
    | .template _ => ⟨q.2, s.grids ++ [g'], s.templates⟩)

end GridBP

/-- `lbf_optimizer.rs:145-165` `find_lbf_placement` -/
def findPlacementG (lenv : LEnv K n R) (env : Env K) (cfg : LbfConfig) (item : Item K) :
    List ((LayoutIndex × Layout K n) × Option (HPG K)) → R → Option (Option (PlacingOption K) × R)
  | [], r => some (none, r)
  | l :: ls, r => (sampleLayout (lenv.withGrid l.2) env cfg l.1.1 l.1.2 item r).bind fun o => match o.1 with
    | some opt => some (some opt, o.2)
    | none => findPlacementG lenv env cfg item ls o.2

/-- `lbf_optimizer.rs:77-116` (bin packing) -/
def lbfPlaceBPG (lenv : LEnv K n R) (henv : HEnv K) (env : Env K) (cfg : LbfConfig) (addr : ℕ → ℕ) (i : ℕ) :
    ℕ → GridBP K n → R → Option (GridBP K n × R)
  | 0, _, _ => none
  | k + 1, s, r => (s.p.missing[i]?).bind fun m =>
    if 0 < m then (s.p.inst.items[i]?).bind fun item => s.p.searchList.bind fun ls =>
      (ls.mapM fun (l : LayoutIndex × Layout K n) => (s.grid l.1).map fun g => (l, g)).bind fun ls =>
      (findPlacementG lenv env cfg item.1 ls r).bind fun o => match o.1 with
        | none => some (s, o.2)
        | some opt => (s.placeItem henv env (addr m.toNat) opt).bind fun q => lbfPlaceBPG lenv henv env cfg addr i k q.2 o.2
    else some (s, r)

/-- `cd_engine.rs:139-149`: the grids after a snapshot of every layout. -/
def snapshotGrids (henv : HEnv K) (ls : List (Layout K n × Option (HPG K))) : Option (List (Option (HPG K))) :=
  ls.mapM fun (x : Layout K n × Option (HPG K)) => (HCDE.createSnapshot henv ⟨x.1.cde, x.2⟩).map fun c => c.1.hpg

/-- `lbf_optimizer.rs:45-142` `LBFOptimizer::new` and `solve` for bin packing -/
def lbfSolveBPG (lenv : LEnv K n R) (henv : HEnv K) (nCells : ℕ) (env : Env K) (cfg : LbfConfig) (addr : ℕ → ℕ → ℕ) (fuel : ℕ) (inst : BPInstance K n) (r : R) :
    Option (Solution K n × GridBP K n) :=
  if cfg.nSamples = 0 then none
  else (GridBP.new henv nCells inst).bind fun s0 => (sortedItems env.poi inst.items).bind fun order =>
    (order.foldlM (fun (s : GridBP K n × R) i => lbfPlaceBPG lenv henv env cfg (addr i) i fuel s.1 s.2) (s0, r)).bind fun s =>
    (s.1.p.createSolution none).bind fun sol =>
    (snapshotGrids henv (s.1.p.layouts.zip s.1.grids)).map fun gs => (sol.1, ⟨sol.2, gs, s.1.templates⟩)

/-! ## Strip packing -/

/-- `strip_packing.rs:23-31` `SPProblem` with the grid of its layout. -/
structure GridSP (K : Type*) (n : ℕ) where
  p : SPProblem K n
  grid : Option (HPG K)

namespace GridSP

/-- `strip_packing.rs:34-53` `SPProblem::new` -/
def new (henv : HEnv K) (nCells : ℕ) (env : StripEnv K) (n : ℕ) (addr : ℕ) (inst : SPInstance K) (width : K) : Option (GridSP K n) :=
  (SPProblem.new env n addr inst width).bind fun p => (p.layout.bin.newGrid henv nCells).map fun g => ⟨p, g⟩

/-- `strip_packing.rs:180-191` `place_item` -/
def placeItem (henv : HEnv K) (env : Env K) (addr : ℕ) (s : GridSP K n) (opt : PlacingOption K) : Option ((LayoutIndex × SlotKey) × GridSP K n) :=
  (s.p.placeItem env addr opt).bind fun q =>
  (s.p.inst.items[opt.itemId]?).bind fun item =>
  (s.p.layout.placeGrid henv env addr s.grid item.1 opt.dt).map fun g' => (q.1, ⟨q.2, g'⟩)

/-- `strip_packing.rs:114-143`: placing one item back in the resized strip. -/
def placeBack (henv : HEnv K) (env : Env K) (s : GridSP K n) (x : ℕ × ℕ × DTransf K) : Option (GridSP K n) :=
  match s.p.inst.items[x.2.1]? with
  | none => none
  | some item =>
    match s.p.layout.cde.polyCollides env.f (item.1.shape.transform (Transf.fromDt env.tr x.2.2)) (SPProblem.ignoreList s.p.layout) with
    | none => none
    | some true => some s
    | some false => (s.placeItem henv env x.1 ⟨.real 0, x.2.1, x.2.2⟩).map (·.2)

/-- `strip_packing.rs:93-144` `modify_strip`: the new strip has a new engine with a new grid. -/
def modifyStrip (henv : HEnv K) (nCells : ℕ) (env : StripEnv K) (addr : ℕ) (addrs : ℕ → ℕ) (s : GridSP K n) (rect : AARect K) : Option (GridSP K n) :=
  let items := s.p.layout.placed.values.map fun pi => (pi.itemId, pi.dt)
  let p := { s.p with missing := s.p.inst.items.map fun (x : Item K × ℕ) => (x.2 : ℤ), layoutCounter := s.p.layoutCounter + 1 }
  (Bin.fromStrip env.toEnv n addr env.stripValue rect).bind fun b =>
  (b.newGrid henv nCells).bind fun g =>
  let p := { p with layout := Layout.new p.layoutCounter b }
  (items.zipIdx.map fun (x : (ℕ × DTransf K) × ℕ) => (addrs x.2, x.1)).foldlM (placeBack henv env.toEnv) ⟨p, g⟩

/-- `strip_packing.rs:56-61` `modify_strip_in_back` -/
def modifyInBack (henv : HEnv K) (nCells : ℕ) (env : StripEnv K) (addr : ℕ) (addrs : ℕ → ℕ) (s : GridSP K n) (width : K) : Option (GridSP K n) :=
  let b := s.p.layout.bin.outer.val.bbox
  (AARect.new env.overflowChecks b.xMin b.yMin (b.xMin + width) b.yMax).bind (s.modifyStrip henv nCells env addr addrs)

/-- `strip_packing.rs:72-89` `modify_strip_centered` -/
def modifyCentered (henv : HEnv K) (nCells : ℕ) (env : StripEnv K) (addr : ℕ) (addrs : ℕ → ℕ) (s : GridSP K n) (width : K) : Option (GridSP K n) :=
  let range := (occupiedRange s.p.layout).getD (0, 0)
  let added := width - occupiedWidth s.p.layout
  let b := s.p.layout.bin.outer.val.bbox
  (AARect.new env.overflowChecks (range.1 - added / 2) b.yMin (range.2 + added / 2) b.yMax).bind (s.modifyStrip henv nCells env addr addrs)

/-- `strip_packing.rs:147-158` `fit_strip` -/
def fitStrip (henv : HEnv K) (nCells : ℕ) (env : StripEnv K) (addr : ℕ) (addrs : ℕ → ℕ) (s : GridSP K n) : Option (GridSP K n) :=
  (s.modifyCentered henv nCells env addr addrs (occupiedWidth s.p.layout * (1 + env.tolerance))).bind fun s' =>
  if s.p.layout.placed.len = s'.p.layout.placed.len then some s' else none

end GridSP

/-- `lbf_optimizer.rs:77-116` (strip packing) -/
def lbfPlaceSPG (lenv : LEnv K n R) (henv : HEnv K) (nCells : ℕ) (env : StripEnv K) (cfg : LbfConfig) (addr : ℕ → ℕ) (addrs : ℕ → ℕ → ℕ) (i : ℕ) :
    ℕ → GridSP K n → R → Option (GridSP K n × R)
  | 0, _, _ => none
  | k + 1, s, r => (s.p.missing[i]?).bind fun m =>
    if 0 < m then (s.p.inst.items[i]?).bind fun item =>
      (findPlacementG lenv env.toEnv cfg item.1 [((.real 0, s.p.layout), s.grid)] r).bind fun o => match o.1 with
        | none => (s.modifyInBack henv nCells env (addr k) (addrs k) (s.p.layout.bin.outer.val.bbox.width * (11 / 10))).bind fun q =>
          lbfPlaceSPG lenv henv nCells env cfg addr addrs i k q o.2
        | some opt => (s.placeItem henv env.toEnv (addr k) opt).bind fun q => lbfPlaceSPG lenv henv nCells env cfg addr addrs i k q.2 o.2
    else some (s, r)

/-- `lbf_optimizer.rs:45-142` `LBFOptimizer::new` and `solve` for strip packing -/
def lbfSolveSPG (lenv : LEnv K n R) (henv : HEnv K) (nCells : ℕ) (env : StripEnv K) (cfg : LbfConfig) (addr : ℕ → ℕ → ℕ) (addrs : ℕ → ℕ → ℕ → ℕ) (addr0 addr1 : ℕ)
    (addrs1 : ℕ → ℕ) (fuel : ℕ) (inst : SPInstance K) (r : R) : Option (Solution K n × GridSP K n) :=
  if cfg.nSamples = 0 then none
  else
    let area := fsum (inst.items.map fun (x : Item K × ℕ) => x.1.shape.area * (x.2 : K))
    (GridSP.new henv nCells env n addr0 inst (area * 2 / inst.stripHeight)).bind fun s =>
    (sortedItems env.poi inst.items).bind fun order =>
    (order.foldlM (fun (s : GridSP K n × R) i => lbfPlaceSPG lenv henv nCells env cfg (addr i) (addrs i) i fuel s.1 s.2) (s, r)).bind fun s =>
    (s.1.fitStrip henv nCells env addr1 addrs1).bind fun s => (s.p.createSolution).bind fun sol =>
    (HCDE.createSnapshot henv ⟨s.p.layout.cde, s.grid⟩).map fun c => (sol.1, ⟨sol.2, c.1.hpg⟩)

end Jagua
