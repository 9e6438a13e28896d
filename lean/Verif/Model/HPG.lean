import Verif.Model.Grid
import Verif.Model.Layout

/-!
# The hazard proximity grid

Model of `jagua-rs/src/collision_detection/hpg/{hpg_cell,grid_generator,hazard_proximity_grid}.rs`
and of the parts of `cd_engine.rs` that deal with it. Functions return `none` where
the code would panic.
-/

namespace Jagua

/-- What the grid gets from outside: float comparison, square root, `ceil() as usize`
and the extreme floats. -/
structure HEnv (K : Type*) where
  f : Fpa K
  sqrt : K → K
  ceil : K → ℕ
  /-- `fsize::MAX` -/
  fmax : K
  /-- `fsize::MIN` -/
  fmin : K

variable {K : Type*} [Arith K] [LinearOrder K]

/-! ## Distances -/

/-- `circle.rs:132-140` `distance_from_border` -/
def Circle.distanceFromBorder (env : HEnv K) (c : Circle K) (p : Point K) : GeoPosition × K :=
  let d := env.sqrt ((p.x - c.center.x) ^ 2 + (p.y - c.center.y) ^ 2)
  if d ≤ c.radius then (.interior, c.radius - d) else (.exterior, d - c.radius)

/-- `simple_polygon.rs:329-332` `distance_from_border` -/
def SPoly.distanceFromBorder (env : HEnv K) (s : SPoly K) (p : Point K) : Option (GeoPosition × K) :=
  (s.sqDistanceFromBorder env.f p).map fun (x : GeoPosition × K) => (x.1, env.sqrt x.2)

/-- `aa_rectangle.rs:198-202` `diameter` -/
def AARect.diameter (env : HEnv K) (r : AARect K) : K :=
  env.sqrt ((r.xMax - r.xMin) ^ 2 + (r.yMax - r.yMin) ^ 2)

/-! ## Cells -/

/-- `hpg_cell.rs:19-30` `HPGCell`; the array of qualities is a list of length
`N_QUALITIES`. -/
structure HPGCell (K : Type*) where
  bbox : AARect K
  centroid : Point K
  radius : K
  uni : K × HazardEntity K
  staticUni : K × HazardEntity K
  qz : List K
  deriving DecidableEq, Repr

/-- `hpg_cell.rs:259-267` `HPGCellUpdate` -/
inductive HPGCellUpdate
  | affected
  | notAffected
  | neighborsNotAffected
  deriving DecidableEq, Repr

namespace HPGCell

/-- `hpg_cell.rs:43-48`: proximity of a static hazard, zero inside. -/
def staticProx (env : HEnv K) (p : Point K) (h : Hazard K) : Option K :=
  (h.shape.val.distanceFromBorder env p).map fun (x : GeoPosition × K) => if x.1 = h.entity.position then 0 else x.2

/-- `hpg_cell.rs:42-60`: one static hazard. The state is `(static_uni_prox, qz_prox)`. -/
def addStatic (env : HEnv K) (p : Point K) (st : (K × HazardEntity K) × List K) (h : Hazard K) :
    Option ((K × HazardEntity K) × List K) :=
  (staticProx env p h).bind fun prox =>
  match h.entity with
  | .binExterior | .binHole _ => some (if prox < st.1.1 then ((prox, h.entity), st.2) else st)
  | .inferiorQualityZone q _ => match st.2[q]? with
    | none => none
    | some v => some (st.1, st.2.set q (min v prox))
  | .placedItem _ _ => none

/-- `hpg_cell.rs:32-68` `HPGCell::new` -/
def new (env : HEnv K) (bbox : AARect K) (statics : List (Hazard K)) : Option (HPGCell K) :=
  (statics.foldlM (addStatic env bbox.centroid) ((env.fmax, .binExterior), List.replicate nQualities env.fmax)).map
    fun (st : (K × HazardEntity K) × List K) => ⟨bbox, bbox.centroid, bbox.diameter env / 2, st.1, st.1, st.2⟩

/-- `hpg_cell.rs:169-174` (and `249-252`): proximity of a disc, zero inside. -/
def discProx (env : HEnv K) (p : Point K) (c : Circle K) : K :=
  match c.distanceFromBorder env p with
  | (.interior, _) => 0
  | (.exterior, d) => fabs d

/-- `hpg_cell.rs:246-256` `distance_to_surrogate_poles_border`; `none` is the `unwrap`
of an empty minimum. -/
def polesProx (env : HEnv K) (p : Point K) (poles : List (Circle K)) : Option K :=
  match poles.map (discProx env p) with
  | [] => none
  | d :: ds => some (ds.foldl min d)

/-- `hpg_cell.rs:123-154` `register_hazard`. `shape.surrogate()` panics if the shape has
none. -/
def registerHazard (env : HEnv K) (c : HPGCell K) (h : Hazard K) : Option (HPGCell K × HPGCellUpdate) :=
  match h.entity.position with
  | .exterior => none
  | .interior => h.shape.val.surrogate.bind fun s => (polesProx env c.centroid s.poles).map fun d =>
    if d < c.uni.1 then ({ c with uni := (d, h.entity) }, .affected)
    else (c, if c.uni.1 + 2 * c.radius < d then .neighborsNotAffected else .notAffected)

/-- `hpg_cell.rs:156-196` `register_hazard_pole` -/
def registerPole (env : HEnv K) (c : HPGCell K) (h : Hazard K) (pole : Circle K) : Option (HPGCell K × HPGCellUpdate) :=
  match h.entity.position with
  | .exterior => none
  | .interior =>
    let d := discProx env c.centroid pole
    some (if d < c.uni.1 then ({ c with uni := (d, h.entity) }, .affected)
      else (c, if c.uni.1 + 2 * c.radius < d - 2 * c.radius then .neighborsNotAffected else .notAffected))

/-- `hpg_cell.rs:76-92`: a hazard with the distance to the bounding circle of its poles. -/
def boundingProx (env : HEnv K) (p : Point K) (h : Hazard K) : Option (Hazard K × Option K) :=
  match h.entity.position with
  | .exterior => some (h, none)
  | .interior => h.shape.val.surrogate.map fun s => (h, some (discProx env p s.polesBoundingCircle))

/-- order of `Option<NotNan>`: `None` comes first -/
def keyLt : Option K → Option K → Bool
  | none, some _ => true
  | some a, some b => decide (a < b)
  | _, none => false

/-- `min_by_key` (`hpg_cell.rs:96-100`): index of the first smallest key. -/
def firstMin : List (Hazard K × Option K) → Option (ℕ × (Hazard K × Option K))
  | [] => none
  | x :: xs => match firstMin xs with
    | none => some (0, x)
    | some (i, y) => if keyLt y.2 x.2 then some (i + 1, y) else some (0, x)

/-- `hpg_cell.rs:95-120`: the loop over the hazards by distance of their bounding
circle. The first argument bounds the number of rounds; every round removes one
hazard, so the length of the list is enough. -/
def registerLoop (env : HEnv K) : ℕ → HPGCell K → List (Hazard K × Option K) → Option (HPGCell K)
  | k, c, l => match firstMin l, k with
    | none, _ => some c
    | some _, 0 => none
    | some (i, (h, none)), k + 1 => (c.registerHazard env h).bind fun (r : HPGCell K × HPGCellUpdate) =>
      registerLoop env k r.1 (swapRemove l i)
    | some (i, (h, some d)), k + 1 =>
      if d ≤ c.uni.1 then (c.registerHazard env h).bind fun (r : HPGCell K × HPGCellUpdate) =>
        registerLoop env k r.1 (swapRemove l i)
      else some c

/-- `hpg_cell.rs:70-121` `register_hazards` -/
def registerHazards (env : HEnv K) (c : HPGCell K) (hs : List (Hazard K)) : Option (HPGCell K) :=
  ((hs.filter (·.active)).mapM (boundingProx env c.centroid)).bind fun l => registerLoop env l.length c l

/-- `hpg_cell.rs:198-216` `deregister_hazards` -/
def deregisterHazards (env : HEnv K) (es : List (HazardEntity K)) (remaining : List (Hazard K)) (c : HPGCell K) : Option (HPGCell K) :=
  if es.contains c.uni.2 then registerHazards env { c with uni := c.staticUni } remaining else some c

/-- `hpg_cell.rs:231-243` `hazard_proximity`; `none` is an index out of range. -/
def hazardProximity (c : HPGCell K) (quality : Option ℕ) : Option K :=
  (List.range (quality.getD nQualities)).foldlM (fun (d : K) q => (c.qz[q]?).map fun v => min d v) c.uni.1

/-- `hpg_cell.rs:218-229` `could_accommodate_item`, for the radius of the pole of
inaccessibility and the base quality of the item. -/
def couldAccommodate (c : HPGCell K) (poiRadius : K) (quality : Option ℕ) : Option Bool :=
  if poiRadius < c.radius then some true
  else (c.hazardProximity quality).map fun d => decide (poiRadius < d + c.radius)

end HPGCell

/-! ## Generating the cells -/

namespace GridGen

/-- `grid_generator.rs:81-95` `distance_to_hazard`: negative inside a hazard. -/
def distanceToHazard (env : HEnv K) (p : Point K) (hazards : List (Hazard K)) : Option K :=
  (hazards.mapM fun (h : Hazard K) => (h.shape.val.distanceFromBorder env p).map fun (x : GeoPosition × K) =>
    if x.1 = h.entity.position then -x.2 else x.2).map fun l => match l with
  | [] => env.fmin
  | d :: ds => ds.foldl min d

/-- `grid_generator.rs:36-39`: cell `(i, j)`. -/
def cellRect (bbox : AARect K) (dim : K) (i j : ℕ) : AARect K :=
  ⟨bbox.xMin + dim * i, bbox.yMin + dim * j, bbox.xMin + dim * i + dim, bbox.yMin + dim * j + dim⟩

/-- `grid_generator.rs:28-47`: all relevant cells of the given size. A size of zero
makes the number of cells infinite (`none`). -/
def attempt (env : HEnv K) (bbox : AARect K) (hazards : List (Hazard K)) (dim : K) : Option (List (AARect K)) :=
  if dim = 0 then none
  else
    let nx := env.ceil (bbox.width / dim)
    let ny := env.ceil (bbox.height / dim)
    let radius := env.sqrt (2 * (dim / 2) ^ 2)
    (((List.range nx).flatMap fun i => (List.range ny).map fun j => cellRect bbox dim i j).mapM fun (r : AARect K) =>
      (distanceToHazard env r.centroid hazards).map fun d => if 0 < d + radius then [r] else []).map List.flatten

/-- `grid_generator.rs:27-77`: the loop. The first argument is the number of rounds
left, `MAX_ITERATIONS - n_iters`. -/
def loop (env : HEnv K) (bbox : AARect K) (hazards : List (Hazard K)) (target : ℕ) :
    ℕ → (correction step : K) → (previous : Option Ordering) → Option (List (AARect K))
  | left, correction, step, previous =>
    (attempt env bbox hazards (env.sqrt (bbox.area / target) * correction)).bind fun cells =>
    match left with
    | 0 => some cells
    | left + 1 =>
      let now := compare cells.length target
      let step := if previous = some now then step else step / 2
      match now with
      | .eq => some cells
      | .lt => loop env bbox hazards target left (correction - step) step (some now)
      | .gt => loop env bbox hazards target left (correction + step) step (some now)

/-- `grid_generator.rs:11` `MAX_ITERATIONS` -/
def maxIterations : ℕ := 25

/-- `grid_generator.rs:17-79` `generate` -/
def generate (env : HEnv K) (bbox : AARect K) (hazards : List (Hazard K)) (target : ℕ) : Option (List (AARect K)) :=
  if 0 < bbox.area then loop env bbox hazards target maxIterations 1 (1 / 10) none else none

end GridGen

/-! ## The grid -/

/-- `hazard_proximity_grid.rs:21-26` `HazardProximityGrid` -/
structure HPG (K : Type*) where
  bbox : AARect K
  grid : Grid K (HPGCell K)
  cellRadius : K
  uncommitted : List (HazardEntity K)

namespace HPG

/-- `hazard_proximity_grid.rs:29-61` `HazardProximityGrid::new` -/
def new (env : HEnv K) (bbox : AARect K) (statics : List (Hazard K)) (nCells : ℕ) : Option (HPG K) :=
  if nCells = 0 then none
  else (GridGen.generate env bbox (statics.filter fun h => h.entity.isUniversal) nCells).bind fun rects =>
    rects.head?.bind fun (r0 : AARect K) =>
    (rects.mapM fun (r : AARect K) => HPGCell.new env r statics).bind fun cells =>
    (Grid.new (cells.map fun (c : HPGCell K) => (c, c.centroid))).map fun g => ⟨bbox, g, r0.diameter env / 2, []⟩

/-- `hazard_proximity_grid.rs:63-67` `restore` -/
def restore (g : HPG K) (grid : Grid K (HPGCell K)) : Option (HPG K) :=
  if g.grid.cells.length = grid.cells.length then some { g with grid := grid, uncommitted := [] } else none

/-- `hazard_proximity_grid.rs:87-103`: the loop of one boundary fill. The first
argument bounds the number of rounds (`none` when exceeded; property C16 shows that the
number of cells plus one is enough). -/
def fillLoop (env : HEnv K) (h : Hazard K) (pole : Circle K) : ℕ → Grid K (HPGCell K) → BFill → Option (Grid K (HPGCell K) × BFill)
  | 0, _, _ => none
  | k + 1, g, b => b.pop.bind fun (r : Option ℕ × BFill) =>
    match r.1 with
    | none => some (g, r.2)
    | some i => match g.cells[i]? with
      | none => none
      | some none => (r.2.report g i .exterior).bind fun b' => fillLoop env h pole k g b'
      | some (some c) => (c.registerPole env h pole).bind fun (u : HPGCell K × HPGCellUpdate) =>
        let g' := { g with cells := g.cells.set i (some u.1) }
        (r.2.report g' i (if u.2 = .neighborsNotAffected then .exterior else .interior)).bind fun b' => fillLoop env h pole k g' b'

/-- `hazard_proximity_grid.rs:77-82`: the seed box of a pole. -/
def seedBox (cellRadius : K) (pole : Circle K) : AARect K :=
  ⟨pole.bbox.xMin - 2 * cellRadius, pole.bbox.yMin - 2 * cellRadius, pole.bbox.xMax + 2 * cellRadius, pole.bbox.yMax + 2 * cellRadius⟩

/-- `hazard_proximity_grid.rs:76-104`: registering one pole. -/
def registerPole (env : HEnv K) (radius : K) (h : Hazard K) (st : Grid K (HPGCell K) × BFill) (pole : Circle K) :
    Option (Grid K (HPGCell K) × BFill) :=
  (st.2.reset st.1 (seedBox radius pole)).bind fun b => fillLoop env h pole (st.1.cells.length + 1) st.1 b

/-- `hazard_proximity_grid.rs:69-110` `register_hazard` -/
def register (env : HEnv K) (g : HPG K) (h : Hazard K) : Option (HPG K) :=
  h.shape.val.surrogate.bind fun (s : Surrogate K) =>
  (BFill.new g.grid h.shape.val.bbox).bind fun b =>
  (s.poles.foldlM (registerPole env g.cellRadius h) (g.grid, b)).map fun (st : Grid K (HPGCell K) × BFill) => { g with grid := st.1 }

/-- `self.grid.cells.iter_mut().flatten()` with an operation that may panic -/
def mapCells (f : HPGCell K → Option (HPGCell K)) (g : Grid K (HPGCell K)) : Option (Grid K (HPGCell K)) :=
  (g.cells.mapM fun (o : Option (HPGCell K)) => match o with
    | none => some none
    | some c => (f c).map some).map fun cells => { g with cells := cells }

/-- `hazard_proximity_grid.rs:112-127` `deregister_hazard` -/
def deregister (env : HEnv K) (g : HPG K) (e : HazardEntity K) (remaining : List (Hazard K)) (processNow : Bool) : Option (HPG K) :=
  if processNow then (mapCells (HPGCell.deregisterHazards env [e] remaining) g.grid).map fun grid => { g with grid := grid }
  else some { g with uncommitted := g.uncommitted ++ [e] }

/-- `hazard_proximity_grid.rs:144-146` `is_dirty` -/
def isDirty (g : HPG K) : Bool := !g.uncommitted.isEmpty

/-- `hazard_proximity_grid.rs:129-142` `flush_deregisters` -/
def flush (env : HEnv K) (g : HPG K) (remaining : List (Hazard K)) : Option (HPG K) :=
  if g.isDirty then (mapCells (HPGCell.deregisterHazards env g.uncommitted remaining) g.grid).map fun grid =>
    { g with grid := grid, uncommitted := [] }
  else some g

end HPG

/-! ## The engine with its grid -/

/-- `cd_engine.rs:27-36` `CDEngine` with its grid -/
structure HCDE (K : Type*) (n : ℕ) where
  cde : CDE K n
  hpg : Option (HPG K)

/-- `cd_engine.rs:40-44` `CDESnapshot` -/
structure HSnap (K : Type*) where
  dynamics : List (Hazard K)
  grid : Option (Grid K (HPGCell K))

namespace HCDE

variable {n : ℕ}

/-- an operation on the grid if there is one -/
def onGrid (o : Option (HPG K)) (f : HPG K → Option (HPG K)) : Option (Option (HPG K)) :=
  match o with
  | none => some none
  | some g => (f g).map some

/-- `cd_engine.rs:47-72` `CDEngine::new`; `nCells` is `config.hpg_n_cells`. -/
def new (env : HEnv K) (o : SearchOracle K) (n : ℕ) (bbox : AARect K) (statics : List (Hazard K)) (nCells : ℕ) : Option (HCDE K n) :=
  (if nCells = 0 then some none else (HPG.new env bbox statics nCells).map some).bind fun hpg =>
  (CDE.new env.f o n bbox statics).map fun cde => ⟨cde, hpg⟩

/-- `cd_engine.rs:75-105` `register_hazard`: a hazard that waits to be deregistered is
reused, and it is this one that is registered in the grid. -/
def register (env : HEnv K) (o : SearchOracle K) (c : HCDE K n) (h : Hazard K) : Option (HCDE K n) :=
  let h' := (c.cde.uncommitted.find? fun u => u.entity = h.entity).getD h
  (c.cde.register env.f o h).bind fun cde => (onGrid c.hpg fun g => g.register env h').map fun hpg => ⟨cde, hpg⟩

/-- `cd_engine.rs:117-137` `deregister_hazard` -/
def deregister (env : HEnv K) (o : SearchOracle K) (c : HCDE K n) (e : HazardEntity K) (commitInstant : Bool) : Option (HCDE K n) :=
  (c.cde.deregister o e commitInstant).bind fun cde =>
  (onGrid c.hpg fun g => g.deregister env e cde.dynamics commitInstant).map fun hpg => ⟨cde, hpg⟩

/-- `cd_engine.rs:254-258` `flush_haz_prox_grid` -/
def flush (env : HEnv K) (c : HCDE K n) : Option (HCDE K n) :=
  (onGrid c.hpg fun g => g.flush env c.cde.dynamics).map fun hpg => { c with hpg := hpg }

/-- `cd_engine.rs:211-218` `commit_deregisters` -/
def commit (env : HEnv K) (c : HCDE K n) : Option (HCDE K n) :=
  c.cde.commit.bind fun cde => flush env ⟨cde, c.hpg⟩

/-- `cd_engine.rs:139-149` `create_snapshot` -/
def createSnapshot (env : HEnv K) (c : HCDE K n) : Option (HCDE K n × HSnap K) :=
  (c.commit env).bind fun (c' : HCDE K n) =>
  if (c'.hpg.map HPG.isDirty).getD false then none else some (c', ⟨c'.cde.dynamics, c'.hpg.map HPG.grid⟩)

/-- `cd_engine.rs:152-207` `restore` -/
def restore (env : HEnv K) (o : SearchOracle K) (c : HCDE K n) (s : HSnap K) : Option (HCDE K n) :=
  (c.cde.restore env.f o s.dynamics).bind fun cde =>
  (onGrid c.hpg fun g => s.grid.bind fun grid => g.restore grid).map fun hpg => ⟨cde, hpg⟩

/-- `cd_engine.rs:245-251` `haz_prox_grid`: the outer `none` is the panic without a grid,
the inner `none` is `Err(DirtyState)`. -/
def hazProxGrid (c : HCDE K n) : Option (Option (HPG K)) :=
  c.hpg.map fun g => if g.isDirty then none else some g

end HCDE

end Jagua
