import Verif.Model.Problem
import Verif.Model.FailFast

/-!
# The left-bottom-fill optimizer

Model of `lbf/src/{lbf_cost,lbf_optimizer}.rs` and `lbf/src/samplers/*.rs`. Functions return
`none` where the code would panic. Logging and the counters of samples are left out.

The random number generator, the power function and the content of the hazard proximity
grid are parameters (`LEnv`); the model of layouts has no grid. `Verif.Model.LBFGrid` adds the grids.
-/

namespace Jagua

variable {K : Type*} [Arith K] [LinearOrder K] {n : ℕ} {R : Type*}

/-- What the optimizer gets from outside. `R` is the state of the random number generator. -/
structure LEnv (K : Type*) (n : ℕ) (R : Type*) where
  /-- `SliceRandom::choose` on a non-empty slice of the given length: an index -/
  choose : ℕ → R → ℕ × R
  /-- `Uniform::new(low, high).sample` -/
  uniform : K → K → R → K × R
  /-- `Normal::new(mean, std_dev).sample` -/
  normal : K → K → R → K × R
  pi : K
  powf : K → K → K
  /-- `layout.cde().haz_prox_grid().unwrap()`, the cells of the grid; `none` if there is no
  grid or it is dirty -/
  grid : Layout K n → Option (List (HPGCell K))

/-! ## Cost -/

/-- `lbf_cost.rs:7-20` `LBFPlacingCost::new` -/
def lbfCost (xMax yMax : K) : K := xMax * 10 + yMax

/-- `lbf_cost.rs:22-24` `LBFPlacingCost::from_shape` -/
def SPoly.lbfCost (s : SPoly K) : K := Jagua.lbfCost s.bbox.xMax s.bbox.yMax

/-! ## Rotations -/

/-- `rotation_distr.rs:16-20` `UniformRotDistr` -/
inductive UniformRot (K : Type*)
  | range (low high : K)
  | discrete (angles : List K)
  | none

/-- `rotation_distr.rs:31-37` `UniformRotDistr::from_item`; `none` is the panic of `Uniform::new`
for an empty range. -/
def UniformRot.ofItem (lenv : LEnv K n R) (item : Item K) : Option (UniformRot K) :=
  match item.allowedRotation with
  | .none => some .none
  | .continuous => if 0 < 2 * lenv.pi then some (.range 0 (2 * lenv.pi)) else .none
  | .discrete as => some (.discrete as)

/-- `rotation_distr.rs:39-45` `UniformRotDistr::sample`; `none` is the `unwrap` for an empty
list. -/
def UniformRot.sample (lenv : LEnv K n R) : UniformRot K → R → Option (K × R)
  | .none, r => some (0, r)
  | .range lo hi, r => some (lenv.uniform lo hi r)
  | .discrete as, r => if as = [] then Option.none else
    let c := lenv.choose as.length r
    (as[c.1]?).map fun a => (a, c.2)

/-- `rotation_distr.rs:24-28` `NormalRotDistr` -/
inductive NormalRot (K : Type*)
  | range (mean sd : K)
  | discrete (angle : K)
  | none

/-- `rotation_distr.rs:49-57` `NormalRotDistr::from_item`. (`Normal::new` fails only for numbers
that are not finite.) -/
def NormalRot.ofItem (item : Item K) (ref sd : K) : NormalRot K :=
  match item.allowedRotation with
  | .none => .none
  | .continuous => .range ref sd
  | .discrete _ => .discrete ref

/-- `rotation_distr.rs:59-66` `set_mean` -/
def NormalRot.setMean (d : NormalRot K) (mean : K) : NormalRot K :=
  match d with
  | .range _ sd => .range mean sd
  | d => d

/-- `rotation_distr.rs:68-75` `set_stddev` -/
def NormalRot.setStddev (d : NormalRot K) (sd : K) : NormalRot K :=
  match d with
  | .range mean _ => .range mean sd
  | d => d

/-- `rotation_distr.rs:77-83` `NormalRotDistr::sample` -/
def NormalRot.sample (lenv : LEnv K n R) : NormalRot K → R → K × R
  | .none, r => (0, r)
  | .range mean sd, r => lenv.normal mean sd r
  | .discrete a, r => (a, r)

/-! ## Sampling from the cells of the grid -/

/-- `uniform_rect_sampler.rs:12-17` `UniformAARectSampler`; the two uniform distributions are
given by the box. -/
structure RectSampler (K : Type*) where
  bbox : AARect K
  rot : UniformRot K

/-- `uniform_rect_sampler.rs:20-30` `new`; `none` is the panic of `Uniform::new` for an empty
range. -/
def RectSampler.new (lenv : LEnv K n R) (item : Item K) (bbox : AARect K) : Option (RectSampler K) :=
  if bbox.xMin < bbox.xMax ∧ bbox.yMin < bbox.yMax then (UniformRot.ofItem lenv item).map fun r => ⟨bbox, r⟩ else none

/-- `uniform_rect_sampler.rs:32-38` `sample` -/
def RectSampler.sample (lenv : LEnv K n R) (s : RectSampler K) (r : R) : Option (DTransf K × R) :=
  (s.rot.sample lenv r).map fun a =>
    let x := lenv.uniform s.bbox.xMin s.bbox.xMax a.2
    let y := lenv.uniform s.bbox.yMin s.bbox.yMax x.2
    (⟨a.1, x.1, y.1⟩, y.2)

/-- `hpg_sampler.rs:18-26` `HPGSampler` without the sample counter. -/
structure HPGSampler (K : Type*) where
  item : Item K
  cells : List (RectSampler K)
  costBound : K
  pretransform : Transf K
  coverageArea : K
  binBboxArea : K

namespace HPGSampler

/-- `hpg_sampler.rs:29-76` `HPGSampler::new`. The outer `none` is a panic, the inner one
means that there are no eligible cells. -/
def new (lenv : LEnv K n R) (item : Item K) (layout : Layout K n) : Option (Option (HPGSampler K)) :=
  let poi := item.shape.poi
  let binBbox := layout.bin.outer.val.bbox
  let pretransform := Transf.fromTranslation (-poi.center.x) (-poi.center.y)
  (lenv.grid layout).bind fun all =>
  (all.mapM fun (c : HPGCell K) => (c.couldAccommodate poi.radius item.baseQuality).map fun b => (c, b)).bind fun marked =>
  let rects := (marked.filter (·.2)).filterMap fun c => AARect.fromIntersection c.1.bbox binBbox
  (rects.mapM (RectSampler.new lenv item)).map fun cells =>
    if cells.isEmpty then none
    else some
      { item := item, cells := cells, costBound := Jagua.lbfCost binBbox.xMax binBbox.yMax, pretransform := pretransform
        coverageArea := fsum (cells.map (·.bbox.area)), binBboxArea := binBbox.area }

/-- `hpg_sampler.rs:79-90` `sample` -/
def sample (lenv : LEnv K n R) (tr : Trig K) (s : HPGSampler K) (r : R) : Option (Transf K × R) :=
  if s.cells = [] then none else
  let c := lenv.choose s.cells.length r
  (s.cells[c.1]?).bind fun cell => (cell.sample lenv c.2).map fun d =>
    (s.pretransform.transformFromDecomposed tr d.1, d.2)

/-- `hpg_sampler.rs:101-106`: the least cost a cell can give. -/
def minCost (s : HPGSampler K) (cell : RectSampler K) : K :=
  Jagua.lbfCost (cell.bbox.xMin + s.item.shape.poi.radius) (cell.bbox.yMin + s.item.shape.poi.radius)

/-- `hpg_sampler.rs:94-122` `tighten` -/
def tighten (s : HPGSampler K) (best : K) : HPGSampler K :=
  if best < s.costBound then
    { s with
      cells := s.cells.filter fun c => s.minCost c < best
      coverageArea := (s.cells.filter fun c => ¬ s.minCost c < best).foldl (fun a c => a - c.bbox.area) s.coverageArea
      costBound := best }
  else s

end HPGSampler

/-! ## Local search -/

/-- `ls_sampler.rs:21-30` `LSSampler` without the sample counter; the normal distributions are
given by mean and standard deviation. -/
structure LSSampler (K : Type*) where
  meanX : K
  sdX : K
  meanY : K
  sdY : K
  rot : NormalRot K
  sdTransl : K
  sdRot : K
  rangeTransl : K × K
  rangeRot : K × K

namespace LSSampler

/-- `ls_sampler.rs:33-57` `new` -/
def new (item : Item K) (ref : DTransf K) (rangeTransl rangeRot : K × K) : LSSampler K :=
  { meanX := ref.tx, sdX := rangeTransl.1, meanY := ref.ty, sdY := rangeTransl.1
    rot := NormalRot.ofItem item ref.rotation rangeRot.1, sdTransl := rangeTransl.1, sdRot := rangeRot.1
    rangeTransl := rangeTransl, rangeRot := rangeRot }

/-- `ls_sampler.rs:59-63` `from_defaults` with the constants of lines 13 and 16 -/
def fromDefaults (lenv : LEnv K n R) (item : Item K) (ref : DTransf K) (bbox : AARect K) : LSSampler K :=
  let maxDim := max bbox.width bbox.height
  new item ref (1 / 100 * maxDim, 5 / 10000 * maxDim) (2 * lenv.pi / 180, 5 / 10 * lenv.pi / 180)

/-- `ls_sampler.rs:66-70` `shift_mean` -/
def shiftMean (s : LSSampler K) (ref : DTransf K) : LSSampler K :=
  { s with meanX := ref.tx, sdX := s.sdTransl, meanY := ref.ty, sdY := s.sdTransl, rot := s.rot.setMean ref.rotation }

/-- `ls_sampler.rs:73-81` `set_stddev`; `none` is the failed assertion. -/
def setStddev (s : LSSampler K) (sdTransl sdRot : K) : Option (LSSampler K) :=
  if 0 ≤ sdTransl ∧ 0 ≤ sdRot then
    some { s with sdTransl := sdTransl, sdRot := sdRot, sdX := sdTransl, sdY := sdTransl, rot := s.rot.setStddev sdRot }
  else none

/-- `ls_sampler.rs:90-96` `decay_stddev` -/
def decayStddev (lenv : LEnv K n R) (s : LSSampler K) (progress : K) : Option (LSSampler K) :=
  let decayed := fun (range : K × K) => range.1 * lenv.powf (range.2 / range.1) progress
  s.setStddev (decayed s.rangeTransl) (decayed s.rangeRot)

/-- `ls_sampler.rs:99-106` `sample` -/
def sample (lenv : LEnv K n R) (s : LSSampler K) (r : R) : DTransf K × R :=
  let a := s.rot.sample lenv r
  let x := lenv.normal s.meanX s.sdX a.2
  let y := lenv.normal s.meanY s.sdY x.2
  (⟨a.1, x.1, y.1⟩, y.2)

end LSSampler

/-! ## Sampling a layout -/

/-- The parts of `LBFConfig` (`lbf_config.rs:10-26`) that matter here: the number of samples
and the number of local search samples, `(n_samples as f32 * ls_frac) as usize`. -/
structure LbfConfig where
  nSamples : ℕ
  lsBudget : ℕ

/-- `lbf_optimizer.rs:177-180`: the hazards that do not matter for the item. -/
def lbfIrrelevant (item : Item K) (layout : Layout K n) : List (HazardEntity K) :=
  match item.hazardFilter with
  | none => []
  | some q => generateIrrelevant (.quality q) layout.cde.allHazards

/-- `cd_engine.rs:331-358` `surrogate_collides` for a surrogate and a transformation. -/
def CDE.surrogateHits (c : CDE K n) (s : Surrogate K) (t : Transf K) (irr : List (HazardEntity K)) : Option Bool :=
  c.surrogateCollides (s.ffPoles.map (·.transform t)) (s.piers.map (·.transform t)) irr

/-- State of the uniform sampling: sampler, buffer shape and best placement with its cost. -/
structure UniState (K : Type*) where
  sampler : HPGSampler K
  buffer : SPoly K
  best : Option (DTransf K × K)

/-- `lbf_optimizer.rs:206-212`: only better samples are looked at more closely. -/
def worthTesting (cost : K) : Option (DTransf K × K) → Bool
  | some b => decide (cost < b.2)
  | none => true

/-- `lbf_optimizer.rs:199-230`: one uniform sample. -/
def uniStep (lenv : LEnv K n R) (env : Env K) (layout : Layout K n) (item : Item K) (surr : Surrogate K) (irr : List (HazardEntity K))
    (st : UniState K) (r : R) : Option (UniState K × R) :=
  (st.sampler.sample lenv env.tr r).bind fun t =>
  (layout.cde.surrogateHits surr t.1 irr).bind fun hit =>
  if hit then some (st, t.2)
  else (st.buffer.transformFrom item.shape t.1).bind fun buffer =>
    let cost := buffer.lbfCost
    if worthTesting cost st.best then (layout.cde.polyCollides env.f buffer irr).map fun collides =>
      if collides then ({ st with buffer := buffer }, t.2)
      else (⟨st.sampler.tighten cost, buffer, some (t.1.decompose env.tr, cost)⟩, t.2)
    else some ({ st with buffer := buffer }, t.2)

/-- `lbf_optimizer.rs:199-230`: the loop; the number is that of the samples left. -/
def uniLoop (lenv : LEnv K n R) (env : Env K) (layout : Layout K n) (item : Item K) (surr : Surrogate K) (irr : List (HazardEntity K)) :
    ℕ → UniState K → R → Option (UniState K × R)
  | 0, st, r => some (st, r)
  | k + 1, st, r => (uniStep lenv env layout item surr irr st r).bind fun s => uniLoop lenv env layout item surr irr k s.1 s.2

/-- State of the local search. -/
structure LsState (K : Type*) where
  sampler : LSSampler K
  buffer : SPoly K
  best : DTransf K × K

/-- `lbf_optimizer.rs:245-269`: one sample of the local search; `progress` is
`i as fsize / ls_sample_budget as fsize`. -/
def lsStep (lenv : LEnv K n R) (env : Env K) (layout : Layout K n) (item : Item K) (surr : Surrogate K) (irr : List (HazardEntity K))
    (progress : K) (st : LsState K) (r : R) : Option (LsState K × R) :=
  let d := st.sampler.sample lenv r
  let t := Transf.fromDt env.tr d.1
  (layout.cde.surrogateHits surr t irr).bind fun hit =>
  (if hit then some st
   else (st.buffer.transformFrom item.shape t).bind fun buffer =>
    if buffer.lbfCost < st.best.2 then (layout.cde.polyCollides env.f buffer irr).map fun collides =>
      if collides then { st with buffer := buffer }
      else ⟨st.sampler.shiftMean d.1, buffer, (d.1, buffer.lbfCost)⟩
    else some { st with buffer := buffer }).bind fun st =>
  (st.sampler.decayStddev lenv progress).map fun s => ({ st with sampler := s }, d.2)

/-- `lbf_optimizer.rs:245-269`: the loop; `k` samples of `budget` are left. -/
def lsLoop (lenv : LEnv K n R) (env : Env K) (layout : Layout K n) (item : Item K) (surr : Surrogate K) (irr : List (HazardEntity K))
    (budget : ℕ) : ℕ → LsState K → R → Option (LsState K × R)
  | 0, st, r => some (st, r)
  | k + 1, st, r => (lsStep lenv env layout item surr irr (((budget - (k + 1) : ℕ) : K) / budget) st r).bind fun s =>
    lsLoop lenv env layout item surr irr budget k s.1 s.2

/-- `lbf_optimizer.rs:167-274` `sample_layout`. The outer `none` is a panic; also a local search
budget above the number of samples is one (`usize` underflow, which wraps around in
release builds). -/
def sampleLayout (lenv : LEnv K n R) (env : Env K) (cfg : LbfConfig) (idx : LayoutIndex) (layout : Layout K n) (item : Item K) (r : R) :
    Option (Option (PlacingOption K) × R) :=
  let irr := lbfIrrelevant item layout
  item.shape.surrogate.bind fun surr =>
  let buffer : SPoly K := { item.shape with surrogate := none }
  if cfg.nSamples < cfg.lsBudget then none
  else (HPGSampler.new lenv item layout).bind fun sampler => match sampler with
    | none => some (none, r)
    | some sampler =>
      (uniLoop lenv env layout item surr irr (cfg.nSamples - cfg.lsBudget) ⟨sampler, buffer, none⟩ r).bind fun u =>
      match u.1.best with
      | none => some (none, u.2)
      | some best =>
        let ls := LSSampler.fromDefaults lenv item best.1 layout.bin.outer.val.bbox
        (lsLoop lenv env layout item surr irr cfg.lsBudget cfg.lsBudget ⟨ls, u.1.buffer, best⟩ u.2).map fun l =>
          (some ⟨idx, item.id, l.1.best.1⟩, l.2)

/-- `lbf_optimizer.rs:145-165` `find_lbf_placement`: the layouts are searched in turn. -/
def findPlacement (lenv : LEnv K n R) (env : Env K) (cfg : LbfConfig) (item : Item K) :
    List (LayoutIndex × Layout K n) → R → Option (Option (PlacingOption K) × R)
  | [], r => some (none, r)
  | l :: ls, r => (sampleLayout lenv env cfg l.1 l.2 item r).bind fun o => match o.1 with
    | some opt => some (some opt, o.2)
    | none => findPlacement lenv env cfg item ls o.2

/-! ## The optimizer -/

/-- `lbf_optimizer.rs:66-74`: the item numbers by descending diameter of the convex hull, a
stable sort. The diameters are compared squared. -/
def sortedItems (poi : List (Point K) → Circle K) (items : List (Item K × ℕ)) : Option (List ℕ) :=
  (items.zipIdx.mapM fun (x : (Item K × ℕ) × ℕ) =>
    ((SPoly.new poi (convexHull x.1.1.shape.points)).bind fun ch => sqDiameter ch.points).map fun d => (d, x.2)).map fun keyed =>
  (keyed.insertionSort fun a b => a.1 ≥ b.1).map Prod.snd

/-- `lbf_optimizer.rs:152-157` (bin packing): the layouts and then the templates in stock. (The
code computes the templates only when it gets there.) -/
def BPProblem.searchList (p : BPProblem K n) : Option (List (LayoutIndex × Layout K n)) :=
  p.templatesWithStock.bind fun ts =>
  (((List.range p.layouts.length).map LayoutIndex.real ++ ts).mapM fun (i : LayoutIndex) => (p.getLayout i).map fun l => (i, l))

/-- `lbf_optimizer.rs:77-116` (bin packing): placing the copies of item `i`. The first argument
bounds the number of rounds (`none` if it is used up); `addr` gives the addresses of the new
shapes. The limit on the number of placed items (lines 33 and 100) is `usize::MAX`, it is left
out. -/
def lbfPlaceBP (lenv : LEnv K n R) (env : Env K) (cfg : LbfConfig) (addr : ℕ → ℕ) (i : ℕ) :
    ℕ → BPProblem K n → R → Option (BPProblem K n × R)
  | 0, _, _ => none
  | k + 1, p, r => (p.missing[i]?).bind fun m =>
    if 0 < m then (p.inst.items[i]?).bind fun item => p.searchList.bind fun ls =>
      (findPlacement lenv env cfg item.1 ls r).bind fun o => match o.1 with
        | none => some (p, o.2)
        | some opt => (p.placeItem env (addr m.toNat) opt).bind fun q => lbfPlaceBP lenv env cfg addr i k q.2 o.2
    else some (p, r)

/-- `lbf_optimizer.rs:45-142` `LBFOptimizer::new` and `solve` for bin packing; `fuel` bounds the
rounds for each item, `addr i` gives the addresses for item `i`. -/
def lbfSolveBP (lenv : LEnv K n R) (env : Env K) (cfg : LbfConfig) (addr : ℕ → ℕ → ℕ) (fuel : ℕ) (inst : BPInstance K n) (r : R) :
    Option (Solution K n × BPProblem K n) :=
  if cfg.nSamples = 0 then none
  else (sortedItems env.poi inst.items).bind fun order =>
    (order.foldlM (fun (s : BPProblem K n × R) i => lbfPlaceBP lenv env cfg (addr i) i fuel s.1 s.2) (BPProblem.new inst, r)).bind fun s =>
    s.1.createSolution none

/-- `lbf_optimizer.rs:77-116` (strip packing): as above, but the strip is made longer if there is
no place. -/
def lbfPlaceSP (lenv : LEnv K n R) (env : StripEnv K) (cfg : LbfConfig) (addr : ℕ → ℕ) (addrs : ℕ → ℕ → ℕ) (i : ℕ) :
    ℕ → SPProblem K n → R → Option (SPProblem K n × R)
  | 0, _, _ => none
  | k + 1, p, r => (p.missing[i]?).bind fun m =>
    if 0 < m then (p.inst.items[i]?).bind fun item =>
      (findPlacement lenv env.toEnv cfg item.1 [(.real 0, p.layout)] r).bind fun o => match o.1 with
        | none => (p.modifyInBack env (addr k) (addrs k) (p.layout.bin.outer.val.bbox.width * (11 / 10))).bind fun q =>
          lbfPlaceSP lenv env cfg addr addrs i k q o.2
        | some opt => (p.placeItem env.toEnv (addr k) opt).bind fun q => lbfPlaceSP lenv env cfg addr addrs i k q.2 o.2
    else some (p, r)

/-- `lbf_optimizer.rs:45-142` `LBFOptimizer::new` and `solve` for strip packing. -/
def lbfSolveSP (lenv : LEnv K n R) (env : StripEnv K) (cfg : LbfConfig) (addr : ℕ → ℕ → ℕ) (addrs : ℕ → ℕ → ℕ → ℕ) (addr0 addr1 : ℕ)
    (addrs1 : ℕ → ℕ) (fuel : ℕ) (inst : SPInstance K) (r : R) : Option (Solution K n × SPProblem K n) :=
  if cfg.nSamples = 0 then none
  else
    let area := fsum (inst.items.map fun (x : Item K × ℕ) => x.1.shape.area * (x.2 : K))
    (SPProblem.new env n addr0 inst (area * 2 / inst.stripHeight)).bind fun p =>
    (sortedItems env.poi inst.items).bind fun order =>
    (order.foldlM (fun (s : SPProblem K n × R) i => lbfPlaceSP lenv env cfg (addr i) (addrs i) i fuel s.1 s.2) (p, r)).bind fun s =>
    (s.1.fitStrip env addr1 addrs1).bind fun p => p.createSolution

end Jagua
