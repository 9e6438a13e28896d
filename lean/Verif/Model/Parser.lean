import Verif.Model.Problem
import Verif.Model.Simplify

/-!
# Reading instances and writing solutions

Model of `jagua-rs/src/io/{json_instance,json_solution,parser}.rs`. Functions return `none` where the code would panic.
Names, the running time and the texts of log messages are left out. Parsing items and bins in
parallel is modelled in order. Numbers `u64` and `usize` are natural numbers.
-/

namespace Jagua

variable {K : Type*} [Arith K] [LinearOrder K] {n : ℕ}

/-! ## The input -/

/-- `json_instance.rs:66-76` `JsonShape`; a `JsonSimplePoly` (line 89) is the list of its points, a `JsonPoly`
(lines 80-86) the outline and the holes. -/
inductive JsonShape (K : Type*)
  | rectangle (width height : K)
  | simplePolygon (pts : List (Point K))
  | polygon (outer : List (Point K)) (inner : List (List (Point K)))
  | multiPolygon (polys : List (List (Point K) × List (List (Point K))))
  deriving DecidableEq, Repr

/-- `json_instance.rs:49-61` `JsonItem` -/
structure JsonItem (K : Type*) where
  demand : ℕ
  /-- angles in degrees -/
  allowedOrientations : Option (List K)
  shape : JsonShape K
  value : Option ℕ
  baseQuality : Option ℕ

/-- `json_instance.rs:96-101` `JsonQualityZone` -/
structure JsonZone (K : Type*) where
  quality : ℕ
  shape : JsonShape K

/-- `json_instance.rs:27-37` `JsonBin` -/
structure JsonBin (K : Type*) where
  cost : ℕ
  stock : Option ℕ
  shape : JsonShape K
  zones : List (JsonZone K)

/-- `json_instance.rs:7-22` `JsonInstance` without the name; a `JsonStrip` (lines 39-43) is its height. -/
structure JsonInstance (K : Type*) where
  items : List (JsonItem K)
  bins : Option (List (JsonBin K))
  strip : Option K

/-! ## The output -/

/-- `json_solution.rs:42-47` `JsonTransformation` and `json_solution.rs:32-37` `JsonPlacedItem` -/
structure JsonPlacedItem (K : Type*) where
  index : ℕ
  rotation : K
  translation : K × K
  deriving DecidableEq, Repr

/-- `json_solution.rs:61-75` `JsonContainer` -/
inductive JsonContainer (K : Type*)
  | bin (index : ℕ)
  | strip (width height : K)
  deriving DecidableEq, Repr

/-- `json_solution.rs:20-27` `JsonLayout`; the statistics (lines 54-60) are the usage. -/
structure JsonLayout (K : Type*) where
  container : JsonContainer K
  placedItems : List (JsonPlacedItem K)
  usage : K
  deriving DecidableEq, Repr

/-- `json_solution.rs:8-15` `JsonSolution` without the running time. -/
structure JsonSolution (K : Type*) where
  usage : K
  layouts : List (JsonLayout K)
  deriving DecidableEq, Repr

/-! ## Shapes -/

/-- What the parser gets from outside besides `Env`: the generation of surrogates, the conversion of degrees to radians,
the cast of a float to `u64`, `u64::MAX` (which is `usize::MAX`) and whether messages of level `Info` are logged. -/
structure PEnv (K : Type*) extends Env K where
  surr : SPoly K → SPoly K
  toRadians : K → K
  toU64 : K → ℕ
  maxU64 : ℕ
  logInfo : Bool

/-- `parser.rs:39-43` `Parser`: the tolerance of the simplification (`PolySimplConfig`,
`polygon_simplification.rs:17-24`; `none` is `Disabled`) and whether shapes are centered. The configuration of the engine
is a parameter elsewhere. -/
structure ParserConfig (K : Type*) where
  tolerance : Option K
  center : Bool

/-- `parser.rs:465-473` `json_simple_poly_to_points`: the last vertex is dropped if it is the first one again. -/
def jsonPoints (pts : List (Point K)) : Option (List (Point K)) :=
  match pts.head?, pts.getLast? with
  | some a, some b => if a = b then some (pts.take (pts.length - 1)) else some (pts.take pts.length)
  | _, _ => none

/-- `parser.rs:448-463` `convert_json_simple_poly` -/
def convertPoly (penv : PEnv K) (cfg : ParserConfig K) (mode : SimplMode) (pts : List (Point K)) : Option (SPoly K) :=
  (jsonPoints pts).bind fun pts => (SPoly.new penv.poi pts).bind fun shape =>
  match cfg.tolerance with
  | some tol => simplifyShape penv.poi mode tol shape
  | none => some shape

/-- `parser.rs:125-127, 176-178, 219-221`: `SimplePolygon::from(AARectangle::new(0.0, 0.0, width, height))` -/
def convertRect (penv : PEnv K) (width height : K) : Option (SPoly K) :=
  (AARect.new penv.overflowChecks 0 0 width height).bind (SPoly.ofRect penv.poi)

/-- `parser.rs:124-137, 218-233`: the shape of an item or a zone. -/
def convertShape (penv : PEnv K) (cfg : ParserConfig K) : JsonShape K → Option (SPoly K)
  | .rectangle w h => convertRect penv w h
  | .simplePolygon pts => convertPoly penv cfg .inflate pts
  | .polygon _ _ => none
  | .multiPolygon _ => none

/-! ## Items -/

/-- `parser.rs:542-563` `pretransform_item` -/
def pretransformItem (penv : PEnv K) (item : Item K) (extra : Transf K) : Item K :=
  Item.new penv.surr item.id (item.shape.transform extra) item.allowedRotation item.baseQuality item.value
    (item.pretransform.transform extra)

/-- `parser.rs:142-151`: the allowed rotations. -/
def parseRotations (penv : PEnv K) : Option (List K) → AllowedRotation K
  | some angles => if angles = [] ∨ angles = [0] then .none else .discrete (angles.map penv.toRadians)
  | none => .continuous

/-- `parser.rs:123-172` `parse_item` -/
def parseItem (penv : PEnv K) (cfg : ParserConfig K) (item : JsonItem K) (id : ℕ) : Option (Item K × ℕ) :=
  (convertShape penv cfg item.shape).map fun shape =>
  let base := Item.new penv.surr id shape (parseRotations penv item.allowedOrientations) item.baseQuality (item.value.getD 0) Transf.empty
  (if cfg.center then pretransformItem penv base (Transf.fromDt penv.tr base.shape.centeringTransformation) else base, item.demand)

/-! ## Bins -/

/-- `Bin::new` on newly allocated shapes; `addr 0 0` is the address of the outline, `addr 1 i` that of the `i`-th hole,
and `addr (2 + k) i` that of the `i`-th shape of the `k`-th zone. -/
def allocBin (env : Env K) (n : ℕ) (addr : ℕ → ℕ → ℕ) (id : ℕ) (outer : SPoly K) (value : ℕ) (pre : Transf K) (holes : List (SPoly K))
    (zones : List (ℕ × List (SPoly K))) : Option (Bin K n) :=
  Bin.new env n id ⟨addr 0 0, outer⟩ value pre (holes.zipIdx.map fun h => ⟨addr 1 h.2, h.1⟩)
    (zones.zipIdx.map fun z => ⟨z.1.1, z.1.2.zipIdx.map fun s => ⟨addr (2 + z.2) s.2, s.1⟩⟩)

/-- `parser.rs:505-540` `pretransform_bin` -/
def pretransformBin (env : Env K) (addr : ℕ → ℕ → ℕ) (b : Bin K n) (extra : Transf K) : Option (Bin K n) :=
  allocBin env n addr b.id (b.outer.val.transform extra) b.value (b.pretransform.transform extra)
    (b.holes.map fun h => h.val.transform extra)
    ((b.qualityZones.filterMap id).map fun z => (z.quality, z.zones.map fun s => s.val.transform extra))

/-- `parser.rs:175-188`: the outline of a bin. -/
def parseOuter (penv : PEnv K) (cfg : ParserConfig K) : JsonShape K → Option (SPoly K)
  | .rectangle w h => convertRect penv w h
  | .simplePolygon pts => convertPoly penv cfg .deflate pts
  | .polygon outer _ => convertPoly penv cfg .deflate outer
  | .multiPolygon _ => none

/-- `parser.rs:190-202`: the holes of a bin. -/
def parseHoles (penv : PEnv K) (cfg : ParserConfig K) : JsonShape K → Option (List (SPoly K))
  | .rectangle _ _ => some []
  | .simplePolygon _ => some []
  | .polygon _ inner => inner.mapM (convertPoly penv cfg .inflate)
  | .multiPolygon _ => none

/-- `parser.rs:212-237`: the zones, for every quality those that have it. -/
def parseZones (penv : PEnv K) (cfg : ParserConfig K) (zones : List (JsonZone K)) : Option (List (ℕ × List (SPoly K))) :=
  (List.range nQualities).mapM fun q =>
    ((zones.filter fun z => z.quality = q).mapM fun (z : JsonZone K) => convertShape penv cfg z.shape).map fun ss => (q, ss)

/-- `parser.rs:174-260` `parse_bin`. `addr` gives the addresses of the shapes that are allocated first, `addr'` those of the
centered ones. -/
def parseBin (penv : PEnv K) (cfg : ParserConfig K) (n : ℕ) (addr addr' : ℕ → ℕ → ℕ) (b : JsonBin K) (id : ℕ) : Option (Bin K n × ℕ) :=
  (parseOuter penv cfg b.shape).bind fun outer =>
  (parseHoles penv cfg b.shape).bind fun holes =>
  if ¬ ∀ z ∈ b.zones, z.quality < nQualities then none else
  (parseZones penv cfg b.zones).bind fun zones =>
  (allocBin penv.toEnv n addr id outer (penv.toU64 (outer.area - fsum (holes.map (·.area)))) Transf.empty holes zones).bind fun base =>
  (if cfg.center then pretransformBin penv.toEnv addr' base (Transf.fromDt penv.tr base.outer.val.centeringTransformation) else some base).map fun bin =>
  (bin, b.stock.getD penv.maxU64)

/-! ## Instances -/

/-- `instances/instance.rs:10-14` `Instance` -/
inductive Instance (K : Type*) (n : ℕ)
  | bp (inst : BPInstance K n)
  | sp (inst : SPInstance K)

/-- `instance_generic.rs:6`: the items -/
def Instance.items : Instance K n → List (Item K × ℕ)
  | .bp i => i.items
  | .sp i => i.items

/-- A sum of numbers of type `usize`: in debug builds it panics if it is too large for the type. -/
def PEnv.sumFits (penv : PEnv K) (xs : List ℕ) : Bool := !(penv.overflowChecks && decide (penv.maxU64 < xs.sum))

/-- `parser.rs:83-105`: the log message with the total quantities. -/
def logParsed (penv : PEnv K) (inst : Instance K n) : Option (Instance K n) :=
  if penv.logInfo && !(penv.sumFits (inst.items.map (·.2)) && (match inst with
    | .bp i => penv.sumFits (i.bins.map (·.2))
    | .sp _ => true)) then none else some inst

/-- `parser.rs:59-108` `parse`; `addr i` and `addr' i` give the addresses for the `i`-th bin. -/
def parseInstance (penv : PEnv K) (cfg : ParserConfig K) (n : ℕ) (addr addr' : ℕ → ℕ → ℕ → ℕ) (ji : JsonInstance K) : Option (Instance K n) :=
  (ji.items.zipIdx.mapM fun (x : JsonItem K × ℕ) => parseItem penv cfg x.1 x.2).bind fun items =>
  (match ji.bins, ji.strip with
  | some bins, none =>
    (bins.zipIdx.mapM fun (x : JsonBin K × ℕ) => parseBin penv cfg n (addr x.2) (addr' x.2) x.1 x.2).bind fun bins =>
    (BPInstance.new items bins).map Instance.bp
  | none, some height => (SPInstance.new items height).map Instance.sp
  | some _, some _ => none
  | none, none => none).bind (logParsed penv)

/-! ## Solutions -/

/-- `parser.rs:409-431`: one placed item of a solution. -/
def composePlaced (tr : Trig K) (items : List (Item K × ℕ)) (b : Bin K n) (pi : PlacedItem K) : Option (JsonPlacedItem K) :=
  (items[pi.itemId]?).map fun item =>
  let t := (internalToAbsolute tr pi.dt item.1.pretransform b.pretransform).decompose tr
  ⟨pi.itemId, t.rotation, (t.tx, t.ty)⟩

/-- `parser.rs:397-439`: one layout of a solution. -/
def composeLayout (tr : Trig K) (inst : Instance K n) (s : LayoutSnapshot K n) : Option (JsonLayout K) :=
  (s.placed.values.mapM (composePlaced tr inst.items s.bin)).map fun placed =>
  ⟨match inst with
    | .bp _ => .bin s.bin.id
    | .sp i => .strip s.bin.outer.val.bbox.width i.stripHeight, placed, s.usage⟩

/-- `parser.rs:392-446` `compose_json_solution` -/
def composeSolution (tr : Trig K) (inst : Instance K n) (sol : Solution K n) : Option (JsonSolution K) :=
  (sol.snapshots.mapM (composeLayout tr inst)).map fun layouts => ⟨sol.usage, layouts⟩

/-- `parser.rs:293-304, 342-353, 365-376`: the transformation of a placed item that is read. -/
def readTransf (tr : Trig K) (item : Item K) (b : Bin K n) (p : JsonPlacedItem K) : DTransf K :=
  (absoluteToInternal tr ⟨p.rotation, p.translation.1, p.translation.2⟩ item.pretransform b.pretransform).decompose tr

/-- `parser.rs:292-314`: placing one item in the strip. Flushing only concerns the grid. -/
def readPlacedSP (env : Env K) (addr : ℕ → ℕ) (p : SPProblem K n) (x : JsonPlacedItem K × ℕ) : Option (SPProblem K n) :=
  (p.inst.items[x.1.index]?).bind fun item =>
  (p.placeItem env (addr x.2) ⟨.real 0, item.1.id, readTransf env.tr item.1 p.layout.bin x.1⟩).map (·.2)

/-- `parser.rs:278-317` `build_strip_packing_solution`; `addr0` is the address of the shape of the strip, `addr i` that of the
`i`-th item. -/
def buildSP (env : StripEnv K) (n : ℕ) (addr0 : ℕ) (addr : ℕ → ℕ) (inst : SPInstance K) (jl : JsonLayout K) : Option (Solution K n) :=
  match jl.container with
  | .bin _ => none
  | .strip width _ =>
    (SPProblem.new env n addr0 inst width).bind fun p =>
    (jl.placedItems.zipIdx.foldlM (readPlacedSP env.toEnv addr) p).bind fun p => p.createSolution.map (·.1)

/-- `parser.rs:364-385`: placing one more item in a layout. -/
def readPlacedBP (env : Env K) (addr : ℕ → ℕ) (b : Bin K n) (idx : LayoutIndex) (p : BPProblem K n) (x : JsonPlacedItem K × ℕ) :
    Option (BPProblem K n) :=
  (p.inst.items[x.1.index]?).bind fun item =>
  (p.placeItem env (addr x.2) ⟨idx, item.1.id, readTransf env.tr item.1 b x.1⟩).map (·.2)

/-- `parser.rs:322-386`: building one layout. -/
def readLayoutBP (env : Env K) (addr : ℕ → ℕ → ℕ) (p : BPProblem K n) (x : JsonLayout K × ℕ) : Option (BPProblem K n) :=
  match x.1.container with
  | .strip _ _ => none
  | .bin index => (p.inst.bins[index]?).bind fun b =>
    match p.templates.findIdx? fun t => t.bin.id = b.1.id with
    | none => none
    | some ti => match x.1.placedItems with
      | [] => none
      | first :: rest => (p.inst.items[first.index]?).bind fun item =>
        (p.placeItem env (addr x.2 0) ⟨.template ti, item.1.id, readTransf env.tr item.1 b.1 first⟩).bind fun r =>
        (rest.zipIdx 1).foldlM (readPlacedBP env (addr x.2) b.1 r.1.1) r.2

/-- `parser.rs:319-389` `build_bin_packing_solution`; `addr i j` is the address of the `j`-th item of the `i`-th layout. -/
def buildBP (env : Env K) (addr : ℕ → ℕ → ℕ) (inst : BPInstance K n) (jls : List (JsonLayout K)) : Option (Solution K n) :=
  (jls.zipIdx.foldlM (readLayoutBP env addr) (BPProblem.new inst)).bind fun p => (p.createSolution none).map (·.1)

/-- `parser.rs:264-276` `build_solution_from_json` -/
def buildSolution (env : StripEnv K) (addr0 : ℕ) (addr : ℕ → ℕ → ℕ) (inst : Instance K n) (jls : List (JsonLayout K)) : Option (Solution K n) :=
  match inst with
  | .bp inst => buildBP env.toEnv addr inst jls
  | .sp inst => match jls with
    | [jl] => buildSP env n addr0 (addr 0) inst jl
    | _ => none

end Jagua
