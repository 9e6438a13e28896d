import Verif.Model.SlotMap
import Verif.Model.Transformation

/-!
# Items, bins and layouts

Model of `jagua-rs/src/entities/{item,quality_zone,bin,placed_item,layout}.rs`
and `collision_detection/hazard_filter.rs`.
All functions return `none` where the code would panic. Addresses of new
allocations are given as parameters `addr`.
-/

namespace Jagua

variable {K : Type*} [Arith K] [LinearOrder K]

/-- What the code gets from outside and the model leaves open: float comparison,
outcome of binary searches, trigonometric functions, the computation of poles of
inaccessibility, and whether integer overflow panics and `debug_assert!` is checked where the model
mentions it (debug builds). -/
structure Env (K : Type*) where
  f : Fpa K
  o : SearchOracle K
  tr : Trig K
  poi : List (Point K) → Circle K
  overflowChecks : Bool

/-! ## Hazard filters -/

/-- The implementations of the trait `HazardFilter`, `hazard_filter.rs:26-41`. -/
inductive HazardFilter (K : Type*)
  /-- `BinHazardFilter` -/
  | bin
  /-- `QZHazardFilter(cutoff)` -/
  | quality (cutoff : ℕ)
  /-- `EntityHazardFilter(entities)` -/
  | entities (es : List (HazardEntity K))
  /-- `CombinedHazardFilter { filters }`, the two filters first and second -/
  | combined (fs : List (HazardFilter K))

/-- `hazard_filter.rs:41-71`: the four implementations of `is_irrelevant`. -/
def HazardFilter.isIrrelevant : HazardFilter K → HazardEntity K → Bool
  | .bin, .placedItem _ _ => false
  | .bin, .binExterior => true
  | .bin, .binHole _ => true
  | .bin, .inferiorQualityZone _ _ => true
  | .quality cutoff, .inferiorQualityZone q _ => decide (q ≥ cutoff)
  | .quality _, _ => false
  | .entities es, e => es.contains e
  | .combined fs, e => go fs e
where
  go : List (HazardFilter K) → HazardEntity K → Bool
    | [], _ => false
    | f :: fs, e => f.isIrrelevant e || go fs e

/-- `hazard_filter.rs:13-24` `generate_irrelevant_hazards`. -/
def generateIrrelevant (filter : HazardFilter K) (hazards : List (Hazard K)) : List (HazardEntity K) :=
  hazards.filterMap fun h => if filter.isIrrelevant h.entity then some h.entity else none

/-! ## Items -/

/-- `geo_enums.rs:23-32` `AllowedRotation`. -/
inductive AllowedRotation (K : Type*)
  | none
  | continuous
  | discrete (angles : List K)
  deriving DecidableEq, Repr

/-- `item.rs:11-28` `Item` (without the configuration for the surrogate). -/
structure Item (K : Type*) where
  id : ℕ
  shape : SPoly K
  allowedRotation : AllowedRotation K
  baseQuality : Option ℕ
  value : ℕ
  pretransform : Transf K
  /-- the cutoff of the `QZHazardFilter` -/
  hazardFilter : Option ℕ

/-- `item.rs:29-51` `Item::new`; `surr` is `SimplePolygon::generate_surrogate`. -/
def Item.new (surr : SPoly K → SPoly K) (id : ℕ) (shape : SPoly K) (rot : AllowedRotation K) (baseQuality : Option ℕ) (value : ℕ)
    (pretransform : Transf K) : Item K :=
  { id := id, shape := surr shape, allowedRotation := rot, baseQuality := baseQuality, value := value,
    pretransform := pretransform, hazardFilter := baseQuality }

/-! ## Bins -/

/-- `quality_zone.rs:10-16` `InferiorQualityZone`. -/
structure QualityZone (K : Type*) where
  quality : ℕ
  zones : List (Arc (SPoly K))
  deriving DecidableEq, Repr

/-- `quality_zone.rs:6` `N_QUALITIES` -/
def nQualities : ℕ := 10

/-- `bin.rs:18-34` `Bin`. The type parameter `n` is the depth of the quadtree in
the configuration of the engine, which is the same for all bins of the model. -/
structure Bin (K : Type*) (n : ℕ) where
  id : ℕ
  outer : Arc (SPoly K)
  value : ℕ
  pretransform : Transf K
  holes : List (Arc (SPoly K))
  qualityZones : List (Option (QualityZone K))
  baseCde : CDE K n
  area : K

/-- `hazard.rs:20-26` `Hazard::new`. -/
def Hazard.new (entity : HazardEntity K) (shape : Arc (SPoly K)) : Hazard K := ⟨entity, shape, true⟩

/-- `bin.rs:104-129` `generate_bin_hazards`. -/
def generateBinHazards (outer : Arc (SPoly K)) (holes : List (Arc (SPoly K))) (zones : List (Option (QualityZone K))) :
    List (Hazard K) :=
  [Hazard.new .binExterior outer]
    ++ holes.zipIdx.map (fun s => Hazard.new (.binHole s.2) s.1)
    ++ zones.flatMap fun z => match z with
      | none => []
      | some z => z.zones.zipIdx.map fun s => Hazard.new (.inferiorQualityZone z.quality s.2) s.1

/-- `bin.rs:61-68`: the zones are put in a table by quality. -/
def zoneTable (zones : List (QualityZone K)) : List (Option (QualityZone K)) :=
  zones.foldl (fun t z => t.set z.quality (some z)) (List.replicate nQualities none)

/-- `bin.rs:37-85` `Bin::new`. `outer`, `holes` and the shapes in the zones carry
the addresses of their new allocations. -/
def Bin.new (env : Env K) (n : ℕ) (id : ℕ) (outer : Arc (SPoly K)) (value : ℕ) (pretransform : Transf K) (holes : List (Arc (SPoly K)))
    (zones : List (QualityZone K)) : Option (Bin K n) :=
  if ¬ (zones.map (·.quality)).Nodup then none
  else if ¬ ∀ z ∈ zones, z.quality < nQualities then none
  else
    let table := zoneTable zones
    (CDE.new env.f env.o n outer.val.bbox.inflateToSquare (generateBinHazards outer holes table)).map fun cde =>
      { id := id, outer := outer, value := value, pretransform := pretransform, holes := holes, qualityZones := table
        baseCde := cde, area := outer.val.area - fsum (holes.map (·.val.area)) }

/-- `bin.rs:88-97` `Bin::from_strip`. The value of the bin (its area cut to an
integer) is a parameter. -/
def Bin.fromStrip (env : Env K) (n : ℕ) (addr : ℕ) (value : SPoly K → ℕ) (rect : AARect K) : Option (Bin K n) :=
  match SPoly.ofRect env.poi rect with
  | none => none
  | some poly => Bin.new env n 0 ⟨addr, poly⟩ (value poly) (Transf.fromTranslation rect.xMin rect.yMin) [] []

/-! ## Placed items and layouts -/

/-- `placed_item.rs:15-25` `PlacedItem`. -/
structure PlacedItem (K : Type*) where
  itemId : ℕ
  dt : DTransf K
  hazardFilter : Option ℕ
  shape : Arc (SPoly K)
  deriving DecidableEq, Repr

/-- `placed_item.rs:28-40` `PlacedItem::new`. -/
def PlacedItem.new (env : Env K) (addr : ℕ) (item : Item K) (dt : DTransf K) : PlacedItem K :=
  ⟨item.id, dt, item.hazardFilter, ⟨addr, item.shape.transform (Transf.fromDt env.tr dt)⟩⟩

/-- `hazard.rs:74-84` `From<&PlacedItem> for HazardEntity`. -/
def PlacedItem.entity (pi : PlacedItem K) : HazardEntity K := .placedItem pi.itemId pi.dt

/-- `layout.rs:18-27` `Layout`. -/
structure Layout (K : Type*) (n : ℕ) where
  id : ℕ
  bin : Bin K n
  placed : SlotMap (PlacedItem K)
  cde : CDE K n

/-- `layout.rs:155-166` `LayoutSnapshot`; a `CDESnapshot` is the list of dynamic
hazards (the grid part is not modelled here). -/
structure LayoutSnapshot (K : Type*) (n : ℕ) where
  id : ℕ
  bin : Bin K n
  placed : SlotMap (PlacedItem K)
  cdeSnapshot : List (Hazard K)
  usage : K

namespace Layout

variable {n : ℕ}

/-- `layout.rs:30-38` `Layout::new`. -/
def new (id : ℕ) (bin : Bin K n) : Layout K n := ⟨id, bin, .empty, bin.baseCde⟩

/-- `layout.rs:126-135` `usage`. -/
def usage (l : Layout K n) : K := fsum (l.placed.values.map (·.shape.val.area)) / l.bin.area

/-- `layout.rs:57-65` `create_snapshot`. -/
def createSnapshot (l : Layout K n) : Option (Layout K n × LayoutSnapshot K n) :=
  l.cde.createSnapshot.map fun c => ({ l with cde := c.1 }, ⟨l.id, l.bin, l.placed, c.2, l.usage⟩)

/-- `layout.rs:67-75` `restore`. -/
def restore (env : Env K) (l : Layout K n) (s : LayoutSnapshot K n) : Option (Layout K n) :=
  if l.id ≠ s.id then none
  else (l.cde.restore env.f env.o s.cdeSnapshot).map fun c => { l with placed := s.placed, cde := c }

/-- `layout.rs:40-44` `from_snapshot`. -/
def fromSnapshot (env : Env K) (s : LayoutSnapshot K n) : Option (Layout K n) := (Layout.new s.id s.bin).restore env s

/-- `layout.rs:46-55` `change_bin`. -/
def changeBin (env : Env K) (l : Layout K n) (bin : Bin K n) : Option (Layout K n) :=
  (l.placed.values.foldlM (fun (c : CDE K n) pi => c.register env.f env.o (Hazard.new pi.entity pi.shape)) bin.baseCde).map fun c =>
    { l with bin := bin, cde := c }

/-- `layout.rs:77-79` `clone_with_id`. -/
def cloneWithId (l : Layout K n) (id : ℕ) : Layout K n := { l with id := id }

/-- `layout.rs:81-91` `place_item`. -/
def placeItem (env : Env K) (addr : ℕ) (l : Layout K n) (item : Item K) (dt : DTransf K) : Option (SlotKey × Layout K n) :=
  let pi := PlacedItem.new env addr item dt
  let ins := l.placed.insert pi
  (l.cde.register env.f env.o (Hazard.new pi.entity pi.shape)).map fun c => (ins.1, { l with placed := ins.2, cde := c })

/-- `layout.rs:93-106` `remove_item`. -/
def removeItem (env : Env K) (l : Layout K n) (key : SlotKey) (commitInstant : Bool) : Option (PlacedItem K × Layout K n) :=
  match l.placed.remove key with
  | none => none
  | some (pi, m) => (l.cde.deregister env.o pi.entity commitInstant).map fun c => (pi, { l with placed := m, cde := c })

/-- `layout.rs:109-111` `is_empty`. -/
def isEmpty (l : Layout K n) : Bool := l.placed.values.isEmpty

/-- `layout.rs:117-122` `hazard_to_p_item_key`. -/
def hazardToKey (l : Layout K n) (e : HazardEntity K) : Option SlotKey :=
  (l.placed.toList.find? fun kv => decide (kv.2.entity = e)).map (·.1)

end Layout

end Jagua
