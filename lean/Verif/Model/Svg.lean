import Verif.Model.Parser
import Verif.Model.HPG

/-!
# Drawing layouts

Model of `lbf/src/io/{svg_util,svg_export,layout_to_svg}.rs`. An SVG document is modelled by what it draws: the outlines with
their colors, the definitions of the items, their uses with the transformations, and the optional groups. Titles, widths and
styles of lines and opacities are left out. Functions return `none` where the code would panic.
-/

namespace Jagua

/-! ## Colors -/

/-- `svg_util.rs:109-109` `Color`: three numbers of type `u8` -/
structure Color where
  r : Fin 256
  g : Fin 256
  b : Fin 256
  deriving DecidableEq, Repr

namespace Color

/-- one of the digits of `{:02X}` -/
def hexDigit (d : ℕ) : Char := if d < 10 then Char.ofNat (48 + d) else Char.ofNat (55 + d)

/-- `{:02X}` of a `u8` -/
def showByte (v : Fin 256) : List Char := [hexDigit (v / 16), hexDigit (v % 16)]

/-- `svg_util.rs:110-114` `Display for Color`, which is also what `Serialize` writes (lines 134-141) -/
def «show» (c : Color) : List Char := '#' :: (showByte c.r ++ showByte c.g ++ showByte c.b)

/-- `char::to_digit(16)` -/
def hexVal (c : Char) : Option ℕ :=
  if '0' ≤ c ∧ c ≤ '9' then some (c.toNat - 48)
  else if 'A' ≤ c ∧ c ≤ 'F' then some (c.toNat - 55)
  else if 'a' ≤ c ∧ c ≤ 'f' then some (c.toNat - 87)
  else none

/-- `u8::from_str_radix(_, 16).unwrap()` for a string of two characters; a plus sign in front is allowed. -/
def parseByte (c d : Char) : Option (Fin 256) :=
  if c = '+' then (hexVal d).map fun b => Fin.ofNat 256 b
  else (hexVal c).bind fun a => (hexVal d).map fun b => Fin.ofNat 256 (16 * a + b)

/-- `svg_util.rs:116-126` `From<String> for Color`, which is also how it is deserialized (lines 143-152). The string is a list
of ASCII characters; what comes after the sixth digit is ignored, a shorter string panics. -/
def parse (s : List Char) : Option Color :=
  let s := if s.head? = some '#' then s.tail else s
  match s with
  | a :: b :: c :: d :: e :: f :: _ => (parseByte a b).bind fun r => (parseByte c d).bind fun g => (parseByte e f).map fun b => ⟨r, g, b⟩
  | _ => none

/-- `(r_1 as fsize * 0.5 + r_2 as fsize * 0.5) as u8` -/
def mean (a b : Fin 256) : Fin 256 := ⟨(a + b) / 2, by omega⟩

/-- `svg_util.rs:95-105` `blend_colors` -/
def blend (a b : Color) : Color := ⟨mean a.r b.r, mean a.g b.g, mean a.b b.b⟩

/-- `svg_util.rs:86-93` `change_brightness` with the fraction `0.5`, the only one that is used -/
def darker (a : Color) : Color := ⟨mean a.r 0, mean a.g 0, mean a.b 0⟩

end Color

/-- `svg_util.rs:26-33` `SvgLayoutTheme`; the array of colors of qualities is a list of length `N_QUALITIES`. -/
structure SvgTheme where
  binFill : Color
  itemFill : Color
  holeFill : Color
  qzFill : List Color

/-- `svg_util.rs:9-24` `SvgDrawOptions` -/
structure SvgOptions where
  theme : SvgTheme
  quadtree : Bool
  hazProxGrid : Bool
  surrogate : Bool

variable {K : Type*} [Arith K] [LinearOrder K] {n : ℕ}

/-! ## What is drawn -/

/-- a `path` element with the data of `svg_export.rs:12-18` (`M p0 L p1 ... z`) -/
structure SvgPath (K : Type*) where
  points : List (Point K)
  fill : Color
  stroke : Option Color := none
  deriving DecidableEq, Repr

/-- the value `translate({tx} {ty}), rotate({r})` of an attribute `transform` -/
structure SvgTransform (K : Type*) where
  tx : K
  ty : K
  degrees : K
  deriving DecidableEq, Repr

/-- a `use` element: a reference to the definition of an item (or its surrogate) -/
structure SvgUse (K : Type*) where
  href : ℕ
  transform : SvgTransform K
  deriving DecidableEq, Repr

/-- the definition of an item, with `id="item_{id}"` -/
structure SvgItem (K : Type*) where
  id : ℕ
  path : SvgPath K
  deriving DecidableEq, Repr

/-- how a pole is drawn, `layout_to_svg.rs:132-168` -/
inductive PoleStyle
  | poi
  | ff
  | noFf
  deriving DecidableEq, Repr

/-- the definition of a surrogate, with `id="surrogate_{id}"` -/
structure SvgSurrogate (K : Type*) where
  id : ℕ
  poles : List (Circle K × PoleStyle)
  piers : List (Edge K)
  deriving DecidableEq, Repr

/-- the group of quality zones: the quality in the title and the outline -/
structure SvgZone (K : Type*) where
  quality : ℕ
  path : SvgPath K
  deriving DecidableEq, Repr

/-- `svg_export.rs:20-28`: the three paths of the quadtree, each the outlines of some nodes -/
structure SvgTree (K : Type*) where
  entire : List (List (Point K))
  part : List (List (Point K))
  free : List (List (Point K))
  deriving DecidableEq, Repr

/-- the document -/
structure Svg (K : Type*) where
  /-- `viewBox`: left, top, width, height -/
  viewBox : K × K × K × K
  binId : ℕ
  outer : SvgPath K
  holes : List (SvgPath K)
  zones : List (SvgZone K)
  items : List (SvgItem K)
  uses : List (SvgUse K)
  /-- the definitions and the uses of the group `surrogates` -/
  surrogates : Option (List (SvgSurrogate K) × List (SvgUse K))
  quadtree : Option (SvgTransform K × SvgTree K)
  /-- center, hazard proximity, and whether it is drawn in red -/
  hazProxGrid : Option (SvgTransform K × List (Point K × K × Bool))

/-- What drawing gets from outside: that of the parser and the conversion of radians to degrees. -/
structure SvgEnv (K : Type*) extends PEnv K where
  toDegrees : K → K

/-! ## The quadtree -/

/-- `svg_export.rs:54-60`: the outline of a node -/
def AARect.path (r : AARect K) : List (Point K) := [⟨r.xMin, r.yMin⟩, ⟨r.xMax, r.yMin⟩, ⟨r.xMax, r.yMax⟩, ⟨r.xMin, r.yMax⟩]

/-- `svg_export.rs:30-74` `qt_node_data` -/
def QTNode.draw {n : ℕ} (irr : List (HazardEntity K)) : QTNode K n → SvgTree K → Option (SvgTree K)
  | leaf b v, d => match v.strongest irr with
    | none => none
    | some none => some { d with free := d.free ++ [b.path] }
    | some (some s) => match s.presence with
      | .entire => some { d with entire := d.entire ++ [b.path] }
      | .partly _ => some { d with part := d.part ++ [b.path] }
      | .none => none
  | node b v cs, d => match v.strongest irr with
    | none => none
    | some none => some { d with free := d.free ++ [b.path] }
    | some (some _) => QTNode.chain4 (fun i => (cs i).draw irr) d

/-! ## Layouts -/

/-- `layout_to_svg.rs:298-305` `transform_to_svg` -/
def SvgEnv.transformToSvg (env : SvgEnv K) (t : Transf K) : SvgTransform K :=
  let d := t.decompose env.tr
  ⟨d.tx, d.ty, env.toDegrees d.rotation⟩

/-- `layout_to_svg.rs:73-100`: the zones, those of the highest quality first; `none` is an index out of range. -/
def drawZones (theme : SvgTheme) (b : Bin K n) : Option (List (SvgZone K)) :=
  ((b.qualityZones.reverse.filterMap id).mapM fun (qz : QualityZone K) => (theme.qzFill[qz.quality]?).map fun color =>
    qz.zones.map fun s => (⟨qz.quality, ⟨s.val.points, color, some color.darker⟩⟩ : SvgZone K)).map List.flatten

/-- `layout_to_svg.rs:107-128`: the definition of an item; `none` is an index out of range. -/
def drawItem (env : SvgEnv K) (theme : SvgTheme) (item : Item K) : Option (SvgItem K) :=
  let item := pretransformItem env.toPEnv item item.pretransform.inverse
  (match item.baseQuality with
  | none => some theme.itemFill
  | some q => (theme.qzFill[q]?).map theme.itemFill.blend).map fun color =>
  ⟨item.id, ⟨item.shape.points, color, none⟩⟩

/-- `layout_to_svg.rs:130-177`: the definition of a surrogate; `none` is a missing surrogate or one without poles. -/
def drawSurrogate (env : SvgEnv K) (item : Item K) : Option (SvgSurrogate K) :=
  let item := pretransformItem env.toPEnv item item.pretransform.inverse
  item.shape.surrogate.bind fun s => s.poles.head?.map fun poi =>
  ⟨item.id, s.poles.flatMap fun pole => (if pole = poi then [(pole, .poi)] else []) ++ [(pole, if s.ffPoles.contains pole then .ff else .noFf)],
    s.piers⟩

/-- `layout_to_svg.rs:182-207`: the use of an item; `none` is an index out of range. -/
def drawPlaced (env : SvgEnv K) (items : List (Item K × ℕ)) (b : Bin K n) (pi : PlacedItem K) : Option (SvgUse K) :=
  (items[pi.itemId]?).map fun item =>
  ⟨pi.itemId, env.transformToSvg (internalToAbsolute env.tr pi.dt item.1.pretransform b.pretransform)⟩

/-- `layout_to_svg.rs:255-280`: the cells of the grid. `hpg` is the grid of the engine of the layout; `none` is the `unwrap` of a
missing or dirty grid. -/
def drawGrid (hpg : Option (HPG K)) : Option (List (Point K × K × Bool)) :=
  hpg.bind fun g => if g.isDirty then none else
  (g.grid.cells.filterMap id).mapM fun (c : HPGCell K) => (c.hazardProximity none).map fun prox => (c.centroid, prox, decide (prox = 0))

/-- an optional group -/
def drawIf {α : Type*} (b : Bool) (x : Option α) : Option (Option α) := if b then x.map some else some none

/-- `layout_to_svg.rs:23-296` `layout_to_svg`. `addr` gives the addresses of the shapes of the bin that is built for drawing. The
engine of that bin is built with its quadtree but without a grid. -/
def layoutToSvg (env : SvgEnv K) (opts : SvgOptions) (addr : ℕ → ℕ → ℕ) (inst : Instance K n) (hpg : Option (HPG K)) (l : Layout K n) :
    Option (Svg K) :=
  let inv := l.bin.pretransform.inverse
  (pretransformBin env.toEnv addr l.bin inv).bind fun bin =>
  let vbox := bin.outer.val.bbox.scale (105 / 100)
  (drawZones opts.theme bin).bind fun zones =>
  (inst.items.mapM fun (x : Item K × ℕ) => drawItem env opts.theme x.1).bind fun items =>
  (drawIf opts.surrogate (inst.items.mapM fun (x : Item K × ℕ) => drawSurrogate env x.1)).bind fun surrogates =>
  (l.placed.values.mapM (drawPlaced env inst.items l.bin)).bind fun uses =>
  (drawIf opts.quadtree (l.cde.tree.draw [] ⟨[], [], []⟩)).bind fun tree =>
  (drawIf opts.hazProxGrid (drawGrid hpg)).map fun grid =>
  { viewBox := (vbox.xMin, vbox.yMin, vbox.width, vbox.height)
    binId := bin.id
    outer := ⟨bin.outer.val.points, opts.theme.binFill, none⟩
    holes := bin.holes.map fun h => ⟨h.val.points, opts.theme.holeFill, none⟩
    zones := zones
    items := items
    uses := uses
    surrogates := surrogates.map fun s => (s, uses)
    quadtree := tree.map fun d => (env.transformToSvg inv, d)
    hazProxGrid := grid.map fun d => (env.transformToSvg inv, d) }

/-- `layout_to_svg.rs:14-21` `s_layout_to_svg` -/
def snapshotToSvg (env : SvgEnv K) (opts : SvgOptions) (addr : ℕ → ℕ → ℕ) (inst : Instance K n) (hpg : Option (HPG K)) (s : LayoutSnapshot K n) :
    Option (Svg K) :=
  (Layout.fromSnapshot env.toEnv s).bind (layoutToSvg env opts addr inst hpg)

end Jagua
