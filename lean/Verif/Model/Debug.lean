import Verif.Model.Problem

/-!
# Debug builds

The `debug_assert!`s of the code, and the operations as a debug build runs them:
each operation makes its checks where the code makes them and returns `none`
(panics) if one fails. Apart from the checks, the definitions repeat those of the
other model files. (`util/assertions.rs` holds the larger checks.)

The checks of the hazard proximity grid are in `Model/DebugGrid.lean`. Left out: the
checks of circles and surrogates at their construction (`circle.rs:22, 27`,
`sp_surrogate.rs:99-100`), and the numbers of rays for piers, which differ between
debug and release builds (`piers.rs:15-17`).
-/

namespace Jagua

variable {K : Type*} [Arith K] [LinearOrder K] {n : ℕ}

/-- `debug_assert!(c)` followed by `a`. -/
def assertThen {α : Type*} (c : Bool) (a : Option α) : Option α := if c then a else none

/-! ## The hazard list of a node -/

namespace QTHazardVec

/-- `matches!(entity, HazardEntity::PlacedItem { .. })`, `qt_hazard_vec.rs:30, 51`. -/
def isPlacedItem : HazardEntity K → Bool
  | .placedItem _ _ => true
  | _ => false

/-- `qt_hazard_vec.rs:25-44` `add` with the check of lines 26-33. -/
def addDbg (o : SearchOracle K) (v : QTHazardVec K) (h : QTHazard K) : Option (QTHazardVec K) :=
  assertThen ((v.hazards.filter fun x => x.entity = h.entity && isPlacedItem h.entity).length = 0) (some (v.add o h))

/-- `qt_hazard_vec.rs:46-65` `remove` with the check of lines 47-54. -/
def removeDbg (v : QTHazardVec K) (e : HazardEntity K) : Option (QTHazardVec K × Option (QTHazard K)) :=
  assertThen ((v.hazards.filter fun x => x.entity = e && isPlacedItem x.entity).length ≤ 1) (v.remove e)

/-- `windows(2).all(..)` of `qt_hazard_vec.rs:75-79`: no element is weaker than
its successor. -/
def windowsSorted : List (QTHazard K) → Bool
  | a :: b :: l => decide (b.strength ≤ a.strength) && windowsSorted (b :: l)
  | _ => true

/-- `qt_hazard_vec.rs:70-91` `strongest` with the checks of lines 71-79. -/
def strongestDbg (v : QTHazardVec K) (irrelevant : List (HazardEntity K)) : Option (Option (QTHazard K)) :=
  assertThen ((v.hazards.filter fun h => h.active).length = v.nActive)
    (assertThen (windowsSorted v.hazards) (v.strongest irrelevant))

/-- `qt_hazard_vec.rs:100-111` `activate_hazard` with the check of line 104. -/
def activateDbg (o : SearchOracle K) (v : QTHazardVec K) (e : HazardEntity K) : Option (QTHazardVec K × Bool) :=
  match v.hazards.find? (fun h => h.entity = e) with
  | none => some (v, false)
  | some h => assertThen (!h.active)
      ((addDbg o ⟨v.hazards.eraseP (fun h => h.entity = e), v.nActive⟩ { h with active := true }).map fun v => (v, true))

/-- `qt_hazard_vec.rs:113-125` `deactivate_hazard` with the check of line 117. -/
def deactivateDbg (o : SearchOracle K) (v : QTHazardVec K) (e : HazardEntity K) : Option (QTHazardVec K × Bool) :=
  match v.hazards.find? (fun h => h.entity = e) with
  | none => some (v, false)
  | some h => assertThen h.active (match subOrPanic v.nActive 1 with
    | none => none
    | some n => (addDbg o ⟨v.hazards.eraseP (fun h => h.entity = e), n⟩ { h with active := false }).map fun v => (v, true))

end QTHazardVec

/-! ## The quadtree -/

/-- The number of corners of `b` that are corners of `a`, `assertions.rs:450-463`. -/
def sharedCorners (a b : AARect K) : ℕ := (b.corners.filter fun c => (a.corners.find? fun q => q = c).isSome).length

/-- `assertions.rs:441-466` `quadrants_have_valid_layout`. -/
def quadrantsValidLayout (quads : Fin 4 → AARect K) : Bool :=
  [0, 1, 2, 3].all fun i : Fin 4 =>
    decide (sharedCorners (quads i) (quads (AARect.quadrantNeighborLayout i).1) = 2) &&
    decide (sharedCorners (quads i) (quads (AARect.quadrantNeighborLayout i).2) = 2)

/-- `qt_hazard.rs:48-144` `constrict` with the check of line 49. -/
def QTHazard.constrictDbg (f : Fpa K) (h : QTHazard K) (quads : Fin 4 → AARect K) : Option (Fin 4 → Option (QTHazard K)) :=
  assertThen (quadrantsValidLayout quads) (h.constrict f quads)

namespace QTNode

/-- `qt_node.rs:35-46` `register_to_children`. -/
def registerToChildrenDbg {n : ℕ} (f : Fpa K) (reg : QTNode K n → QTHazard K → Option (QTNode K n))
    (children : Fin 4 → QTNode K n) (h : QTHazard K) : Option (Fin 4 → QTNode K n) :=
  match h.constrictDbg f (fun i => (children i).bbox) with
  | none => none
  | some cs => seq4 fun i => match cs i with
    | none => some (children i)
    | some c => reg (children i) c

/-- `qt_node.rs:34-62` `register_hazard` and `generate_children` (102-108). -/
def registerDbg (f : Fpa K) (o : SearchOracle K) : {n : ℕ} → QTNode K n → QTHazard K → Option (QTNode K n)
  | 0, leaf b v, h => (v.addDbg o h).map fun v => leaf b v
  | _ + 1, leaf b v, h =>
    if h.presence.isPartial then
      match (v.hazards.foldlM (registerToChildrenDbg f (registerDbg f o)) fun i => new _ (b.quadrants i)) with
      | none => none
      | some cs => match registerToChildrenDbg f (registerDbg f o) cs h with
        | none => none
        | some cs => (v.addDbg o h).map fun v => node b v cs
    else (v.addDbg o h).map fun v => leaf b v
  | _ + 1, node b v cs, h =>
    match registerToChildrenDbg f (registerDbg f o) cs h with
    | none => none
    | some cs => (v.addDbg o h).map fun v => node b v cs

/-- `qt_node.rs:64-80` `deregister_hazard`. -/
def deregisterDbg {n : ℕ} (e : HazardEntity K) : QTNode K n → Option (QTNode K n)
  | leaf b v => (v.removeDbg e).map fun r => leaf b r.1
  | node b v cs =>
    match v.removeDbg e with
    | none => none
    | some (v', none) => some (node b v' cs)
    | some (v', some _) =>
      if v'.hazards = [] ∨ v'.hasOnlyEntire then some (leaf b v')
      else (seq4 fun i => (cs i).deregisterDbg e).map fun cs' => node b v' cs'

/-- `qt_node.rs:82-89` `activate_hazard`. -/
def activateDbg {n : ℕ} (o : SearchOracle K) (e : HazardEntity K) : QTNode K n → Option (QTNode K n)
  | leaf b v => (v.activateDbg o e).map fun r => leaf b r.1
  | node b v cs =>
    match v.activateDbg o e with
    | none => none
    | some (v', false) => some (node b v' cs)
    | some (v', true) => (seq4 fun i => (cs i).activateDbg o e).map fun cs' => node b v' cs'

/-- `qt_node.rs:91-100` `deactivate_hazard`. -/
def deactivateDbg {n : ℕ} (o : SearchOracle K) (e : HazardEntity K) : QTNode K n → Option (QTNode K n)
  | leaf b v => (v.deactivateDbg o e).map fun r => leaf b r.1
  | node b v cs =>
    match v.deactivateDbg o e with
    | none => none
    | some (v', false) => some (node b v' cs)
    | some (v', true) => (seq4 fun i => (cs i).deactivateDbg o e).map fun cs' => node b v' cs'

/-- `qt_node.rs:129-175` `collides`. -/
def collidesDbg {n : ℕ} (q : Queryable K) (irr : List (HazardEntity K)) : QTNode K n → Option (Option (HazardEntity K))
  | leaf b v => match v.strongestDbg irr with
    | none => none
    | some none => some none
    | some (some s) =>
      if q.rect b then match s.presence with
        | .none => some none
        | .entire => some (some s.entity)
        | .partly _ => match v.activeHazards with
          | none => none
          | some hs => findPartial q irr hs
      else some none
  | node b v cs => match v.strongestDbg irr with
    | none => none
    | some none => some none
    | some (some s) =>
      if q.rect b then match s.presence with
        | .none => some none
        | .entire => some (some s.entity)
        | .partly _ => firstSome4 fun i => (cs i).collidesDbg q irr
      else some none

/-- `qt_node.rs:179-219` `collect_collisions`. -/
def collectDbg {n : ℕ} (q : Queryable K) : QTNode K n → List (HazardEntity K) → Option (List (HazardEntity K))
  | leaf b v, det => match v.strongestDbg det with
    | none => none
    | some none => some det
    | some (some s) =>
      if q.rect b then match s.presence with
        | .none => some det
        | .entire => some (det ++ [s.entity])
        | .partly _ => match v.activeHazards with
          | none => none
          | some hs => collectPartial q hs det
      else some det
  | node b v cs, det => match v.strongestDbg det with
    | none => none
    | some none => some det
    | some (some s) =>
      if q.rect b then match s.presence with
        | .none => some det
        | .entire => some (det ++ [s.entity])
        | .partly _ => chain4 (fun i => (cs i).collectDbg q) det
      else some det

/-- `qt_node.rs:225-252` `definitely_collides`. (`definitely_collides_with` calls
`get`, which makes no check.) -/
def definitelyCollidesDbg {n : ℕ} (qrect : AARect K → Bool) (irr : List (HazardEntity K)) : QTNode K n → Option Tribool
  | leaf b v => match v.strongestDbg irr with
    | none => none
    | some none => some .false
    | some (some s) => match qrect b, s.presence with
      | false, _ => some .false
      | _, .none => some .false
      | true, .entire => some .true
      | true, .partly _ => some .indeterminate
  | node b v cs => match v.strongestDbg irr with
    | none => none
    | some none => some .false
    | some (some s) => match qrect b, s.presence with
      | false, _ => some .false
      | _, .none => some .false
      | true, .entire => some .true
      | true, .partly _ => triboolLoop (fun i => (cs i).definitelyCollidesDbg qrect irr) [0, 1, 2, 3] .false

/-- `assertions.rs:184-212` `qt_node_contains_no_dangling_hazards`, for a node
whose parent has the hazards `parent`. -/
def noDanglingBelow {n : ℕ} (parent : List (HazardEntity K)) : QTNode K n → Bool
  | leaf _ v => v.hazards.all fun h => parent.contains h.entity
  | node _ v cs => (v.hazards.all fun h => parent.contains h.entity) &&
      [0, 1, 2, 3].all fun i : Fin 4 => (cs i).noDanglingBelow (v.hazards.map (·.entity))

/-- `assertions.rs:173-182` `qt_contains_no_dangling_hazards`. -/
def noDangling {n : ℕ} : QTNode K n → Bool
  | leaf _ _ => true
  | node _ v cs => [0, 1, 2, 3].all fun i : Fin 4 => (cs i).noDanglingBelow (v.hazards.map (·.entity))

/-- `assertions.rs:275-286`: the active hazards of a node as they are compared;
`[]` if taking the slice would panic, which `C02` excludes. -/
def activeKeys (v : QTHazardVec K) : List (HazardEntity K × Bool × ℕ) :=
  (v.activeHazards.getD []).map fun h => (h.entity, h.active, h.presence.rank)

/-- `assertions.rs:288-304`: both sets are the same. -/
def sameActive (v w : QTHazardVec K) : Bool :=
  ((activeKeys v).all fun x => (activeKeys w).contains x) && (activeKeys w).all fun x => (activeKeys v).contains x

/-- `assertions.rs:328-333, 344-349`: some active hazard is partially present. -/
def anyActivePartial (v : QTHazardVec K) : Bool := (v.activeHazards.getD []).any fun h => h.presence.isPartial

/-- `assertions.rs:306-317`: a node without a counterpart. It must not have active
hazards; then the recursion (lines 327-358) is not entered. -/
def noActive {n : ℕ} (nd : QTNode K n) : Bool := (activeKeys nd.hazards).isEmpty

/-- `assertions.rs:268-368` `qt_nodes_match`. -/
def nodesMatch : {n : ℕ} → QTNode K n → QTNode K n → Bool
  | _, leaf _ v, leaf _ w => sameActive v w
  | _, node _ v cs, leaf _ w => sameActive v w &&
      (!anyActivePartial v || [0, 1, 2, 3].all fun i : Fin 4 => (cs i).noActive)
  | _, leaf _ v, node _ w ds => sameActive v w &&
      (!anyActivePartial w || [0, 1, 2, 3].all fun i : Fin 4 => (ds i).noActive)
  | _, node _ v cs, node _ w ds => sameActive v w && [0, 1, 2, 3].all fun i : Fin 4 => nodesMatch (cs i) (ds i)

end QTNode

/-! ## The engine -/

namespace CDE

/-- `cd_engine.rs:47-72` `CDEngine::new`. -/
def newDbg (f : Fpa K) (o : SearchOracle K) (n : ℕ) (bbox : AARect K) (statics : List (Hazard K)) : Option (CDE K n) :=
  match statics.foldlM (fun t h => t.registerDbg f o (QTHazard.ofHazard h)) (QTNode.new n bbox) with
  | none => none
  | some t => some ⟨t, statics, [], bbox, []⟩

/-- `debug_assert!(qt_contains_no_dangling_hazards(self))`, `cd_engine.rs:104, 136`. -/
def checkDangling (c : CDE K n) : Option (CDE K n) := assertThen c.tree.noDangling (some c)

/-- `cd_engine.rs:75-105` `register_hazard` with the checks of lines 76-82 and 104. -/
def registerDbg (f : Fpa K) (o : SearchOracle K) (c : CDE K n) (h : Hazard K) : Option (CDE K n) :=
  assertThen (!c.dynamics.any fun x => x.entity = h.entity)
  ((match c.uncommitted.findIdx? (fun (u : Hazard K) => u.entity = h.entity) with
  | some i => match c.uncommitted[i]? with
    | none => none
    | some u => (c.tree.activateDbg o u.entity).map fun t => { c with
        uncommitted := swapRemove c.uncommitted i
        tree := t
        dynamics := c.dynamics ++ [u] }
  | none => match c.tree.registerDbg f o (QTHazard.ofHazard h) with
    | none => none
    | some t => some { c with tree := t, dynamics := c.dynamics ++ [h] }).bind checkDangling)

/-- `cd_engine.rs:117-137` `deregister_hazard` with the check of line 136. -/
def deregisterDbg (o : SearchOracle K) (c : CDE K n) (e : HazardEntity K) (commitInstant : Bool) : Option (CDE K n) :=
  (match c.dynamics.findIdx? (fun (h : Hazard K) => h.entity = e) with
  | none => none
  | some i => match c.dynamics[i]? with
    | none => none
    | some h =>
      if commitInstant then
        (c.tree.deregisterDbg e).map fun t => { c with tree := t, dynamics := swapRemove c.dynamics i }
      else
        (c.tree.deactivateDbg o e).map fun t =>
          { c with tree := t, dynamics := swapRemove c.dynamics i, uncommitted := c.uncommitted ++ [h] }).bind checkDangling

/-- `cd_engine.rs:211-218` `commit_deregisters`. -/
def commitDbg (c : CDE K n) : Option (CDE K n) :=
  (c.uncommitted.foldlM (fun (t : QTNode K n) h => t.deregisterDbg h.entity) c.tree).map fun t => { c with tree := t, uncommitted := [] }

/-- `cd_engine.rs:139-149` `create_snapshot`. -/
def createSnapshotDbg (c : CDE K n) : Option (CDE K n × List (Hazard K)) :=
  c.commitDbg.map fun c => (c, c.dynamics)

/-- `cd_engine.rs:170-178`. -/
def restoreRemoveDbg (c : CDE K n) (e : HazardEntity K) : Option (CDE K n) :=
  match c.dynamics.findIdx? (fun h => h.entity = e) with
  | none => none
  | some i => (c.tree.deregisterDbg e).map fun t => { c with tree := t, dynamics := swapRemove c.dynamics i }

/-- `cd_engine.rs:181-195`. -/
def restoreUncommittedDbg (o : SearchOracle K) (st : CDE K n × List (Hazard K)) (u : Hazard K) :
    Option (CDE K n × List (Hazard K)) :=
  match st.2.findIdx? (fun h => h.entity = u.entity) with
  | some i => (st.1.tree.activateDbg o u.entity).map fun t =>
      ({ st.1 with tree := t, dynamics := st.1.dynamics ++ [u] }, swapRemove st.2 i)
  | none => (st.1.tree.deregisterDbg u.entity).map fun t => ({ st.1 with tree := t }, st.2)

/-- `cd_engine.rs:197-200`. -/
def restoreAddDbg (f : Fpa K) (o : SearchOracle K) (c : CDE K n) (h : Hazard K) : Option (CDE K n) :=
  (c.tree.registerDbg f o (QTHazard.ofHazard h)).map fun t => { c with tree := t, dynamics := c.dynamics ++ [h] }

/-- `cd_engine.rs:152-207` `restore` with the checks of lines 159 (collecting into
an `IndexSet` drops duplicates) and 206. -/
def restoreDbg (f : Fpa K) (o : SearchOracle K) (c : CDE K n) (snap : List (Hazard K)) : Option (CDE K n) :=
  let rem := (c.dynamics.map (·.entity)).dedup
  let plan := restorePlan rem [] snap
  assertThen (rem.length = c.dynamics.length)
  ((plan.1.foldlM restoreRemoveDbg c).bind fun c1 =>
  (c1.uncommitted.foldlM (restoreUncommittedDbg o) ({ c1 with uncommitted := [] }, plan.2)).bind fun st =>
  (st.2.foldlM (restoreAddDbg f o) st.1).bind fun c2 =>
  assertThen (c2.dynamics.length = snap.length) (some c2))

/-- `quadtree.collides(..).is_some()` -/
def hitsDbg (c : CDE K n) (q : Queryable K) (irr : List (HazardEntity K)) : Option Bool :=
  (c.tree.collidesDbg q irr).map Option.isSome

/-- `cd_engine.rs:331-358` `surrogate_collides`. -/
def surrogateCollidesDbg (c : CDE K n) (poles : List (Circle K)) (piers : List (Edge K)) (irr : List (HazardEntity K)) :
    Option Bool :=
  anyM (fun q => c.hitsDbg q irr) (poles.map Circle.toQuery ++ piers.map Edge.toQuery)

/-- `cd_engine.rs:371-380` `edge_definitely_collides`. -/
def edgeDefinitelyCollidesDbg (c : CDE K n) (e : Edge K) (irr : List (HazardEntity K)) : Option Tribool :=
  if !c.bbox.collidesPoint e.start || !c.bbox.collidesPoint e.stop then some .true
  else c.tree.definitelyCollidesDbg e.collidesRect irr

/-- `cd_engine.rs:384-395` `circle_definitely_collides`. -/
def circleDefinitelyCollidesDbg (c : CDE K n) (ci : Circle K) (irr : List (HazardEntity K)) : Option Tribool :=
  if c.bbox.collidesPoint ci.center then c.tree.definitelyCollidesDbg ci.collidesRect irr
  else some .true

/-- `cd_engine.rs:397-405` `poly_collides_by_edge_intersection`. -/
def byEdgeIntersectionDbg (c : CDE K n) (shape : SPoly K) (irr : List (HazardEntity K)) : Option Bool :=
  anyM (fun e => c.hitsDbg e.toQuery irr) shape.edges

/-- `cd_engine.rs:311-324` `poly_collides`. (Testing for containment makes no check.) -/
def polyCollidesDbg (f : Fpa K) (c : CDE K n) (shape : SPoly K) (irr : List (HazardEntity K)) : Option Bool :=
  match c.bbox.relationTo shape.bbox with
  | .surrounding => match c.byEdgeIntersectionDbg shape irr with
    | none => none
    | some true => some true
    | some false => c.byContainment f shape irr
  | .disjoint | .enclosed | .intersecting => some true

/-- `cd_engine.rs:289-305` `surrogate_or_poly_collides`. -/
def surrogateOrPolyCollidesDbg (f : Fpa K) (c : CDE K n) (poles : List (Circle K)) (piers : List (Edge K))
    (shape : SPoly K) (irr : List (HazardEntity K)) : Option Bool :=
  match c.surrogateCollidesDbg poles piers irr with
  | none => none
  | some true => some true
  | some false => c.polyCollidesDbg f shape irr

/-- `cd_engine.rs:457-483` `hazards_within`. -/
def hazardsWithinDbg (c : CDE K n) (q : Queryable K) (irr det : List (HazardEntity K)) : Option (List (HazardEntity K)) :=
  match c.tree.collectDbg q (det ++ irr) with
  | none => none
  | some d =>
    let d := drain d det.length (det.length + irr.length)
    if !c.bbox.collidesPoint q.centroid && d.isEmpty then
      if !irr.contains .binExterior then some (d ++ [.binExterior]) else some d
    else some d

/-- `cd_engine.rs:487-513` `collect_poly_collisions`. -/
def collectPolyCollisionsDbg (f : Fpa K) (c : CDE K n) (shape : SPoly K) (irr det : List (HazardEntity K)) :
    Option (List (HazardEntity K)) :=
  (shape.edges.foldlM (fun d e => c.tree.collectDbg e.toQuery d) (det ++ irr)).bind fun d =>
  ((c.allHazards.filter (·.active)).foldlM (c.collectContained f shape) d).map fun d =>
  drain d det.length (det.length + irr.length)

/-- `cd_engine.rs:517-540` `collect_surrogate_collisions`. -/
def collectSurrogateCollisionsDbg (c : CDE K n) (poles : List (Circle K)) (piers : List (Edge K))
    (irr det : List (HazardEntity K)) : Option (List (HazardEntity K)) :=
  ((poles.map Circle.toQuery ++ piers.map Edge.toQuery).foldlM (fun d q => c.tree.collectDbg q d) (det ++ irr)).map fun d =>
  drain d det.length (det.length + irr.length)

end CDE

/-! ## Bins and layouts -/

/-- `bin.rs:37-85` `Bin::new`. -/
def Bin.newDbg (env : Env K) (n : ℕ) (id : ℕ) (outer : Arc (SPoly K)) (value : ℕ) (pretransform : Transf K) (holes : List (Arc (SPoly K)))
    (zones : List (QualityZone K)) : Option (Bin K n) :=
  if ¬ (zones.map (·.quality)).Nodup then none
  else if ¬ ∀ z ∈ zones, z.quality < nQualities then none
  else
    let table := zoneTable zones
    (CDE.newDbg env.f env.o n outer.val.bbox.inflateToSquare (generateBinHazards outer holes table)).map fun cde =>
      { id := id, outer := outer, value := value, pretransform := pretransform, holes := holes, qualityZones := table
        baseCde := cde, area := outer.val.area - fsum (holes.map (·.val.area)) }

/-- `bin.rs:88-97` `Bin::from_strip`. -/
def Bin.fromStripDbg (env : Env K) (n : ℕ) (addr : ℕ) (value : SPoly K → ℕ) (rect : AARect K) : Option (Bin K n) :=
  match SPoly.ofRect env.poi rect with
  | none => none
  | some poly => Bin.newDbg env n 0 ⟨addr, poly⟩ (value poly) (Transf.fromTranslation rect.xMin rect.yMin) [] []

namespace Layout

/-- `assertions.rs:370-388` `hazards_match`: the entities of the active hazards are
the same. -/
def hazardsMatch (a b : List (Hazard K)) : Bool :=
  let ea := (a.filter fun h => h.active).map (·.entity)
  let eb := (b.filter fun h => h.active).map (·.entity)
  (ea.all fun e => eb.contains e) && eb.all fun e => ea.contains e

/-- `assertions.rs:253-266` `layout_qt_matches_fresh_qt`; `none` if building the
fresh engine panics. -/
def matchesFresh (env : Env K) (l : Layout K n) : Option Bool :=
  (l.placed.values.foldlM (fun (c : CDE K n) pi => c.registerDbg env.f env.o (Hazard.new pi.entity pi.shape)) l.bin.baseCde).map
    fun c => l.cde.tree.nodesMatch c.tree && hazardsMatch l.cde.dynamics c.dynamics

/-- `debug_assert!(layout_qt_matches_fresh_qt(self))`. -/
def checkFresh (env : Env K) (l : Layout K n) : Option (Layout K n) :=
  (l.matchesFresh env).bind fun b => assertThen b (some l)

/-- `layout.rs:57-65` `create_snapshot`. -/
def createSnapshotDbg (l : Layout K n) : Option (Layout K n × LayoutSnapshot K n) :=
  l.cde.createSnapshotDbg.map fun c => ({ l with cde := c.1 }, ⟨l.id, l.bin, l.placed, c.2, l.usage⟩)

/-- `layout.rs:67-75` `restore` with the checks of lines 73 and 74. -/
def restoreDbg (env : Env K) (l : Layout K n) (s : LayoutSnapshot K n) : Option (Layout K n) :=
  if l.id ≠ s.id then none
  else (l.cde.restoreDbg env.f env.o s.cdeSnapshot).bind fun c =>
    (checkFresh env { l with placed := s.placed, cde := c }).bind fun l => assertThen (layoutsMatch l s) (some l)

/-- `layout.rs:40-44` `from_snapshot`. -/
def fromSnapshotDbg (env : Env K) (s : LayoutSnapshot K n) : Option (Layout K n) := (Layout.new s.id s.bin).restoreDbg env s

/-- `layout.rs:46-55` `change_bin`. -/
def changeBinDbg (env : Env K) (l : Layout K n) (bin : Bin K n) : Option (Layout K n) :=
  (l.placed.values.foldlM (fun (c : CDE K n) pi => c.registerDbg env.f env.o (Hazard.new pi.entity pi.shape)) bin.baseCde).map fun c =>
    { l with bin := bin, cde := c }

/-- `layout.rs:81-91` `place_item` with the check of line 88. -/
def placeItemDbg (env : Env K) (addr : ℕ) (l : Layout K n) (item : Item K) (dt : DTransf K) : Option (SlotKey × Layout K n) :=
  let pi := PlacedItem.new env addr item dt
  let ins := l.placed.insert pi
  (l.cde.registerDbg env.f env.o (Hazard.new pi.entity pi.shape)).bind fun c =>
    (checkFresh env { l with placed := ins.2, cde := c }).map fun l => (ins.1, l)

/-- `layout.rs:93-106` `remove_item` with the check of line 103. -/
def removeItemDbg (env : Env K) (l : Layout K n) (key : SlotKey) (commitInstant : Bool) : Option (PlacedItem K × Layout K n) :=
  match l.placed.remove key with
  | none => none
  | some (pi, m) => (l.cde.deregisterDbg env.o pi.entity commitInstant).bind fun c =>
    (checkFresh env { l with placed := m, cde := c }).map fun l => (pi, l)

end Layout

/-! ## Problems -/

namespace BPProblem

/-- `bin_packing.rs:115-138` `place_item`. -/
def placeItemDbg (env : Env K) (addr : ℕ) (p : BPProblem K n) (opt : PlacingOption K) :
    Option ((LayoutIndex × SlotKey) × BPProblem K n) :=
  (p.targetLayout opt.layoutIdx).bind fun r =>
  match r.2.layouts[r.1]?, r.2.inst.items[opt.itemId]? with
  | some l, some item =>
    (l.placeItemDbg env addr item.1 opt.dt).bind fun pl =>
    (BPProblem.registerItem { r.2 with layouts := r.2.layouts.set r.1 pl.2 } opt.itemId).map fun p =>
    ((.real r.1, pl.1), p.layoutHasChanged pl.2.id)
  | _, _ => none

/-- `bin_packing.rs:140-160` `remove_item`. -/
def removeItemDbg (env : Env K) (p : BPProblem K n) (idx : LayoutIndex) (key : SlotKey) (commitInstant : Bool) :
    Option (PlacingOption K × BPProblem K n) :=
  match idx with
  | .template _ => none
  | .real i => match p.layouts[i]? with
    | none => none
    | some l =>
      let p := p.layoutHasChanged l.id
      (l.removeItemDbg env key commitInstant).bind fun r =>
      let p := { p with layouts := p.layouts.set i r.2 }
      (if r.2.isEmpty then p.deregisterLayout (.real i) else some p).bind fun p =>
      (p.deregisterItem r.1.itemId).map fun p => (PlacingOption.ofPlaced (.real i) r.1, p)

/-- `bin_packing.rs:166-187`, the snapshot of one layout. -/
def snapshotLayoutDbg (unmodified : List ℕ) (old : Option (Solution K n)) (l : Layout K n) :
    Option (Layout K n × LayoutSnapshot K n) :=
  match old with
  | some o =>
    if unmodified.contains l.id then (o.snapshots.find? fun s => s.id = l.id).map fun s => (l, s)
    else l.createSnapshotDbg
  | none => l.createSnapshotDbg

/-- `debug_assert!(problem_matches_solution(self, solution))`. -/
def checkSolution {α : Type*} (ls : List (Layout K n)) (s : Solution K n) (a : α) : Option α :=
  (problemMatchesSolution ls s).bind fun b => assertThen b (some a)

/-- `bin_packing.rs:162-216` `create_solution` with the check of line 211. -/
def createSolutionDbg (p : BPProblem K n) (old : Option (Solution K n)) : Option (Solution K n × BPProblem K n) :=
  let p : BPProblem K n := { p with solutionCounter := p.solutionCounter + 1 }
  let placed := placedQtys p.inst.qtys p.missing
  if ∀ o, old = some o → p.refSolution = some o.id then
    (p.layouts.mapM (snapshotLayoutDbg p.unmodified old)).bind fun (rs : List (Layout K n × LayoutSnapshot K n)) =>
      let p : BPProblem K n := { p with layouts := rs.map (·.1) }
      let sol : Solution K n :=
        { id := p.solutionCounter, snapshots := rs.map (·.2), usage := problemUsage p.layouts, placed := placed
          target := p.inst.qtys, binQtys := p.binQtys }
      checkSolution p.layouts sol (sol, p.resetUnmodified sol.id)
  else none

/-- `bin_packing.rs:232-248`. -/
def restoreCommonDbg (env : Env K) (unmodified : List ℕ) (snaps : List (LayoutSnapshot K n)) (l : Layout K n) : Option (Layout K n) :=
  match snaps.find? fun s => s.id = l.id with
  | none => some l
  | some s => if unmodified.contains l.id then some l else l.restoreDbg env s

/-- `bin_packing.rs:257-277`. -/
def restoreMissingDbg (env : Env K) (present : List ℕ) (st : List (Layout K n) × List (Layout K n)) (s : LayoutSnapshot K n) :
    Option (List (Layout K n) × List (Layout K n)) :=
  if present.contains s.id then some st
  else match st.2.findIdx? fun l => l.id = s.id with
    | some i => match st.2[i]? with
      | none => none
      | some l => (l.restoreDbg env s).map fun l => (st.1 ++ [l], swapRemove st.2 i)
    | none => (Layout.fromSnapshotDbg env s).map fun l => (st.1 ++ [l], st.2)

/-- `bin_packing.rs:219-279`. -/
def restoreLayoutsDbg (env : Env K) (p : BPProblem K n) (sol : Solution K n) : Option (List (Layout K n)) :=
  if some sol.id ≠ p.refSolution then sol.snapshots.mapM (Layout.fromSnapshotDbg env)
  else
    (p.layouts.mapM (restoreCommonDbg env p.unmodified sol.snapshots)).bind fun ls =>
    let inSol := fun (l : Layout K n) => (sol.snapshots.find? fun s => s.id = l.id).isSome
    let present := (ls.filter inSol).map (·.id)
    let notIn := (ls.filter fun l => !inSol l).map (·.id)
    let ls := notIn.foldl (fun ls id => ls.filter fun (l : Layout K n) => l.id ≠ id) ls
    (sol.snapshots.foldlM (restoreMissingDbg env present) (ls, p.removed)).map fun (r : List (Layout K n) × List (Layout K n)) => r.1

/-- `bin_packing.rs:218-299` `restore_to_solution` with the check of line 298. -/
def restoreDbg (env : Env K) (p : BPProblem K n) (sol : Solution K n) : Option (BPProblem K n) :=
  (restoreLayoutsDbg env p sol).bind fun ls =>
  (missingOfSolution env.overflowChecks p.inst.qtys sol.placed p.missing).bind fun missing =>
  if p.binQtys.length ≠ sol.binQtys.length then none
  else checkSolution ls sol
    ({ p with layouts := ls, missing := missing, binQtys := sol.binQtys, removed := [] }.resetUnmodified sol.id)

end BPProblem

namespace SPProblem

/-- `strip_packing.rs:180-191` `place_item`. -/
def placeItemDbg (env : Env K) (addr : ℕ) (p : SPProblem K n) (opt : PlacingOption K) :
    Option ((LayoutIndex × SlotKey) × SPProblem K n) :=
  if opt.layoutIdx ≠ .real 0 then none
  else match p.inst.items[opt.itemId]? with
    | none => none
    | some item => (p.layout.placeItemDbg env addr item.1 opt.dt).bind fun pl =>
      (SPProblem.registerItem { p with layout := pl.2 } opt.itemId).map fun p => ((.real 0, pl.1), p)

/-- `strip_packing.rs:193-207` `remove_item`. -/
def removeItemDbg (env : Env K) (p : SPProblem K n) (idx : LayoutIndex) (key : SlotKey) (commitInstant : Bool) :
    Option (PlacingOption K × SPProblem K n) :=
  if idx ≠ .real 0 then none
  else (p.layout.removeItemDbg env key commitInstant).bind fun r =>
    (SPProblem.deregisterItem { p with layout := r.2 } r.1.itemId).map fun p => (PlacingOption.ofPlaced idx r.1, p)

/-- `strip_packing.rs:34-53` `SPProblem::new`. -/
def newDbg (env : StripEnv K) (n : ℕ) (addr : ℕ) (inst : SPInstance K) (width : K) : Option (SPProblem K n) :=
  match AARect.new true 0 0 width inst.stripHeight with
  | none => none
  | some rect => (Bin.fromStripDbg env.toEnv n addr env.stripValue rect).map fun b =>
    { inst := inst, layout := Layout.new 0 b, missing := inst.items.map fun (x : Item K × ℕ) => (x.2 : ℤ), layoutCounter := 0
      solutionCounter := 0 }

/-- `strip_packing.rs:114-143`: placing one item back in the resized strip. -/
def placeBackDbg (env : Env K) (p : SPProblem K n) (x : ℕ × ℕ × DTransf K) : Option (SPProblem K n) :=
  match p.inst.items[x.2.1]? with
  | none => none
  | some item =>
    match p.layout.cde.polyCollidesDbg env.f (item.1.shape.transform (Transf.fromDt env.tr x.2.2)) (ignoreList p.layout) with
    | none => none
    | some true => some p
    | some false => (p.placeItemDbg env x.1 ⟨.real 0, x.2.1, x.2.2⟩).map (·.2)

/-- `strip_packing.rs:93-144` `modify_strip`. -/
def modifyStripDbg (env : StripEnv K) (addr : ℕ) (addrs : ℕ → ℕ) (p : SPProblem K n) (rect : AARect K) : Option (SPProblem K n) :=
  let items := p.layout.placed.values.map fun pi => (pi.itemId, pi.dt)
  let p := { p with missing := p.inst.items.map fun (x : Item K × ℕ) => (x.2 : ℤ), layoutCounter := p.layoutCounter + 1 }
  (Bin.fromStripDbg env.toEnv n addr env.stripValue rect).bind fun b =>
  let p := { p with layout := Layout.new p.layoutCounter b }
  (items.zipIdx.map fun (x : (ℕ × DTransf K) × ℕ) => (addrs x.2, x.1)).foldlM (placeBackDbg env.toEnv) p

/-- `strip_packing.rs:56-61` `modify_strip_in_back`. -/
def modifyInBackDbg (env : StripEnv K) (addr : ℕ) (addrs : ℕ → ℕ) (p : SPProblem K n) (width : K) : Option (SPProblem K n) :=
  let b := p.layout.bin.outer.val.bbox
  (AARect.new true b.xMin b.yMin (b.xMin + width) b.yMax).bind (p.modifyStripDbg env addr addrs)

/-- `strip_packing.rs:64-69` `modify_strip_at_front`. -/
def modifyAtFrontDbg (env : StripEnv K) (addr : ℕ) (addrs : ℕ → ℕ) (p : SPProblem K n) (width : K) : Option (SPProblem K n) :=
  let b := p.layout.bin.outer.val.bbox
  (AARect.new true (b.xMax - width) b.yMin b.xMax b.yMax).bind (p.modifyStripDbg env addr addrs)

/-- `strip_packing.rs:72-89` `modify_strip_centered`. -/
def modifyCenteredDbg (env : StripEnv K) (addr : ℕ) (addrs : ℕ → ℕ) (p : SPProblem K n) (width : K) : Option (SPProblem K n) :=
  let range := (occupiedRange p.layout).getD (0, 0)
  let added := width - occupiedWidth p.layout
  let b := p.layout.bin.outer.val.bbox
  (AARect.new true (range.1 - added / 2) b.yMin (range.2 + added / 2) b.yMax).bind (p.modifyStripDbg env addr addrs)

/-- `strip_packing.rs:147-158` `fit_strip`. -/
def fitStripDbg (env : StripEnv K) (addr : ℕ) (addrs : ℕ → ℕ) (p : SPProblem K n) : Option (SPProblem K n) :=
  (p.modifyCenteredDbg env addr addrs (occupiedWidth p.layout * (1 + env.tolerance))).bind fun p' =>
  if p.layout.placed.len = p'.layout.placed.len then some p' else none

/-- `strip_packing.rs:209-233` `create_solution` with the check of line 230. -/
def createSolutionDbg (p : SPProblem K n) : Option (Solution K n × SPProblem K n) :=
  let p := { p with solutionCounter := p.solutionCounter + 1 }
  p.layout.createSnapshotDbg.bind fun r =>
    let p := { p with layout := r.1 }
    let sol : Solution K n := { id := p.solutionCounter, snapshots := [r.2], usage := problemUsage [p.layout]
                                placed := placedQtys p.inst.qtys p.missing, target := p.inst.qtys, binQtys := [0] }
    BPProblem.checkSolution [p.layout] sol (sol, p)

/-- `strip_packing.rs:235-254` `restore_to_solution` with the checks of lines 236
and 253. -/
def restoreDbg (env : Env K) (p : SPProblem K n) (sol : Solution K n) : Option (SPProblem K n) :=
  assertThen (sol.snapshots.length = 1)
  (match sol.snapshots with
  | [] => none
  | s :: _ =>
    (if p.layout.id = s.id then p.layout.restoreDbg env s else Layout.fromSnapshotDbg env s).bind fun l =>
    (missingOfSolution env.overflowChecks p.inst.qtys sol.placed p.missing).bind fun m =>
    BPProblem.checkSolution [l] sol { p with layout := l, missing := m })

end SPProblem

end Jagua
