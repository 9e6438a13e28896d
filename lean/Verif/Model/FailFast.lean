import Verif.Model.HPG
import Verif.Model.Transformation
import Mathlib.Data.List.Sort

/-!
# Convex hulls, bounding circles, poles and piers

Model of `geometry/convex_hull.rs`, `geometry/fail_fast/{poi,piers,sp_surrogate}.rs`, of
`Circle::bounding_circle` and of the parts of `simple_polygon.rs` that use them.
-/

namespace Jagua

variable {K : Type*} [Arith K] [LinearOrder K]

/-! ## Convex hulls -/

/-- `convex_hull.rs:65-67` `cross` -/
def hullCross (a b c : Point K) : K := (b.x - a.x) * (c.y - a.y) - (b.y - a.y) * (c.x - a.x)

/-- `convex_hull.rs:56-63` `grow_convex_hull`; the hull is stored with its last point
first. -/
def growHull : List (Point K) → Point K → List (Point K)
  | b :: a :: h, np => if hullCross a b np ≤ 0 then growHull (a :: h) np else np :: b :: a :: h
  | h, np => np :: h

/-- `convex_hull.rs:40-46`: one of the two chains, last point first. -/
def hullChain (points : List (Point K)) : List (Point K) := points.foldl growHull []

/-- `convex_hull.rs:35-38`: a stable sort by the x-coordinate only. -/
def sortByX (points : List (Point K)) : List (Point K) := points.insertionSort fun a b => a.x ≤ b.x

/-- `convex_hull.rs:31-54` `convex_hull_from_points` -/
def convexHull (points : List (Point K)) : List (Point K) :=
  let sorted := sortByX points
  (hullChain sorted).tail.reverse ++ (hullChain sorted.reverse).tail.reverse

/-- `convex_hull.rs:6-13` `convex_hull_indices`; `none` is the `unwrap`. -/
def convexHullIndices (points : List (Point K)) : Option (List ℕ) :=
  (convexHull points).mapM fun (p : Point K) => points.findIdx? fun x => x = p

/-- `simple_polygon.rs:102-115` `calculate_diameter`, squared; `none` is the `expect`. -/
def sqDiameter (points : List (Point K)) : Option K :=
  let ch := convexHull points
  match (ch.tails.flatMap fun (l : List (Point K)) => match l with
    | [] => []
    | p :: ps => ps.map p.sqDistance) with
  | [] => none
  | d :: ds => some (ds.foldl max d)

/-! ## Bounding circles -/

/-- `edge.rs:147-149` `diameter`: the length. -/
def Edge.diameter (env : HEnv K) (e : Edge K) : K := env.sqrt (e.start.sqDistance e.stop)

/-- `edge.rs:26-33` `extend_at_front` -/
def Edge.extendAtFront (env : HEnv K) (e : Edge K) (d : K) : Edge K :=
  ⟨⟨e.start.x - (e.stop.x - e.start.x) * (d / e.diameter env), e.start.y - (e.stop.y - e.start.y) * (d / e.diameter env)⟩, e.stop⟩

/-- `edge.rs:35-42` `extend_at_back` -/
def Edge.extendAtBack (env : HEnv K) (e : Edge K) (d : K) : Edge K :=
  ⟨e.start, ⟨e.stop.x + (e.stop.x - e.start.x) * (d / e.diameter env), e.stop.y + (e.stop.y - e.start.y) * (d / e.diameter env)⟩⟩

/-- `circle.rs:42-54`: one round of the loop; `none` is the panic of `Edge::new`. -/
def Circle.boundStep (env : HEnv K) (b c : Circle K) : Option (Circle K) :=
  if b.radius < env.sqrt (b.center.sqDistance c.center) + c.radius then
    (Edge.mk? b.center c.center).map fun e =>
      let d := (e.extendAtFront env b.radius).extendAtBack env c.radius
      ⟨d.centroid, d.diameter env / 2⟩
  else some b

/-- `circle.rs:37-56` `bounding_circle`; `none` is a panic. -/
def Circle.boundingCircle (env : HEnv K) : List (Circle K) → Option (Circle K)
  | [] => none
  | c :: cs => cs.foldlM (Circle.boundStep env) c

/-! ## Poles -/

/-- `poi.rs:92-97` `POINode` -/
structure POINode (K : Type*) where
  level : ℕ
  bbox : AARect K
  radius : K
  distance : K
  deriving DecidableEq, Repr

namespace POINode

/-- `poi.rs:106-122`: signed distance of a point to the edges and the borders of the
poles, negative outside of the shape and inside of poles. -/
def signedDistance (env : HEnv K) (poly : SPoly K) (poles : List (Circle K)) (p : Point K) : K :=
  let d := (poly.edges.map (fun e => env.sqrt (e.sqDistance p)) ++ poles.map (fun c => (c.distanceFromBorder env p).2)).foldl min env.fmax
  if poly.collidesPoint env.f p && poles.all (fun c => !c.collidesPoint p) then d else -d

/-- `poi.rs:100-130` `POINode::new` -/
def new (env : HEnv K) (bbox : AARect K) (level : ℕ) (poly : SPoly K) (poles : List (Circle K)) : POINode K :=
  ⟨level, bbox, bbox.diameter env / 2, signedDistance env poly poles bbox.centroid⟩

/-- `poi.rs:132-141` `split`; no children is `None`. -/
def split (env : HEnv K) (n : POINode K) (poly : SPoly K) (poles : List (Circle K)) : List (POINode K) :=
  match n.level with
  | 0 => []
  | l + 1 => [0, 1, 2, 3].map fun (i : Fin 4) => new env (n.bbox.quadrants i) l poly poles

/-- `poi.rs:143-145` `distance_upperbound` -/
def upperBound (n : POINode K) : K := n.radius + n.distance

end POINode

/-- `poi.rs:90` `MAX_POI_TREE_DEPTH` -/
def maxPoiTreeDepth : ℕ := 10

/-- `poi.rs:19` -/
def bestRadius : Option (Circle K) → K
  | none => 0
  | some c => c.radius

/-- `poi.rs:23-25`: update of the best circle. -/
def poiBest (n : POINode K) (best : Option (Circle K)) : Option (Circle K) :=
  if bestRadius best < n.distance then some ⟨n.bbox.centroid, n.distance⟩ else best

/-- `poi.rs:21-33`: the loop over the queue. The first argument bounds the number of
rounds; `none` if it is exceeded. -/
def poiLoop (env : HEnv K) (poly : SPoly K) (poles : List (Circle K)) : ℕ → List (POINode K) → Option (Circle K) → Option (Option (Circle K))
  | _, [], best => some best
  | 0, _ :: _, _ => none
  | k + 1, n :: queue, best =>
    let best := poiBest n best
    poiLoop env poly poles k (if bestRadius best < n.upperBound then queue ++ n.split env poly poles else queue) best

/-- number of nodes of a full tree -/
def poiTreeSize : ℕ → ℕ
  | 0 => 1
  | l + 1 => 4 * poiTreeSize l + 1

/-- `poi.rs:13-35` `generate_next_pole`; `none` is the `expect`. -/
def generateNextPole (env : HEnv K) (shape : SPoly K) (poles : List (Circle K)) : Option (Circle K) :=
  (poiLoop env shape poles (poiTreeSize maxPoiTreeDepth) [POINode.new env shape.bbox.inflateToSquare maxPoiTreeDepth shape poles] none).bind id

/-- `simple_polygon.rs:147-166` `calculate_poi`, on a polygon whose own pole is not used -/
def calculatePoi (env : HEnv K) (points : List (Point K)) : Option (Circle K) :=
  generateNextPole env { points := points, bbox := boundingBox points, area := calculateArea points, poi := ⟨⟨env.fmax, env.fmax⟩, env.fmax⟩ } []

/-- `simple_polygon.rs:41-75` `SimplePolygon::new` including the pole of inaccessibility;
`none` is a panic. The field `diameter` is left out. -/
def SPoly.build (env : HEnv K) (points : List (Point K)) : Option (SPoly K) :=
  (SPoly.new (fun _ => ⟨⟨env.fmax, env.fmax⟩, env.fmax⟩) points).bind fun (s : SPoly K) =>
  (sqDiameter s.points).bind fun _ =>
  (calculatePoi env s.points).map fun c => { s with poi := c }

/-- `poi.rs:50-60`: the loop that generates poles; the accumulator is `all_poles` and the
total area. `pi` is the constant π. -/
def polesLoop (env : HEnv K) (pi : K) (shape : SPoly K) (goal : K) : ℕ → List (Circle K) → K → Option (List (Circle K))
  | 0, all, _ => some all
  | k + 1, all, total => (generateNextPole env shape all).bind fun (next : Circle K) =>
    let total := total + next.radius * next.radius * pi
    if goal < total then some (all ++ [next]) else polesLoop env pi shape goal k (all ++ [next]) total

/-- `poi.rs:74-80`: squared radius times the distance to the closest prior pole. -/
def poleScore (env : HEnv K) (poi : Circle K) (sorted : List (Circle K)) (p : Circle K) : K :=
  match (sorted ++ [poi]).map fun prior => (prior.distanceFromBorder env p.center).2 with
  | [] => 0
  | d :: ds => p.radius ^ 2 * ds.foldl min d

/-- `max_by_key` (`poi.rs:82`): index of the last largest value. -/
def lastMax : List K → Option ℕ
  | [] => none
  | x :: xs => match lastMax xs with
    | none => some 0
    | some i => match xs[i]? with
      | some y => if y < x then some 0 else some (i + 1)
      | none => none

/-- `poi.rs:65-87`: sorting the poles. The first argument bounds the number of rounds. -/
def sortPoles (env : HEnv K) (poi : Circle K) : ℕ → List (Circle K) → List (Circle K) → Option (List (Circle K))
  | _, [], sorted => some sorted
  | 0, _ :: _, _ => none
  | k + 1, p :: unsorted, sorted =>
    (lastMax ((p :: unsorted).map (poleScore env poi sorted))).bind fun i =>
    ((p :: unsorted)[i]?).bind fun (next : Circle K) => sortPoles env poi k ((p :: unsorted).eraseIdx i) (sorted ++ [next])

/-- `poi.rs:38-88` `generate_additional_surrogate_poles` -/
def additionalPoles (env : HEnv K) (pi : K) (shape : SPoly K) (maxPoles : ℕ) (coverageGoal : K) : Option (List (Circle K)) :=
  (polesLoop env pi shape (shape.area * coverageGoal) maxPoles [shape.poi] (shape.poi.radius * shape.poi.radius * pi)).bind fun all =>
  sortPoles env shape.poi all.tail.length all.tail []

/-! ## Piers -/

/-- `piers.rs:18` `CLIPPING_TRIM` -/
def clippingTrim : K := 999 / 1000

/-- `chunks(2)` and the closure of `piers.rs:131-144` -/
def clipPairs : List (Point K) → List (Edge K)
  | a :: b :: l => if a = b then clipPairs l else (Edge.mk a b).scale clippingTrim :: clipPairs l
  | _ => []

/-- the intersections of the edges with a ray (`piers.rs:124-126`); `none` is the panic in
`collides_at`. -/
def rayHits (shape : SPoly K) (ray : Edge K) : Option (List (Point K)) :=
  (shape.edges.mapM fun (e : Edge K) => e.collidesAt ray).map fun l => l.filterMap id

/-- `piers.rs:119-148` `clip`; `none` is the failure of the assertion. The stable sort by
distance to the start of the ray compares squared distances. -/
def clip (env : HEnv K) (shape : SPoly K) (ray : Edge K) : Option (List (Edge K)) :=
  if shape.collidesPoint env.f ray.start || shape.collidesPoint env.f ray.stop then none
  else (rayHits shape ray).map fun l =>
    clipPairs (l.insertionSort fun a b => ray.start.sqDistance a ≤ ray.start.sqDistance b)

/-- `piers.rs:91-116` `generate_ray_transformations`; `linspace` is exact. -/
def rayTransformations (tr : Trig K) (pi : K) (bbox : AARect K) (raysPerAngle nAngles : ℕ) : List (Transf K) :=
  (List.range nAngles).flatMap fun (a : ℕ) => (List.range raysPerAngle).map fun (i : ℕ) =>
    (Transf.fromTranslation (bbox.xMin + bbox.width / raysPerAngle * (i : K)) 0).rotate tr (pi / nAngles * (a : K))

/-- `piers.rs:31-42`: the rays -/
def pierRays (tr : Trig K) (pi : K) (shape : SPoly K) (raysPerAngle nAngles : ℕ) : Option (List (Edge K)) :=
  let box := shape.bbox.inflateToSquare
  let c := shape.centroid
  (Edge.mk? ⟨c.x, c.y - 2 * box.height⟩ ⟨c.x, c.y + 2 * box.height⟩).map fun (e : Edge K) =>
  (rayTransformations tr pi box raysPerAngle nAngles).map fun t => e.transform t

/-- `piers.rs:54-87`: the loop that selects `n` of the clipped rays; `none` is the panic
without rays. Which ray has the smallest loss is left to `pick` (it gets the rays and
those selected before); the loss function (lines 46-75, 150-227) is in
`Model/Piers.lean`. -/
def pickPiers (pick : List (Edge K) → List (Edge K) → ℕ) (rays : List (Edge K)) : ℕ → List (Edge K) → Option (List (Edge K))
  | 0, selected => some selected
  | k + 1, selected => (rays[pick rays selected]?).bind fun (r : Edge K) => pickPiers pick rays k (selected ++ [r])

/-- `piers.rs:21-89` `generate` -/
def generatePiers (env : HEnv K) (tr : Trig K) (pi : K) (pick : List (Edge K) → List (Edge K) → ℕ) (raysPerAngle nAngles : ℕ)
    (shape : SPoly K) (n : ℕ) : Option (List (Edge K)) :=
  if n = 0 then some []
  else (pierRays tr pi shape raysPerAngle nAngles).bind fun rays =>
  (rays.mapM (clip env shape)).bind fun clipped => pickPiers pick clipped.flatten n []

/-! ## Surrogates -/

/-- `config.rs:17-26` `SPSurrogateConfig` -/
structure SurrogateConfig (K : Type*) where
  coverageGoal : K
  maxPoles : ℕ
  nFfPoles : ℕ
  nFfPiers : ℕ

/-- `sp_surrogate.rs:29-58` `SPSurrogate::new`. The piers are given by a function of the
shape and their number. -/
def Surrogate.new (env : HEnv K) (pi : K) (piers : SPoly K → ℕ → Option (List (Edge K))) (s : SPoly K) (cfg : SurrogateConfig K) :
    Option (Surrogate K) :=
  (Jagua.convexHullIndices s.points).bind fun idx =>
  (idx.mapM fun (i : ℕ) => s.points[i]?).bind fun hull =>
  (SPoly.build env hull).bind fun (hs : SPoly K) =>
  (additionalPoles env pi s (cfg.maxPoles - 1) cfg.coverageGoal).bind fun extra =>
  (Circle.boundingCircle env (s.poi :: extra)).bind fun bc =>
  (piers s cfg.nFfPiers).map fun ps =>
    { convexHullIndices := idx, poles := s.poi :: extra, polesBoundingCircle := bc, piers := ps
      nFfPoles := min cfg.nFfPoles (s.poi :: extra).length, convexHullArea := hs.area }

/-- `simple_polygon.rs:77-79` `generate_surrogate` -/
def SPoly.generateSurrogate (env : HEnv K) (pi : K) (piers : SPoly K → ℕ → Option (List (Edge K))) (s : SPoly K) (cfg : SurrogateConfig K) :
    Option (SPoly K) :=
  (Surrogate.new env pi piers s cfg).map fun sur => { s with surrogate := some sur }

end Jagua
