import Verif.Model.FailFast

/-!
# The choice of piers

Model of the loss function of `geometry/fail_fast/piers.rs` and of the distances of
`primitives/circle.rs` and `primitives/edge.rs` that it uses.
-/

namespace Jagua

variable {K : Type*} [Arith K] [LinearOrder K]

/-- `edge.rs:161-163` `distance` of a point to an edge -/
def Edge.distance (env : HEnv K) (e : Edge K) (p : Point K) : K := env.sqrt (e.sqDistance p)

/-- `circle.rs:121-131` `distance` of a point to a circle -/
def Circle.distance (env : HEnv K) (c : Circle K) (p : Point K) : K :=
  let sqD := (p.x - c.center.x) ^ 2 + (p.y - c.center.y) ^ 2
  if sqD < c.radius ^ 2 then 0 else env.sqrt sqD - c.radius

/-- `Array::linspace` of the crate `ndarray`, without rounding -/
def linspace (a b : K) (n : ℕ) : List K := (List.range n).map fun (i : ℕ) => a + (b - a) / ((n - 1 : ℕ) : K) * (i : K)

/-- `piers.rs:150-169` `generate_unrepresented_point_grid` -/
def unrepresentedGrid (f : Fpa K) (bbox : AARect K) (shape : SPoly K) (poles : List (Circle K)) (n : ℕ) : List (Point K) :=
  (linspace bbox.xMin bbox.xMax n).flatMap fun x =>
    (((linspace bbox.yMin bbox.yMax n).map fun y => Point.mk x y).filter fun p => shape.collidesPoint f p).filter fun p =>
      poles.all fun c => !c.collidesPoint p

/-- `piers.rs:202-211` `min_distances_to_rays` -/
def minDistancesToRays (env : HEnv K) (points : List (Point K)) (rays : List (Edge K)) (forfeit : K) : List K :=
  points.map fun p => (rays.map fun r => r.distance env p).foldl min forfeit

/-- `piers.rs:213-227` `min_distances_to_poles` -/
def minDistancesToPoles (env : HEnv K) (points : List (Point K)) (poles : List (Circle K)) (forfeit : K) : List K :=
  points.map fun p => (poles.map fun c => c.distance env p).foldl min forfeit

/-- `piers.rs:171-200` `loss_function` -/
def lossFunction (env : HEnv K) (newRay : Edge K) (grid : List (Point K)) (toRays toPoles : List K) (radius : K) : K :=
  fsum ((grid.zip (toRays.zip toPoles)).map fun (x : Point K × K × K) =>
    let toRay := min x.2.1 (newRay.distance env x.1)
    (if toRay < radius then min x.2.2 toRay else x.2.2) ^ 2)

/-- `min_by_key` of an iterator: the position of the first smallest value -/
def argmin : List K → ℕ
  | [] => 0
  | [_] => 0
  | x :: l => match l[argmin l]? with
    | some y => if x ≤ y then 0 else argmin l + 1
    | none => 0

/-- `piers.rs:18-19` `ACTION_RADIUS_RATIO` -/
def actionRadiusRatio : K := 1 / 10

/-- `piers.rs:46-81`: the candidate with the smallest loss. The grid and the distances to
the poles do not change during the loop. The forfeit distance is the square root of a
product, as in the code (line 52). -/
def pickByLoss (env : HEnv K) (shape : SPoly K) (poles : List (Circle K)) (nPoints : ℕ) (rays selected : List (Edge K)) : ℕ :=
  let box := shape.bbox.inflateToSquare
  let grid := unrepresentedGrid env.f box shape poles nPoints
  let forfeit := env.sqrt (shape.bbox.width ^ 2 * shape.bbox.height ^ 2)
  argmin (rays.map fun r =>
    lossFunction env r grid (minDistancesToRays env grid selected forfeit) (minDistancesToPoles env grid poles forfeit)
      (actionRadiusRatio * box.width))

/-- `piers.rs:21-89` `generate` as a whole. -/
def piersGenerate (env : HEnv K) (tr : Trig K) (pi : K) (raysPerAngle nAngles nPoints : ℕ) (poles : List (Circle K))
    (shape : SPoly K) (n : ℕ) : Option (List (Edge K)) :=
  generatePiers env tr pi (pickByLoss env shape poles nPoints) raysPerAngle nAngles shape n

/-- `sp_surrogate.rs:29-58` `SPSurrogate::new` as a whole: the piers are generated for the
poles that are tested first (lines 46-48). -/
def Surrogate.generate (env : HEnv K) (tr : Trig K) (pi : K) (raysPerAngle nAngles nPoints : ℕ) (s : SPoly K)
    (cfg : SurrogateConfig K) : Option (Surrogate K) :=
  Surrogate.new env pi (fun s n => (additionalPoles env pi s (cfg.maxPoles - 1) cfg.coverageGoal).bind fun extra =>
    piersGenerate env tr pi raysPerAngle nAngles nPoints ((s.poi :: extra).take (min cfg.nFfPoles (s.poi :: extra).length)) s n) s cfg

end Jagua
