import Verif.Model.Piers

/-!
# Distances between primitives

Implementations of the trait `DistanceFrom` (`geo_traits.rs:19-32`). The distances of points
to edges and circles are in `Model/Piers.lean`, `Model/HPG.lean` and `Model/Geometry.lean`.
-/

namespace Jagua

variable {K : Type*} [Arith K] [LinearOrder K]

/-- `edge.rs:165-167` `distance_from_border` -/
def Edge.distanceFromBorder (env : HEnv K) (e : Edge K) (p : Point K) : GeoPosition × K := (.exterior, e.distance env p)

/-- `edge.rs:169-171` `sq_distance_from_border` -/
def Edge.sqDistanceFromBorder (e : Edge K) (p : Point K) : GeoPosition × K := (.exterior, e.sqDistance p)

/-- `circle.rs:117-119` `sq_distance` of a point -/
def Circle.sqDistance (env : HEnv K) (c : Circle K) (p : Point K) : K := c.distance env p ^ 2

/-- `circle.rs:143-146` `sq_distance_from_border` of a point -/
def Circle.sqDistanceFromBorder (env : HEnv K) (c : Circle K) (p : Point K) : GeoPosition × K :=
  ((c.distanceFromBorder env p).1, (c.distanceFromBorder env p).2 ^ 2)

/-- `circle.rs:161-171` `distance_from_border` of a circle -/
def Circle.borderToCircle (env : HEnv K) (a b : Circle K) : GeoPosition × K :=
  let sqCenterDist := a.center.sqDistance b.center
  let sqRadiiSum := (a.radius + b.radius) ^ 2
  if sqCenterDist < sqRadiiSum then (.interior, env.sqrt sqRadiiSum - env.sqrt sqCenterDist)
  else (.exterior, env.sqrt sqCenterDist - env.sqrt sqRadiiSum)

/-- `circle.rs:154-159` `distance` of a circle -/
def Circle.distanceToCircle (env : HEnv K) (a b : Circle K) : K :=
  match a.borderToCircle env b with
  | (.interior, _) => 0
  | (.exterior, d) => d

/-- `circle.rs:150-152` `sq_distance` of a circle -/
def Circle.sqDistanceToCircle (env : HEnv K) (a b : Circle K) : K := a.distanceToCircle env b ^ 2

/-- `circle.rs:191-198` `distance_from_border` of an edge -/
def Circle.borderToEdge (env : HEnv K) (c : Circle K) (e : Edge K) : GeoPosition × K :=
  let d := e.distance env c.center
  if d < c.radius then (.interior, c.radius - d) else (.exterior, d - c.radius)

/-- `circle.rs:184-189` `distance` of an edge -/
def Circle.distanceToEdge (env : HEnv K) (c : Circle K) (e : Edge K) : K :=
  match c.borderToEdge env e with
  | (.interior, _) => 0
  | (.exterior, d) => d

/-- `circle.rs:180-182` `sq_distance` of an edge -/
def Circle.sqDistanceToEdge (env : HEnv K) (c : Circle K) (e : Edge K) : K := c.distanceToEdge env e ^ 2

/-- `aa_rectangle.rs:303-305` `distance` of a point -/
def AARect.distance (env : HEnv K) (r : AARect K) (p : Point K) : K := env.sqrt (r.sqDistance p)

/-- `aa_rectangle.rs:307-310` `distance_from_border` of a point -/
def AARect.distanceFromBorder (env : HEnv K) (r : AARect K) (p : Point K) : GeoPosition × K :=
  ((r.sqDistanceFromBorder p).1, env.sqrt (r.sqDistanceFromBorder p).2)

/-- `simple_polygon.rs:325-327` `distance` of a point -/
def SPoly.distance (env : HEnv K) (s : SPoly K) (p : Point K) : Option K := (s.sqDistance env.f p).map env.sqrt

/-- `circle.rs:220-222` `diameter` -/
def Circle.diameter (c : Circle K) : K := c.radius * 2

end Jagua
