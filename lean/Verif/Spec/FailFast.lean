import Verif.Spec.HPG
import Verif.Spec.Region

/-!
# Specification: poles
-/

set_option linter.unusedSectionVars false

namespace Jagua

variable {K : Type*} [Field K] [LinearOrder K] [IsStrictOrderedRing K]

/-- A square root rounded down to representable numbers: differences of
representable numbers are representable, and the root is not below any
representable number whose square is small enough. -/
structure HEnv.SqrtDown (env : HEnv K) (Rep : K → Prop) : Prop where
  lower : ∀ x, 0 ≤ x → 0 ≤ env.sqrt x ∧ env.sqrt x ^ 2 ≤ x
  rep_sqrt : ∀ x, 0 ≤ x → Rep (env.sqrt x)
  rep_sub : ∀ a b, Rep a → Rep b → Rep (a - b)
  rep_max : Rep env.fmax
  rep_le : ∀ R x, Rep R → 0 ≤ R → R ^ 2 ≤ x → R ≤ env.sqrt x

/-- What is required of a pole among others. -/
structure GoodPole (pts : List (Point K)) (poles : List (Circle K)) (c : Circle K) : Prop where
  pos : 0 < c.radius
  center : c.center ∈ interior pts
  edges : ∀ w ∈ bdry pts, c.radius ^ 2 ≤ sqDist c.center w
  others : ∀ d ∈ poles, (c.radius + d.radius) ^ 2 ≤ sqDist c.center d.center

/-- Earlier poles before later ones: discs in the region that do not overlap. -/
def GoodPoles (pts : List (Point K)) (l : List (Circle K)) : Prop :=
  (∀ c ∈ l, 0 < c.radius ∧ c.center ∈ interior pts ∧ ∀ w ∈ bdry pts, c.radius ^ 2 ≤ sqDist c.center w) ∧
  l.Pairwise fun a b => (a.radius + b.radius) ^ 2 ≤ sqDist a.center b.center

/-- The centres of the squares obtained by cutting a rectangle into four `k` times, for `k` up to
the given depth. -/
def gridCentres (r : AARect K) (depth : ℕ) : Set (Point K) :=
  {p | ∃ k ≤ depth, ∃ i < 2 ^ k, ∃ j < 2 ^ k,
    p = ⟨r.xMin + (2 * (i : ℕ) + 1) * (r.xMax - r.xMin) / 2 ^ (k + 1), r.yMin + (2 * (j : ℕ) + 1) * (r.yMax - r.yMin) / 2 ^ (k + 1)⟩}

/-- The points with the smallest x-coordinate, in the order of the list. -/
def leftmost (pts : List (Point K)) : List (Point K) := pts.filter fun p => decide (∀ q ∈ pts, p.x ≤ q.x)

/-- The points with the largest x-coordinate, in the order of the list. -/
def rightmost (pts : List (Point K)) : List (Point K) := pts.filter fun p => decide (∀ q ∈ pts, q.x ≤ p.x)

/-- Among the leftmost points the first or the last of the list is a lowest one, and among the
rightmost the first or the last is a highest one. -/
def EndsExtreme (pts : List (Point K)) : Prop :=
  (∃ m, ((leftmost pts).head? = some m ∨ (leftmost pts).getLast? = some m) ∧ ∀ q ∈ leftmost pts, m.y ≤ q.y) ∧
  ∃ m, ((rightmost pts).head? = some m ∨ (rightmost pts).getLast? = some m) ∧ ∀ q ∈ rightmost pts, q.y ≤ m.y

/-- In every closed half plane that includes all of the points: a member of their convex hull. -/
def InHullOf (pts : List (Point K)) (p : Point K) : Prop :=
  ∀ a b c : K, (∀ q ∈ pts, a * q.x + b * q.y ≤ c) → a * p.x + b * p.y ≤ c

/-- Twice the signed area of a triangle: positive when `c` is left of the line from `a` to `b`. -/
def leftOf (a b c : Point K) : K := (b.x - a.x) * (c.y - a.y) - (b.y - a.y) * (c.x - a.x)

end Jagua
