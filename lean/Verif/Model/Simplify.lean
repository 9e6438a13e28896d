import Verif.Model.Polygon
import Mathlib.Data.List.Sort
import Mathlib.Order.WithBot

/-!
# Model: simplification of polygons

Mirrors `jagua-rs/src/util/polygon_simplification.rs`. `none` is a panic. Logging is left out.
-/

set_option linter.unusedSectionVars false

namespace Jagua

variable {K : Type*} [Arith K] [LinearOrder K]

/-- `polygon_simplification.rs:26-32` `PolySimplMode` -/
inductive SimplMode where
  | inflate
  | deflate
  deriving DecidableEq

/-- `polygon_simplification.rs:50-52` `Corner` (three indices) -/
structure Corner where
  i0 : ℕ
  i1 : ℕ
  i2 : ℕ
  deriving DecidableEq

/-- `polygon_simplification.rs:55-57` `Corner::flip` -/
def Corner.flip (c : Corner) : Corner := ⟨c.i2, c.i1, c.i0⟩

/-- `polygon_simplification.rs:59-61` `Corner::to_points`; `none` is an index out of range. -/
def Corner.toPoints (c : Corner) (pts : List (Point K)) : Option (Point K × Point K × Point K) :=
  (pts[c.i0]?).bind fun a => (pts[c.i1]?).bind fun b => (pts[c.i2]?).map fun d => (a, b, d)

/-- `polygon_simplification.rs:64-69` `CornerType` -/
inductive CornerType where
  | concave
  | convex
  | collinear
  deriving DecidableEq

/-- `polygon_simplification.rs:72-87` `CornerType::from` -/
def CornerType.from (p1 p2 p3 : Point K) : CornerType :=
  let c := (p2.x - p1.x) * (p3.y - p1.y) - (p2.y - p1.y) * (p3.x - p1.x)
  if c < 0 then .concave else if c = 0 then .collinear else .convex

/-- `polygon_simplification.rs:43-48` `Candidate` -/
inductive SimplCand where
  | concave (c : Corner)
  | convexConvex (c1 c2 : Corner)
  | collinear (c : Corner)
  deriving DecidableEq

/-- `polygon_simplification.rs:107-122`: the corners, for deflation reversed and flipped.
`rem_euclid` of `i - 1` is written `(i + n - 1) % n`. -/
def simplCorners (mode : SimplMode) (n : ℕ) : List Corner :=
  let cs := (List.range n).map fun i => (⟨(i + n - 1) % n, i, (i + 1) % n⟩ : Corner)
  match mode with
  | .inflate => cs
  | .deflate => cs.reverse.map Corner.flip

/-- `polygon_simplification.rs:130-143`: the loop that generates candidates, with the previous
corner and its type. -/
def genCandidates : Corner × CornerType → List (Corner × CornerType) → List SimplCand
  | _, [] => []
  | prev, (c, t) :: rest =>
    (match t, prev.2 with
      | .concave, _ => [SimplCand.concave c]
      | .collinear, _ => [SimplCand.collinear c]
      | .convex, .convex => [SimplCand.convexConvex prev.1 c]
      | .convex, _ => []) ++ genCandidates (c, t) rest

/-- `polygon_simplification.rs:296-329` `calculate_intersection_in_front` -/
def intersectionInFront (l1 l2 : Edge K) : Option (Point K) :=
  let x1 := l1.start.x; let y1 := l1.start.y; let x2 := l1.stop.x; let y2 := l1.stop.y
  let x3 := l2.start.x; let y3 := l2.start.y; let x4 := l2.stop.x; let y4 := l2.stop.y
  let tNom := (x2 - x4) * (y4 - y3) - (y2 - y4) * (x4 - x3)
  let denom := (x2 - x1) * (y4 - y3) - (y2 - y1) * (x4 - x3)
  let uNom := (x2 - x4) * (y2 - y1) - (y2 - y4) * (x2 - x1)
  let t := if denom ≠ 0 then tNom / denom else 0
  let u := if denom ≠ 0 then uNom / denom else 0
  if t < 0 ∧ u < 0 then some ⟨x2 + t * (x1 - x2), y2 + t * (y1 - y2)⟩ else none

/-- `polygon_simplification.rs:283-294` `replacing_vertex_convex_convex_candidate`; the outer
`none` is a failed assertion, an index out of range or `Edge::new` with equal points, the inner one `InvalidCandidate`. -/
def replacingVertex (pts : List (Point K)) (c1 c2 : Corner) : Option (Option (Point K)) :=
  if c1.i2 ≠ c2.i1 ∨ c1.i1 ≠ c2.i0 then none
  else (pts[c1.i0]?).bind fun a => (pts[c1.i1]?).bind fun b => (Edge.mk? a b).bind fun l1 =>
    (pts[c2.i2]?).bind fun d => (pts[c2.i1]?).bind fun c => (Edge.mk? d c).map fun l2 => intersectionInFront l1 l2

/-- The formula of `polygon_simplification.rs:203` and `215`. -/
def triangleArea (p0 p1 p2 : Point K) : K :=
  (p0.x * p1.y + p1.x * p2.y + p2.x * p0.y - p0.x * p2.y - p1.x * p0.y - p2.x * p1.y) / 2

/-- `polygon_simplification.rs:190-221` `calculate_area_delta`, with infinity for an invalid candidate
as in `147-150`. -/
def areaDelta (pts : List (Point K)) : SimplCand → Option (WithTop K)
  | .collinear _ => some (0 : K)
  | .concave c => (c.toPoints pts).map fun p => (fabs (triangleArea p.1 p.2.1 p.2.2) : K)
  | .convexConvex c1 c2 => (replacingVertex pts c1 c2).bind fun v => match v with
    | none => some ⊤
    | some v => (pts[c1.i1]?).bind fun a => (pts[c2.i1]?).map fun b => (fabs (triangleArea a v b) : K)

/-- `polygon_simplification.rs:257-263` `edge_iter`; `none` is `Edge::new` with equal points. -/
def edgeIter (pts : List (Point K)) : Option (List (Edge K)) :=
  (pts.zip (pts.rotate 1)).mapM fun s => Edge.mk? s.1 s.2

/-- `polygon_simplification.rs:223-255` `candidate_is_valid`. All edges are made before the first is
looked at. -/
def candValid (pts : List (Point K)) : SimplCand → Option Bool
  | .collinear _ => some true
  | .concave c => (c.toPoints pts).bind fun p => (Edge.mk? p.1 p.2.2).bind fun new =>
    let affected := [p.1, p.2.1, p.2.2]
    (edgeIter pts).map fun es =>
      ((es.filter fun l => l.start ∉ affected).filter fun l => l.stop ∉ affected).all fun l => !l.collidesEdge new
  | .convexConvex c1 c2 => (replacingVertex pts c1 c2).bind fun v => match v with
    | none => some false
    | some v => (c1.toPoints pts).bind fun p => (c2.toPoints pts).bind fun q =>
      (Edge.mk? p.1 v).bind fun new1 => (Edge.mk? v q.2.2).bind fun new2 =>
      let affected := [p.2.1, p.1, q.2.1, q.2.2]
      (edgeIter pts).map fun es =>
        ((es.filter fun l => l.start ∉ affected).filter fun l => l.stop ∉ affected).all fun l =>
          !l.collidesEdge new1 && !l.collidesEdge new2

/-- `Vec::remove`; `none` is an index out of range. -/
def removeIdx {α : Type*} (l : List α) (i : ℕ) : Option (List α) := if i < l.length then some (l.eraseIdx i) else none

/-- `Vec::insert`; `none` is an index out of range. -/
def insertAt {α : Type*} (l : List α) (i : ℕ) (a : α) : Option (List α) := if i ≤ l.length then some (l.insertIdx i a) else none

/-- `polygon_simplification.rs:265-281` `execute_candidate` -/
def executeCand (pts : List (Point K)) : SimplCand → Option (List (Point K))
  | .collinear c => removeIdx pts c.i1
  | .concave c => removeIdx pts c.i1
  | .convexConvex c1 c2 => (replacingVertex pts c1 c2).bind fun v => v.bind fun v =>
    (removeIdx pts c1.i1).bind fun p =>
    let other := if c1.i1 < c2.i1 then c2.i1 - 1 else c2.i1
    (removeIdx p other).bind fun p => insertAt p other v

/-- `Iterator::find` with a test that can panic. -/
def findValid (pts : List (Point K)) : List SimplCand → Option (Option SimplCand)
  | [] => some none
  | c :: cs => (candValid pts c).bind fun b => if b then some (some c) else findValid pts cs

/-- `polygon_simplification.rs:124-143`: all candidates. -/
def simplCandidates (mode : SimplMode) (pts : List (Point K)) : Option (List SimplCand) :=
  ((simplCorners mode pts.length).mapM fun (c : Corner) => (c.toPoints pts).map fun p => (c, CornerType.from p.1 p.2.1 p.2.2)).bind fun typed =>
  (typed.getLast?).map fun last => genCandidates last typed

/-- `polygon_simplification.rs:145-151`: the best valid candidate. `sorted_by_cached_key` is a stable
sort, here insertion sort. -/
def bestCandidate (mode : SimplMode) (pts : List (Point K)) : Option (Option SimplCand) :=
  (simplCandidates mode pts).bind fun cands =>
  (cands.mapM fun c => (areaDelta pts c).map fun d => (d, c)).bind fun keyed =>
  findValid pts ((keyed.insertionSort fun a b => a.1 ≤ b.1).map Prod.snd)

/-- `polygon_simplification.rs:100-171`: the loop, with the number of remaining iterations. -/
def simplifyLoop (mode : SimplMode) (tol orig : K) : ℕ → List (Point K) → Option (List (Point K))
  | 0, pts => some pts
  | k + 1, pts =>
    if pts.length < 4 then some pts
    else (bestCandidate mode pts).bind fun best => match best with
      | none => some pts
      | some c => (executeCand pts c).bind fun new =>
        if fabs (calculateArea new - orig) / orig ≤ tol then simplifyLoop mode tol orig k new else some pts

/-- `polygon_simplification.rs:91-188` `simplify_shape` -/
def simplifyShape (poi : List (Point K) → Circle K) (mode : SimplMode) (tol : K) (s : SPoly K) : Option (SPoly K) :=
  (simplifyLoop mode tol s.area s.points.length s.points).bind (SPoly.new poi)

end Jagua
