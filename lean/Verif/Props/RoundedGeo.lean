import Verif.Lemmas.RoundedObjects
import Verif.Lemmas.Digits
import Verif.Props.Primitives

/-! # C69: rounding does not change the answers of collision tests, except for near misses -/

set_option linter.unusedSectionVars false

namespace Jagua

variable {r : Rounding} {u : ℚ}

/-- C69: single precision, 24 binary digits rounded to nearest even, meets the
assumptions on the arithmetic, with `u = 2 ^ (-24)`. Exponents are not limited. -/
theorem C69_single_precision : Rounding.single.Standard (1 / 2 ^ 24) := Rounding.single_standard

/-- C69: two edges are reported as colliding iff they share a point, unless an end
of one is close to the line through the other. -/
theorem C69_edges (st : r.Standard u) (hu : u ≤ 1 / 256) {e f : Edge (Rounded r)} {d : ℚ}
    (hd : e.exact.Within f.exact d) (hc : e.exact.Clear f.exact (20 * u * d ^ 2)) :
    e.collidesEdge f = true ↔ (e.exact.pts ∩ f.exact.pts).Nonempty :=
  collidesEdge_rounded st hu hd hc

/-- C69: the point in polygon test is right, unless the point is close to the
outline. `ε` is the tolerance of the comparisons, `w` the width of the polygon. -/
theorem C69_point_in_polygon (st : r.Standard u) (hu : u ≤ 1 / 256) {f : Fpa (Rounded r)} {M ε w : ℚ} (hf : f.TolerantIn M ε) (h0 : 0 ≤ ε)
    {s : SPoly (Rounded r)} (hs : s.Boxed w) (hw : 0 < w) (hb : Bounded s.exact M) (hM : 2 * u * M ≤ w) {p : Point (Rounded r)}
    (hp : ∀ q ∈ bdry s.exact, max ε (32 * u * w) < |q.x - p.exact.x| ∨ max ε (32 * u * w) < |q.y - p.exact.y|) :
    s.collidesPoint f p = true ↔ p.exact ∈ Jagua.interior s.exact := by
  refine SPoly.collidesPoint_rounded st hu hf h0 hs hw hb hM fun q hq => ?_
  have := hp q hq
  rw [max_lt_iff, max_lt_iff] at this
  constructor
  · rintro ⟨h1, h2⟩
    rcases this with h | h
    · exact absurd h1 (not_le.2 h.1)
    · exact absurd h2 (not_le.2 h.1)
  · rintro ⟨h1, h2⟩
    rcases this with h | h
    · exact absurd h1 (not_le.2 h.2)
    · exact absurd h2 (not_le.2 h.2)

/-- C69: circle against point and rectangle, unless the squares of the distance
and of the radius are close. -/
theorem C69_circles (st : r.Standard u) (hu : u ≤ 1 / 256) {c : Circle (Rounded r)} :
    (∀ p : Point (Rounded r), c.exact.Clear p.exact u → (c.collidesPoint p = true ↔ p.exact ∈ c.exact.pts)) ∧
    (∀ b : AARect (Rounded r), b.exact.Valid → ∀ q, c.exact.Nearest b.exact q → c.exact.Clear q u →
      (c.collidesRect b = true ↔ (c.exact.pts ∩ b.exact.pts).Nonempty)) :=
  ⟨fun _ h => circle_collidesPoint_rounded st hu h, fun _ hb _ hq h => circle_collidesRect_rounded st hu hb hq h⟩

/-- C69: a rectangle and an edge are reported as colliding iff they share a point,
unless a corner is close to the line through the edge, or an end of the edge to
one through a side. -/
theorem C69_box_edge (st : r.Standard u) (hu : u ≤ 1 / 256) {b : AARect (Rounded r)} (hb : b.exact.Valid) {e : Edge (Rounded r)} {d : ℚ}
    (hd : ∀ s ∈ b.exact.sides, e.exact.Within s d) (hc : ∀ s ∈ b.exact.sides, e.exact.Clear s (20 * u * d ^ 2)) :
    b.collidesEdge e = true ↔ (b.exact.pts ∩ e.exact.pts).Nonempty :=
  rect_collidesEdge_rounded st hu hb hd hc

/-- C69: rectangles against points and rectangles, without exception and for every
way of rounding: these tests only compare coordinates. -/
theorem C69_boxes (a b : AARect (Rounded r)) (p : Point (Rounded r)) :
    (a.collidesPoint p = true ↔ p.exact ∈ a.exact.pts) ∧
    (a.collidesRect b = true ↔ (a.exact.pts ∩ b.exact.pts).Nonempty) := by
  rw [rect_collidesPoint_rounded, rect_collidesRect_rounded]
  exact ⟨C29_rect_point _ _, C29_rect_rect _ _⟩

/-! ## Examples and the limits -/

namespace Ex

/-- single precision -/
abbrev F32 := Rounded Rounding.single

/-- a literal -/
def f32 (x : ℚ) : F32 := Rounded.of Rounding.single x

def fEdge (a b c d : ℚ) : Edge F32 := ⟨⟨f32 a, f32 b⟩, ⟨f32 c, f32 d⟩⟩

instance (e f : Edge ℚ) (d : ℚ) : Decidable (e.Within f d) := by unfold Edge.Within; infer_instance

instance (e f : Edge ℚ) (d : ℚ) : Decidable (e.Clear f d) := by unfold Edge.Clear; infer_instance

-- two crossing edges with coordinates that cannot be represented, and two that miss each other by a thousandth
example : let e := fEdge (1 / 3) 0 7 (22 / 7); let f := fEdge 0 3 5 (1 / 10)
    e.exact.Within f.exact 7 ∧ e.exact.Clear f.exact (20 * (1 / 2 ^ 24) * 7 ^ 2) ∧ e.collidesEdge f = true := by decide +kernel

example : let e := fEdge 0 0 7 7; let f := fEdge 3 (3001 / 1000) 5 7
    e.exact.Within f.exact 7 ∧ e.exact.Clear f.exact (20 * (1 / 2 ^ 24) * 7 ^ 2) ∧ e.collidesEdge f = false := by decide +kernel

/-- a point whose distance from the line through an edge is large is far from the edge -/
theorem far_of_side {a b p : Point ℚ} {δ : ℚ} (h : δ * (|b.x - a.x| + |b.y - a.y|) < |(⟨a, b⟩ : Edge ℚ).side p|) :
    ∀ q ∈ segPts a b, δ < |q.x - p.x| ∨ δ < |q.y - p.y| := by
  intro q hq
  by_contra hn
  push Not at hn
  have h0 : (⟨a, b⟩ : Edge ℚ).side q = 0 := side_self (f := ⟨a, b⟩) hq
  have e : (⟨a, b⟩ : Edge ℚ).side p = (⟨a, b⟩ : Edge ℚ).side q - ((q.x - p.x) * (b.y - a.y) - (q.y - p.y) * (b.x - a.x)) := by
    unfold Edge.side; ring
  rw [e, h0, zero_sub, abs_neg] at h
  have t := abs_sub ((q.x - p.x) * (b.y - a.y)) ((q.y - p.y) * (b.x - a.x))
  rw [abs_mul, abs_mul] at t
  nlinarith [mul_le_mul_of_nonneg_right hn.1 (abs_nonneg (b.y - a.y)), mul_le_mul_of_nonneg_right hn.2 (abs_nonneg (b.x - a.x))]

/-- comparisons with an absolute tolerance -/
def fTol : Fpa F32 := ⟨fun a b => decide (|a.1 - b.1| ≤ 1 / 1000)⟩

def fPts : List (Point F32) := [⟨f32 (1 / 3), f32 0⟩, ⟨f32 10, f32 (1 / 7)⟩, ⟨f32 3, f32 9⟩]

/-- a triangle -/
def fTri : SPoly F32 := ⟨fPts, boundingBox fPts, f32 43, ⟨⟨f32 4, f32 3⟩, f32 2⟩, none⟩

theorem fTri_far {p : Point ℚ} {δ : ℚ} (h : ∀ s ∈ sides fTri.exact, δ * (|s.2.x - s.1.x| + |s.2.y - s.1.y|) < |(⟨s.1, s.2⟩ : Edge ℚ).side p|) :
    ∀ q ∈ bdry fTri.exact, δ < |q.x - p.x| ∨ δ < |q.y - p.y| := by
  rintro q ⟨s, hs, hq⟩
  exact far_of_side (h s hs) q hq

-- a triangle, a point inside and a point outside
example : (∀ M, fTol.TolerantIn M (1 / 1000)) ∧ fTri.Boxed (fTri.bbox.xMax.1 - fTri.bbox.xMin.1) ∧ Bounded fTri.exact 10 ∧
    fTri.bbox.xMax.1 - fTri.bbox.xMin.1 ≤ 10 ∧
    (∀ p ∈ [(⟨f32 4, f32 (301 / 100)⟩ : Point F32), ⟨f32 8, f32 8⟩], ∀ q ∈ bdry fTri.exact, 1 / 1000 < |q.x - p.exact.x| ∨ 1 / 1000 < |q.y - p.exact.y|) ∧
    fTri.collidesPoint fTol ⟨f32 4, f32 (301 / 100)⟩ = true ∧ fTri.collidesPoint fTol ⟨f32 8, f32 8⟩ = false := by
  refine ⟨fun M => ⟨by simp [fTol], by intro a b _ _ h; simpa [fTol] using h⟩, ⟨rfl, by simp [fTri, fPts], rfl⟩, ?_, by decide +kernel, ?_, by decide +kernel, by decide +kernel⟩
  · unfold Bounded; decide +kernel
  · intro p hp
    refine fTri_far ?_
    revert p
    decide +kernel

instance (c : Circle ℚ) (p : Point ℚ) : Decidable (c.Clear p u) := by unfold Circle.Clear; infer_instance

def fCircle : Circle F32 := ⟨⟨f32 (1 / 3), f32 (1 / 7)⟩, f32 (11 / 10)⟩

def fBox (a b c d : ℚ) : AARect F32 := ⟨f32 a, f32 b, f32 c, f32 d⟩

-- a circle, points and boxes
example : (fCircle.exact.Clear (Point.mk (f32 1) (f32 1)).exact (1 / 2 ^ 24) ∧ fCircle.collidesPoint ⟨f32 1, f32 1⟩ = true) ∧
    (fCircle.exact.Clear (Point.mk (f32 1) (f32 (11 / 10))).exact (1 / 2 ^ 24) ∧ fCircle.collidesPoint ⟨f32 1, f32 (11 / 10)⟩ = false) := by decide +kernel

example : ((fBox 1 1 2 2).exact.Valid ∧ fCircle.exact.Nearest (fBox 1 1 2 2).exact ⟨1, 1⟩ ∧ fCircle.exact.Clear ⟨1, 1⟩ (1 / 2 ^ 24)) ∧
    fCircle.collidesRect (fBox 1 1 2 2) = true := by
  refine ⟨⟨by unfold AARect.Valid; decide +kernel, ⟨⟨by decide +kernel, by decide +kernel, by decide +kernel, by decide +kernel⟩, ?_⟩, by decide +kernel⟩, by decide +kernel⟩
  rintro q ⟨h1, -, h2, -⟩
  have e1 : (fBox 1 1 2 2).exact.xMin = 1 := by decide +kernel
  have e2 : (fBox 1 1 2 2).exact.yMin = 1 := by decide +kernel
  have c1 : fCircle.exact.center.x ≤ 1 := by decide +kernel
  have c2 : fCircle.exact.center.y ≤ 1 := by decide +kernel
  rw [e1] at h1
  rw [e2] at h2
  refine add_le_add ?_ ?_ <;> refine pow_le_pow_left₀ ?_ ?_ 2 <;> dsimp only <;> linarith

-- a box and edges
example : (fBox (1 / 3) 0 3 (22 / 7)).exact.Valid ∧
    (∀ s ∈ (fBox (1 / 3) 0 3 (22 / 7)).exact.sides, (fEdge 0 (1 / 10) 4 5).exact.Within s 5) ∧
    (∀ s ∈ (fBox (1 / 3) 0 3 (22 / 7)).exact.sides, (fEdge 0 (1 / 10) 4 5).exact.Clear s (20 * (1 / 2 ^ 24) * 5 ^ 2)) ∧
    (fBox (1 / 3) 0 3 (22 / 7)).collidesEdge (fEdge 0 (1 / 10) 4 5) = true ∧ (fBox (1 / 3) 0 3 (22 / 7)).collidesEdge (fEdge 0 3 1 5) = false := by
  refine ⟨by unfold AARect.Valid; decide +kernel, by decide +kernel, by decide +kernel, by decide +kernel, by decide +kernel⟩

end Ex

/-- C69: near misses do occur, in both directions and with whole numbers for
coordinates: in single precision, two edges that have no point in common are
reported as colliding, and two edges that cross are not. -/
theorem C69_near_misses :
    (let e := Ex.fEdge 2944 3903 7628 4080; let f := Ex.fEdge 0 0 5185 6874
      e.collidesEdge f = true ∧ ¬ (e.exact.pts ∩ f.exact.pts).Nonempty) ∧
    (let e := Ex.fEdge 564 1930 9851 7685; let f := Ex.fEdge 2586 3183 4313 1035
      e.collidesEdge f = false ∧ (e.exact.pts ∩ f.exact.pts).Nonempty) := by
  refine ⟨⟨by decide +kernel, ?_⟩, by decide +kernel, ?_⟩
  · rintro ⟨p, h1, h2⟩
    have h := (opposite_of_share h1 h2).1
    exact h (by decide +kernel)
  · exact share_of_opposite (by decide +kernel) (by decide +kernel)

end Jagua
