import Verif.Lemmas.RoundedDecided
import Verif.Lemmas.ToleranceTree
import Verif.Spec.RoundedEngine

/-! # The quadtree in arithmetic with rounding -/

set_option linter.unusedSectionVars false

namespace Jagua

variable {r : Rounding} {u : ℚ}

/-! ## Quadrants -/

theorem centroid_exact (b : AARect (Rounded r)) : b.centroid.exact = ⟨r.mid b.exact.xMin b.exact.xMax, r.mid b.exact.yMin b.exact.yMax⟩ := rfl

theorem Halved.strict' {b : AARect (Rounded r)} {δ : ℚ} (h : b.exact.Halved r δ) (h0 : 0 ≤ δ) :
    (b.exact.xMin < b.centroid.exact.x ∧ b.centroid.exact.x < b.exact.xMax) ∧ b.exact.yMin < b.centroid.exact.y ∧ b.centroid.exact.y < b.exact.yMax := by
  rw [centroid_exact]
  obtain ⟨⟨h1, h2⟩, h3, h4⟩ := h
  dsimp only
  exact ⟨⟨by linarith, by linarith⟩, by linarith, by linarith⟩

theorem Halved.strict {b : AARect (Rounded r)} {δ : ℚ} (h : b.exact.Halved r δ) (h0 : 0 ≤ δ) :
    (b.xMin < b.centroid.x ∧ b.centroid.x < b.xMax) ∧ b.yMin < b.centroid.y ∧ b.centroid.y < b.yMax :=
  Halved.strict' h h0

theorem Halved.valid {b : AARect (Rounded r)} {δ : ℚ} (h : b.exact.Halved r δ) (h0 : 0 ≤ δ) : b.exact.Valid := by
  obtain ⟨⟨h1, h2⟩, h3, h4⟩ := Halved.strict h h0
  exact ⟨lt_trans h1 h2, lt_trans h3 h4⟩

theorem quadrants_rounded {b : AARect (Rounded r)} {δ : ℚ} (h : b.exact.Halved r δ) (h0 : 0 ≤ δ) :
    b.quadrants 0 = ⟨b.centroid.x, b.centroid.y, b.xMax, b.yMax⟩ ∧ b.quadrants 1 = ⟨b.xMin, b.centroid.y, b.centroid.x, b.yMax⟩ ∧
    b.quadrants 2 = ⟨b.xMin, b.yMin, b.centroid.x, b.centroid.y⟩ ∧ b.quadrants 3 = ⟨b.centroid.x, b.yMin, b.xMax, b.centroid.y⟩ := by
  obtain ⟨⟨h1, h2⟩, h3, h4⟩ := Halved.strict h h0
  simp only [AARect.quadrants, Edge.bbox, Edge.xMin, Edge.yMin, Edge.xMax, Edge.yMax, min_eq_right h2.le, min_eq_left h1.le,
    max_eq_left h2.le, max_eq_right h1.le, min_eq_right h4.le, min_eq_left h3.le, max_eq_left h4.le, max_eq_right h3.le, and_self]

theorem quadrants_mem_parts {b : AARect (Rounded r)} {δ : ℚ} (h : b.exact.Halved r δ) (h0 : 0 ≤ δ) (i : Fin 4) :
    (b.quadrants i).exact ∈ b.exact.parts r := by
  obtain ⟨q0, q1, q2, q3⟩ := quadrants_rounded h h0
  unfold AARect.parts
  simp only [List.mem_cons, List.not_mem_nil, or_false]
  fin_cases i
  · left; show (b.quadrants 0).exact = _; rw [q0]; rfl
  · right; left; show (b.quadrants 1).exact = _; rw [q1]; rfl
  · right; right; left; show (b.quadrants 2).exact = _; rw [q2]; rfl
  · right; right; right; show (b.quadrants 3).exact = _; rw [q3]; rfl

/-- The bounds of a quadrant: in each direction it is one of the two halves. -/
theorem quadrant_bounds {b : AARect (Rounded r)} {δ : ℚ} (h : b.exact.Halved r δ) (h0 : 0 ≤ δ) (i : Fin 4) :
    (((b.quadrants i).exact.xMin = b.exact.xMin ∧ (b.quadrants i).exact.xMax = b.centroid.exact.x) ∨
      ((b.quadrants i).exact.xMin = b.centroid.exact.x ∧ (b.quadrants i).exact.xMax = b.exact.xMax)) ∧
    (((b.quadrants i).exact.yMin = b.exact.yMin ∧ (b.quadrants i).exact.yMax = b.centroid.exact.y) ∨
      ((b.quadrants i).exact.yMin = b.centroid.exact.y ∧ (b.quadrants i).exact.yMax = b.exact.yMax)) := by
  obtain ⟨q0, q1, q2, q3⟩ := quadrants_rounded h h0
  fin_cases i
  · show (((b.quadrants 0).exact.xMin = _ ∧ (b.quadrants 0).exact.xMax = _) ∨ (b.quadrants 0).exact.xMin = _ ∧ (b.quadrants 0).exact.xMax = _) ∧
      (((b.quadrants 0).exact.yMin = _ ∧ (b.quadrants 0).exact.yMax = _) ∨ (b.quadrants 0).exact.yMin = _ ∧ (b.quadrants 0).exact.yMax = _)
    rw [q0]; exact ⟨.inr ⟨rfl, rfl⟩, .inr ⟨rfl, rfl⟩⟩
  · show (((b.quadrants 1).exact.xMin = _ ∧ (b.quadrants 1).exact.xMax = _) ∨ (b.quadrants 1).exact.xMin = _ ∧ (b.quadrants 1).exact.xMax = _) ∧
      (((b.quadrants 1).exact.yMin = _ ∧ (b.quadrants 1).exact.yMax = _) ∨ (b.quadrants 1).exact.yMin = _ ∧ (b.quadrants 1).exact.yMax = _)
    rw [q1]; exact ⟨.inl ⟨rfl, rfl⟩, .inr ⟨rfl, rfl⟩⟩
  · show (((b.quadrants 2).exact.xMin = _ ∧ (b.quadrants 2).exact.xMax = _) ∨ (b.quadrants 2).exact.xMin = _ ∧ (b.quadrants 2).exact.xMax = _) ∧
      (((b.quadrants 2).exact.yMin = _ ∧ (b.quadrants 2).exact.yMax = _) ∨ (b.quadrants 2).exact.yMin = _ ∧ (b.quadrants 2).exact.yMax = _)
    rw [q2]; exact ⟨.inl ⟨rfl, rfl⟩, .inl ⟨rfl, rfl⟩⟩
  · show (((b.quadrants 3).exact.xMin = _ ∧ (b.quadrants 3).exact.xMax = _) ∨ (b.quadrants 3).exact.xMin = _ ∧ (b.quadrants 3).exact.xMax = _) ∧
      (((b.quadrants 3).exact.yMin = _ ∧ (b.quadrants 3).exact.yMax = _) ∨ (b.quadrants 3).exact.yMin = _ ∧ (b.quadrants 3).exact.yMax = _)
    rw [q3]; exact ⟨.inr ⟨rfl, rfl⟩, .inl ⟨rfl, rfl⟩⟩

theorem quadrants_subset_rounded {b : AARect (Rounded r)} {δ : ℚ} (h : b.exact.Halved r δ) (h0 : 0 ≤ δ) (i : Fin 4) :
    (b.quadrants i).exact.pts ⊆ b.exact.pts := by
  obtain ⟨⟨a1, a2⟩, a3, a4⟩ := Halved.strict' h h0
  rintro p ⟨p1, p2, p3, p4⟩
  obtain ⟨hx, hy⟩ := quadrant_bounds h h0 i
  refine ⟨?_, ?_, ?_, ?_⟩
  · rcases hx with ⟨x1, x2⟩ | ⟨x1, x2⟩ <;> linarith
  · rcases hx with ⟨x1, x2⟩ | ⟨x1, x2⟩ <;> linarith
  · rcases hy with ⟨y1, y2⟩ | ⟨y1, y2⟩ <;> linarith
  · rcases hy with ⟨y1, y2⟩ | ⟨y1, y2⟩ <;> linarith

theorem centroid_mem_quadrants_rounded {b : AARect (Rounded r)} {δ : ℚ} (h : b.exact.Halved r δ) (h0 : 0 ≤ δ) (i : Fin 4) :
    b.centroid.exact ∈ (b.quadrants i).exact.pts := by
  obtain ⟨⟨a1, a2⟩, a3, a4⟩ := Halved.strict' h h0
  obtain ⟨hx, hy⟩ := quadrant_bounds h h0 i
  refine ⟨?_, ?_, ?_, ?_⟩
  · rcases hx with ⟨x1, x2⟩ | ⟨x1, x2⟩ <;> linarith
  · rcases hx with ⟨x1, x2⟩ | ⟨x1, x2⟩ <;> linarith
  · rcases hy with ⟨y1, y2⟩ | ⟨y1, y2⟩ <;> linarith
  · rcases hy with ⟨y1, y2⟩ | ⟨y1, y2⟩ <;> linarith

theorem quadrants_cover_rounded {b : AARect (Rounded r)} {δ : ℚ} (h : b.exact.Halved r δ) (h0 : 0 ≤ δ) {p : Point ℚ} (hp : p ∈ b.exact.pts) :
    ∃ i, p ∈ (b.quadrants i).exact.pts := by
  obtain ⟨q0, q1, q2, q3⟩ := quadrants_rounded h h0
  obtain ⟨p1, p2, p3, p4⟩ := hp
  rcases le_total p.x b.centroid.exact.x with hx | hx <;> rcases le_total p.y b.centroid.exact.y with hy | hy
  · refine ⟨2, ?_⟩; rw [q2]; exact ⟨p1, hx, p3, hy⟩
  · refine ⟨1, ?_⟩; rw [q1]; exact ⟨p1, hx, hy, p4⟩
  · refine ⟨3, ?_⟩; rw [q3]; exact ⟨hx, p2, p3, hy⟩
  · refine ⟨0, ?_⟩; rw [q0]; exact ⟨hx, p2, hy, p4⟩

theorem Halved.around {b : AARect (Rounded r)} {δ : ℚ} (h : b.exact.Halved r δ) {w : Point ℚ} (hw : w ∈ around b.centroid.exact δ) : w ∈ b.exact.pts := by
  obtain ⟨⟨h1, h2⟩, h3, h4⟩ := h
  obtain ⟨w1, w2⟩ := hw
  rw [centroid_exact] at w1 w2
  rw [abs_le] at w1 w2
  dsimp only at w1 w2
  refine ⟨?_, ?_, ?_, ?_⟩ <;> linarith [w1.1, w1.2, w2.1, w2.2]

/-- Different quadrants have no interior point in common. -/
theorem quadrants_apart {b : AARect (Rounded r)} {δ : ℚ} (h : b.exact.Halved r δ) (h0 : 0 ≤ δ) {i j : Fin 4} (hij : i ≠ j) {w : Point ℚ}
    (hi : w ∈ (b.quadrants i).exact.pts)
    (hj : ((b.quadrants j).exact.xMin < w.x ∧ w.x < (b.quadrants j).exact.xMax) ∧ (b.quadrants j).exact.yMin < w.y ∧ w.y < (b.quadrants j).exact.yMax) : False := by
  obtain ⟨q0, q1, q2, q3⟩ := quadrants_rounded h h0
  obtain ⟨⟨a1, a2⟩, a3, a4⟩ := Halved.strict' h h0
  obtain ⟨⟨j1, j2⟩, j3, j4⟩ := hj
  obtain ⟨i1, i2, i3, i4⟩ := hi
  fin_cases i <;> fin_cases j <;>
    simp only [Fin.zero_eta, Fin.mk_one, Fin.reduceFinMk, ne_eq, not_true_eq_false, q0, q1, q2, q3, AARect.exact, Point.exact] at * <;>
    linarith

/-! ## Relations of rectangles -/

theorem relationTo_rounded (a b : AARect (Rounded r)) : a.relationTo b = a.exact.relationTo b.exact := by
  unfold AARect.relationTo
  rw [rect_collidesRect_rounded]
  simp only [ge_iff_le, val_le]
  rfl

theorem Fpa.onExact_le {f : Fpa (Rounded r)} (hr : ∀ a, f.eq a a = true) (a b : Rounded r) : f.onExact.le a.1 b.1 = f.le a b := by
  unfold Fpa.le
  rw [Fpa.onExact_eq hr]
  rfl

theorem almostRelationTo_rounded {f : Fpa (Rounded r)} (hr : ∀ a, f.eq a a = true) (a b : AARect (Rounded r)) :
    a.almostRelationTo f b = a.exact.almostRelationTo f.onExact b.exact := by
  unfold AARect.almostRelationTo AARect.almostCollidesRect AARect.exact
  simp only [← val_min, ← val_max, Fpa.onExact_le hr]

/-! ## Edges of a polygon -/

theorem mem_exactEdges {s : SPoly (Rounded r)} {e : Edge ℚ} : e ∈ s.exactEdges ↔ ∃ e' ∈ s.edges, e'.exact = e := by
  have : s.exactEdges = s.edges.map Edge.exact := by
    show _ = (polyEdges s.points).map Edge.exact
    rw [← polyEdges_exact]
    unfold SPoly.exactEdges SPoly.exact
    rw [← polyEdges_sides, List.map_map]
    exact List.map_id _
  rw [this, List.mem_map]

theorem bdry_rounded {s : SPoly (Rounded r)} {w : Point ℚ} : w ∈ bdry s.exact ↔ ∃ e ∈ s.edges, w ∈ e.exact.pts := by
  rw [mem_bdry_iff]
  unfold SPoly.exact
  rw [polyEdges_exact]
  simp only [List.mem_map]
  constructor
  · rintro ⟨_, ⟨e, he, rfl⟩, hw⟩; exact ⟨e, he, hw⟩
  · rintro ⟨e, he, hw⟩; exact ⟨_, ⟨e, he, rfl⟩, hw⟩

theorem bdry_index_rounded {s : SPoly (Rounded r)} {w : Point ℚ} (h : w ∈ bdry s.exact) :
    ∃ i e, i < s.points.length ∧ s.edges[i]? = some e ∧ w ∈ e.exact.pts := by
  obtain ⟨e, he, hw⟩ := bdry_rounded.1 h
  obtain ⟨i, hi, hie⟩ := List.mem_iff_getElem.1 he
  refine ⟨i, e, ?_, ?_, hw⟩
  · rw [← s.edges_length]; exact hi
  · rw [List.getElem?_eq_some_iff]; exact ⟨hi, hie⟩

/-! ## Presences -/

/-- The rectangle is divided well and its tests with the edges of a hazard are exact. -/
structure CellOK (s : SPoly (Rounded r)) (δ : ℚ) (b : AARect (Rounded r)) : Prop where
  halved : b.exact.Halved r δ
  edges : ∀ e ∈ s.edges, (b.collidesEdge e = true ↔ ∃ p ∈ e.exact.pts, p ∈ b.exact.pts)

/-- A property of all rectangles that arise from dividing one `n` times. -/
def Deep (P : AARect (Rounded r) → Prop) : ℕ → AARect (Rounded r) → Prop
  | 0, b => P b
  | n + 1, b => P b ∧ ∀ i, Deep P n (b.quadrants i)

theorem Deep.top {P : AARect (Rounded r) → Prop} {n : ℕ} {b : AARect (Rounded r)} (h : Deep P n b) : P b := by
  cases n with
  | zero => exact h
  | succ n => exact h.1

theorem Deep.of_cells {P : AARect (Rounded r) → Prop} {Q : AARect ℚ → Prop} {δ : ℚ} (h0 : 0 ≤ δ) (hQ : ∀ b : AARect (Rounded r), Q b.exact → P b) (n : ℕ)
    {b : AARect (Rounded r)} (hh : ∀ q ∈ b.exact.cells r n, q.Halved r δ) (h : ∀ q ∈ b.exact.cells r n, Q q) : Deep P n b := by
  induction n generalizing b with
  | zero => exact hQ b (h _ (by simp [AARect.cells]))
  | succ n ih =>
    have hb : b.exact.Halved r δ := hh _ (by simp [AARect.cells])
    refine ⟨hQ b (h _ (by simp [AARect.cells])), fun i => ?_⟩
    have sub : ∀ q ∈ (b.quadrants i).exact.cells r n, q ∈ b.exact.cells r (n + 1) := by
      intro q hq
      unfold AARect.cells
      exact List.mem_cons_of_mem _ (List.mem_flatMap.2 ⟨_, quadrants_mem_parts hb h0 i, hq⟩)
    exact ih (fun q hq => hh q (sub q hq)) (fun q hq => h q (sub q hq))

/-- What a stored presence of a hazard (shape `s`, position `pos`) says about the box `b`. -/
def GeoR (pos : GeoPosition) (s : SPoly (Rounded r)) (b : AARect (Rounded r)) : Presence (Rounded r) → Prop
  | .none => ∀ p ∈ b.exact.pts, p ∉ openHaz pos s.exact
  | .entire => ∀ p ∈ b.exact.pts, p ∈ openHaz pos s.exact
  | .partly ⟨sh, .all⟩ => sh.val = s
  | .partly ⟨sh, .some idx⟩ => sh.val = s ∧ idx ≠ [] ∧
      (∀ i ∈ idx, i < s.points.length ∧ edgeHits b s i = true) ∧
      ∀ i < s.points.length, edgeHits b s i = true → i ∈ idx

/-- The box is not larger than the bounding box of the shape in some direction. -/
def FitsR (pos : GeoPosition) (s : SPoly (Rounded r)) (b : AARect (Rounded r)) : Prop :=
  pos = .exterior → b.exact.width ≤ s.bbox.exact.width ∨ b.exact.height ≤ s.bbox.exact.height

theorem GeoR.ok {pos : GeoPosition} {s : SPoly (Rounded r)} {b : AARect (Rounded r)} {p : Presence (Rounded r)} (h : GeoR pos s b p)
    (hn : p ≠ .none) : p.OK := by
  cases p with
  | none => exact absurd rfl hn
  | entire => trivial
  | partly p =>
    rcases p with ⟨sh, _ | idx⟩
    · trivial
    · obtain ⟨rfl, h1, h2, h3⟩ := h
      exact ⟨h1, fun i hi => (h2 i hi).1⟩

theorem GeoR.indices {pos : GeoPosition} {s : SPoly (Rounded r)} {b : AARect (Rounded r)} {p : PartialHaz (Rounded r)}
    (h : GeoR pos s b (.partly p)) : p.shape.val = s ∧ (∀ i ∈ p.indices, i < s.points.length) ∧
      ∀ i < s.points.length, edgeHits b s i = true → i ∈ p.indices := by
  rcases p with ⟨sh, _ | idx⟩
  · have h' : sh.val = s := h
    subst h'
    exact ⟨rfl, fun i hi => List.mem_range.1 hi, fun i hi _ => List.mem_range.2 hi⟩
  · exact ⟨h.1, fun i hi => (h.2.2.1 i hi).1, h.2.2.2⟩

theorem edgeHits_rounded {s : SPoly (Rounded r)} {δ : ℚ} {b : AARect (Rounded r)} (hc : CellOK s δ b) {i : ℕ} :
    edgeHits b s i = true ↔ ∃ e, s.edges[i]? = some e ∧ ∃ p, p ∈ e.exact.pts ∧ p ∈ b.exact.pts := by
  unfold edgeHits SPoly.getEdge
  rcases he : s.edges[i]? with _ | e
  · simp
  · simp only [Option.some.injEq, exists_eq_left', hc.edges e (List.mem_of_getElem? he)]

theorem quadrants_smaller {b : AARect (Rounded r)} {δ : ℚ} (h : b.exact.Halved r δ) (h0 : 0 ≤ δ) (i : Fin 4) :
    (b.quadrants i).exact.width < b.exact.width ∧ (b.quadrants i).exact.height < b.exact.height := by
  obtain ⟨⟨a1, a2⟩, a3, a4⟩ := Halved.strict' h h0
  obtain ⟨hx, hy⟩ := quadrant_bounds h h0 i
  unfold AARect.width AARect.height
  constructor
  · rcases hx with ⟨x1, x2⟩ | ⟨x1, x2⟩ <;> linarith
  · rcases hy with ⟨x1, x2⟩ | ⟨x1, x2⟩ <;> linarith

theorem FitsR.quadrant {pos : GeoPosition} {s : SPoly (Rounded r)} {b : AARect (Rounded r)} {δ : ℚ} (hb : b.exact.Halved r δ) (h0 : 0 ≤ δ)
    (h : FitsR pos s b) (i : Fin 4) : FitsR pos s (b.quadrants i) := by
  intro hp
  obtain ⟨d1, d2⟩ := quadrants_smaller hb h0 i
  rcases h hp with h | h
  · left; linarith
  · right; linarith

theorem Tame.box {s : SPoly (Rounded r)} {M δ : ℚ} (hs : s.Tame u M δ) : s.bbox.exact = boundingBox s.exact := by
  rw [hs.bbox_eq]
  exact (boundingBox_exact hs.nonempty).symm

theorem Tame.valid {s : SPoly (Rounded r)} {M δ : ℚ} (hs : s.Tame u M δ) : s.bbox.exact.Valid := by
  rw [Tame.box hs]
  have := interior_subset_inner hs.poi
  exact ⟨this.1.trans this.2.1, this.2.2.1.trans this.2.2.2⟩

theorem FitsR.not_enclosed {s : SPoly (Rounded r)} {M δ : ℚ} (hs : s.Tame u M δ) {b : AARect (Rounded r)} (hb : b.exact.Halved r δ) (h0 : 0 ≤ δ)
    (h : FitsR .exterior s b) (i : Fin 4) : s.bbox.relationTo (b.quadrants i) ≠ .enclosed := by
  intro he
  rw [relationTo_rounded] at he
  have hsub := relationTo_enclosed he
  rw [pts_subset_iff (Tame.valid hs)] at hsub
  obtain ⟨d1, d2⟩ := quadrants_smaller hb h0 i
  obtain ⟨h1, h2, h3, h4⟩ := hsub
  unfold AARect.width at d1
  unfold AARect.height at d2
  rcases h rfl with h | h
  · unfold AARect.width at h; linarith
  · unfold AARect.height at h; linarith

/-- Away from the outline the computed test decides membership in the interior. -/
theorem Tame.collidesPoint (st : r.Standard u) (hu : u ≤ 1 / 256) {f : Fpa (Rounded r)} {M ε δ : ℚ} (hf : f.TolerantIn M ε) (h0 : 0 ≤ ε) (hε : ε ≤ δ)
    {s : SPoly (Rounded r)} (hs : s.Tame u M δ) {p : Point (Rounded r)} (hp : ∀ q ∈ bdry s.exact, q ∉ around p.exact δ) :
    s.collidesPoint f p = true ↔ p.exact ∈ interior s.exact := by
  have hw : 0 < s.bbox.exact.width := sub_pos.2 (Tame.valid hs).1
  refine SPoly.collidesPoint_rounded st hu hf h0 ⟨hs.bbox_eq, hs.nonempty, rfl⟩ hw hs.bounded hs.wide ?_
  intro q hq
  have := hp q hq
  exact ⟨fun h => this ⟨h.1.trans hε, h.2.trans hε⟩, fun h => this ⟨h.1.trans hs.fine, h.2.trans hs.fine⟩⟩

/-- Handing a hazard down to the quadrants. -/
theorem constrictP_rounded (st : r.Standard u) (hu : u ≤ 1 / 256) {f : Fpa (Rounded r)} {M ε δ : ℚ} (hf : f.TolerantIn M ε) (h0 : 0 ≤ ε) (hε : ε ≤ δ)
    {e : HazardEntity (Rounded r)} {s : SPoly (Rounded r)} (hs : s.Tame u M δ) {b : AARect (Rounded r)} (hb : CellOK s δ b)
    (hq : ∀ i, CellOK s δ (b.quadrants i)) {p : PartialHaz (Rounded r)} (hp : GeoR e.position s b (.partly p)) (hfit : FitsR e.position s b)
    {g : Fin 4 → Presence (Rounded r)} (hg : constrictP f e (.partly p) b.quadrants = some g) :
    (∀ i, GeoR e.position s (b.quadrants i) (g i)) ∧
    ∀ w ∈ bdry s.exact, w ∈ b.exact.pts → ∃ i, w ∈ (b.quadrants i).exact.pts ∧ (g i).isPartial = true := by
  have hδ : 0 ≤ δ := h0.trans hε
  have hh := hb.halved
  obtain ⟨hsh, hlt, hcov⟩ := hp.indices
  unfold constrictP at hg
  dsimp only at hg
  rw [hsh] at hg
  cases hfind : [0, 1, 2, 3].find? (fun i : Fin 4 => s.bbox.relationTo (b.quadrants i) = .enclosed) with
  | some j =>
    rw [hfind] at hg
    obtain rfl := Option.some.inj hg
    have hj : s.bbox.relationTo (b.quadrants j) = .enclosed := by simpa using List.find?_some hfind
    have hpos : e.position = .interior := by
      cases hpos : e.position with
      | interior => rfl
      | exterior =>
        rw [hpos] at hfit
        exact absurd hj (hfit.not_enclosed hs hh hδ j)
    rw [relationTo_rounded] at hj
    have hsub := relationTo_enclosed hj
    constructor
    · intro i
      dsimp only
      by_cases hij : i = j
      · rw [if_pos hij, hij]
        rcases p with ⟨sh, _ | idx⟩
        · exact hsh
        · refine ⟨hsh, hp.2.1, ?_, ?_⟩
          · intro k hk
            obtain ⟨h1, h2⟩ := hp.2.2.1 k hk
            refine ⟨h1, ?_⟩
            rw [edgeHits_rounded hb] at h2
            rw [edgeHits_rounded (hq j)]
            obtain ⟨e', he', w, hw, hwr⟩ := h2
            refine ⟨e', he', w, hw, hsub ?_⟩
            rw [Tame.box hs]
            exact bdry_subset_bbox (bdry_rounded.2 ⟨e', List.mem_of_getElem? he', hw⟩)
          · intro k hk hit
            apply hcov k hk
            rw [edgeHits_rounded (hq j)] at hit
            rw [edgeHits_rounded hb]
            obtain ⟨e', he', w, hw, hwr⟩ := hit
            exact ⟨e', he', w, hw, quadrants_subset_rounded hh hδ j hwr⟩
      · rw [if_neg hij, hpos]
        intro w hw ho
        have hin := interior_subset_inner ho
        rw [← Tame.box hs] at hin
        rw [pts_subset_iff (Tame.valid hs)] at hsub
        obtain ⟨a1, a2, a3, a4⟩ := hin
        obtain ⟨b1, b2, b3, b4⟩ := hsub
        exact quadrants_apart hh hδ hij hw ⟨⟨by linarith, by linarith⟩, by linarith, by linarith⟩
    · intro w hw hwr
      refine ⟨j, hsub ?_, ?_⟩
      · rw [Tame.box hs]
        exact bdry_subset_bbox hw
      · simp [Presence.isPartial]
  | none =>
    rw [hfind] at hg
    dsimp only at hg
    have hok : (Presence.partly p).OK := hp.ok (by simp)
    rw [seq4_some (g := fun i => edgeResult (b.quadrants i) p.shape p.indices) (fun i => edgePhase_eq _ _ hok)] at hg
    dsimp only at hg
    rw [seq4_eq_some] at hg
    obtain ⟨g', h1, h2, h3⟩ := resolve_spec f e s b.quadrants (fun i => edgeResult (b.quadrants i) p.shape p.indices)
    have hgg : g' = g := by
      funext i
      exact Option.some.inj ((h1 i).symm.trans (hg i))
    subst hgg
    -- quadrants without edges contain no boundary point
    have hnob : ∀ i, edgeResult (b.quadrants i) p.shape p.indices = none → ∀ w ∈ (b.quadrants i).exact.pts, w ∉ bdry s.exact := by
      intro i hi w hw hb'
      obtain ⟨k, e', hk, hke, hwe⟩ := bdry_index_rounded hb'
      have hit : edgeHits (b.quadrants i) s k = true := (edgeHits_rounded (hq i)).2 ⟨e', hke, w, hwe, hw⟩
      have hkr : edgeHits b s k = true := (edgeHits_rounded hb).2 ⟨e', hke, w, hwe, quadrants_subset_rounded hh hδ i hw⟩
      have hmem := hcov k hk hkr
      unfold edgeResult at hi
      split_ifs at hi with hnil
      rw [hsh] at hnil
      have : k ∈ p.indices.filter (edgeHits (b.quadrants i) s) := List.mem_filter.2 ⟨hmem, hit⟩
      rw [hnil] at this
      simp at this
    classical
    set v0 : Presence (Rounded r) := if b.centroid.exact ∈ openHaz e.position s.exact then .entire else .none with hv0
    have hcent : ∀ i, edgeResult (b.quadrants i) p.shape p.indices = none → ∀ w ∈ (b.quadrants i).exact.pts,
        (w ∈ openHaz e.position s.exact ↔ b.centroid.exact ∈ openHaz e.position s.exact) := by
      intro i hi w hw
      apply openHaz_const
      intro v hv
      exact hnob i hi v (seg_in_rect hw (centroid_mem_quadrants_rounded hh hδ i) hv)
    have hcp : ∀ i, edgeResult (b.quadrants i) p.shape p.indices = none → centroidPresence f e s (b.quadrants i) = v0 := by
      intro i hi
      have hcm : (b.quadrants i).centroid.exact ∈ (b.quadrants i).exact.pts := Halved.around (hq i).halved (around_self _ hδ)
      have hnb := hnob i hi _ hcm
      have hci := hcent i hi _ hcm
      rw [openHaz_iff hnb] at hci
      have hcol : s.collidesPoint f (b.quadrants i).centroid = true ↔ (b.quadrants i).centroid.exact ∈ interior s.exact :=
        Tame.collidesPoint st hu hf h0 hε hs fun q hq' hqa => hnob i hi q (Halved.around (hq i).halved hqa) hq'
      rw [hv0]
      unfold centroidPresence
      cases hpos : e.position with
      | interior =>
        rw [hpos] at hci
        dsimp only at hci
        by_cases hin : b.centroid.exact ∈ openHaz GeoPosition.interior s.exact
        · rw [if_pos hin, hcol.2 (hci.2 hin)]
        · rw [if_neg hin]
          have : s.collidesPoint f (b.quadrants i).centroid = false := by
            rw [← Bool.not_eq_true, hcol]; exact fun h => hin (hci.1 h)
          rw [this]
      | exterior =>
        rw [hpos] at hci
        dsimp only at hci
        by_cases hin : b.centroid.exact ∈ openHaz GeoPosition.exterior s.exact
        · rw [if_pos hin]
          have : s.collidesPoint f (b.quadrants i).centroid = false := by
            rw [← Bool.not_eq_true, hcol]; exact hci.2 hin
          rw [this]
        · rw [if_neg hin]
          have : s.collidesPoint f (b.quadrants i).centroid = true := by
            rw [hcol]; by_contra h; exact hin (hci.1 h)
          rw [this]
    have hpartial : ∀ i pr, edgeResult (b.quadrants i) p.shape p.indices = some pr → pr.isPartial = true := by
      intro i pr hi
      unfold edgeResult at hi
      split_ifs at hi
      rw [← Option.some.inj hi]; rfl
    constructor
    · intro i
      rcases hi : edgeResult (b.quadrants i) p.shape p.indices with _ | pr
      · have hval := resolve_value (st := fun i => edgeResult (b.quadrants i) p.shape p.indices) hpartial hcp hg hi
        rw [hval, hv0]
        split_ifs with hc
        · intro w hw
          exact (hcent i hi w hw).2 hc
        · intro w hw h
          exact hc ((hcent i hi w hw).1 h)
      · rw [h2 i pr hi]
        unfold edgeResult at hi
        split_ifs at hi with hnil
        rw [← Option.some.inj hi]
        rw [hsh] at hnil ⊢
        refine ⟨hsh, hnil, ?_, ?_⟩
        · intro k hk
          obtain ⟨k1, k2⟩ := List.mem_filter.1 hk
          exact ⟨hlt k k1, k2⟩
        · intro k hk hit
          refine List.mem_filter.2 ⟨hcov k hk ?_, hit⟩
          rw [edgeHits_rounded (hq i)] at hit
          rw [edgeHits_rounded hb]
          obtain ⟨e', he', w, hw, hwr⟩ := hit
          exact ⟨e', he', w, hw, quadrants_subset_rounded hh hδ i hwr⟩
    · intro w hw hwr
      obtain ⟨i, hi⟩ := quadrants_cover_rounded hh hδ hwr
      refine ⟨i, hi, ?_⟩
      rcases her : edgeResult (b.quadrants i) p.shape p.indices with _ | pr
      · exact absurd hw (hnob i her w hi)
      · rw [h2 i pr her]
        exact hpartial i pr her

end Jagua
