import Verif.Lemmas.EdgeGeo

/-! # Lemmas: axis-aligned rectangles -/

set_option linter.unusedSectionVars false

namespace Jagua

variable {K : Type*} [Field K] [LinearOrder K] [IsStrictOrderedRing K]

theorem collidesPoint_iff (r : AARect K) (p : Point K) : r.collidesPoint p = true ↔ p ∈ r.pts := by
  simp [AARect.collidesPoint, AARect.pts, and_assoc]

theorem rect_collidesRect_iff (a b : AARect K) :
    a.collidesRect b = true ↔ ∃ p, p ∈ a.pts ∧ p ∈ b.pts := by
  simp only [AARect.collidesRect, Bool.and_eq_true, decide_eq_true_eq, AARect.pts, Set.mem_ofPred_eq]
  constructor
  · rintro ⟨h1, h2⟩
    refine ⟨⟨max a.xMin b.xMin, max a.yMin b.yMin⟩, ⟨le_max_left _ _, ?_, le_max_left _ _, ?_⟩,
      le_max_right _ _, ?_, le_max_right _ _, ?_⟩
    · exact h1.trans (min_le_left _ _)
    · exact h2.trans (min_le_left _ _)
    · exact h1.trans (min_le_right _ _)
    · exact h2.trans (min_le_right _ _)
  · rintro ⟨p, h1, h2⟩
    exact ⟨(max_le h1.1 h2.1).trans (le_min h1.2.1 h2.2.1),
      (max_le h1.2.2.1 h2.2.2.1).trans (le_min h1.2.2.2 h2.2.2.2)⟩

theorem seg_in_rect {r : AARect K} {a b p : Point K} (ha : a ∈ r.pts) (hb : b ∈ r.pts)
    (hp : p ∈ segPts a b) : p ∈ r.pts := by
  obtain ⟨t, h0, h1, hx, hy⟩ := hp
  obtain ⟨a1, a2, a3, a4⟩ := ha
  obtain ⟨b1, b2, b3, b4⟩ := hb
  have hx' := lerp_bounds (a := a.x) (b := b.x) h0 h1
  have hy' := lerp_bounds (a := a.y) (b := b.y) h0 h1
  rw [← hx] at hx'
  rw [← hy] at hy'
  exact ⟨(le_min a1 b1).trans hx'.1, hx'.2.trans (max_le a2 b2),
    (le_min a3 b3).trans hy'.1, hy'.2.trans (max_le a4 b4)⟩

theorem rectEdge_subset {r : AARect K} (hx : r.xMin ≤ r.xMax) (hy : r.yMin ≤ r.yMax) {f : Edge K}
    (hf : f ∈ r.edges) {p : Point K} (hp : p ∈ f.pts) : p ∈ r.pts := by
  have c0 : (⟨r.xMax, r.yMax⟩ : Point K) ∈ r.pts := ⟨hx, le_rfl, hy, le_rfl⟩
  have c1 : (⟨r.xMin, r.yMax⟩ : Point K) ∈ r.pts := ⟨le_rfl, hx, hy, le_rfl⟩
  have c2 : (⟨r.xMin, r.yMin⟩ : Point K) ∈ r.pts := ⟨le_rfl, hx, le_rfl, hy⟩
  have c3 : (⟨r.xMax, r.yMin⟩ : Point K) ∈ r.pts := ⟨hx, le_rfl, le_rfl, hy⟩
  simp only [AARect.edges, List.mem_cons, List.not_mem_nil, or_false] at hf
  rcases hf with rfl | rfl | rfl | rfl
  · exact seg_in_rect c0 c1 hp
  · exact seg_in_rect c1 c2 hp
  · exact seg_in_rect c2 c3 hp
  · exact seg_in_rect c3 c0 hp

/-- Point on a vertical side. -/
theorem mem_vert {x y y0 y1 : K} (h : y0 < y1) (h0 : y0 ≤ y) (h1 : y ≤ y1) :
    (⟨x, y⟩ : Point K) ∈ segPts ⟨x, y0⟩ ⟨x, y1⟩ := by
  have hp : (0:K) < y1 - y0 := by linarith
  refine ⟨(y - y0) / (y1 - y0), div_nonneg (by linarith) hp.le, ?_, by simp, ?_⟩
  · rw [div_le_one hp]; linarith
  · show y = y0 + (y - y0) / (y1 - y0) * (y1 - y0)
    rw [div_mul_cancel₀ _ hp.ne']; ring

/-- Point on a horizontal side. -/
theorem mem_horiz {y x x0 x1 : K} (h : x0 < x1) (h0 : x0 ≤ x) (h1 : x ≤ x1) :
    (⟨x, y⟩ : Point K) ∈ segPts ⟨x0, y⟩ ⟨x1, y⟩ := by
  have hp : (0:K) < x1 - x0 := by linarith
  refine ⟨(x - x0) / (x1 - x0), div_nonneg (by linarith) hp.le, ?_, ?_, by simp⟩
  · rw [div_le_one hp]; linarith
  · show x = x0 + (x - x0) / (x1 - x0) * (x1 - x0)
    rw [div_mul_cancel₀ _ hp.ne']; ring

/-- Intersection of the segment `p b` with a vertical line `x = c` between them. -/
theorem cross_vert {p b : Point K} {c : K} (h : (p.x ≤ c ∧ c < b.x) ∨ (b.x < c ∧ c ≤ p.x)) :
    ∃ t : K, 0 ≤ t ∧ t < 1 ∧ p.x + t * (b.x - p.x) = c ∧ p.x ≠ b.x := by
  rcases h with ⟨h1, h2⟩ | ⟨h1, h2⟩
  · have hp : (0:K) < b.x - p.x := by linarith
    refine ⟨(c - p.x) / (b.x - p.x), div_nonneg (by linarith) hp.le, ?_, ?_, by intro h; linarith⟩
    · rw [div_lt_one hp]; linarith
    · rw [div_mul_cancel₀ _ hp.ne']; ring
  · have hp : (0:K) < p.x - b.x := by linarith
    refine ⟨(p.x - c) / (p.x - b.x), div_nonneg (by linarith) hp.le, ?_, ?_, by intro h; linarith⟩
    · rw [div_lt_one hp]; linarith
    · have : b.x - p.x = -(p.x - b.x) := by ring
      rw [this, mul_neg, div_mul_cancel₀ _ hp.ne']; ring

theorem cross_horiz {p b : Point K} {c : K} (h : (p.y ≤ c ∧ c < b.y) ∨ (b.y < c ∧ c ≤ p.y)) :
    ∃ t : K, 0 ≤ t ∧ t < 1 ∧ p.y + t * (b.y - p.y) = c ∧ p.y ≠ b.y := by
  have := cross_vert (p := ⟨p.y, p.x⟩) (b := ⟨b.y, b.x⟩) (c := c) h
  exact this

/-- A side of the rectangle that a segment leaves through, not parallel to it. -/
def HitsSide (r : AARect K) (p b : Point K) : Prop :=
  ∃ re ∈ r.edges, ∃ q, q ∈ segPts p b ∧ q ∈ re.pts ∧ ¬ (Edge.mk p b).Parallel re

theorem hits_right {r : AARect K} {p b : Point K} (hv : r.Valid) {t : K} (t0 : 0 ≤ t) (t1 : t ≤ 1)
    (hx : p.x + t * (b.x - p.x) = r.xMax) (hne : p.x ≠ b.x)
    (y0 : r.yMin ≤ p.y + t * (b.y - p.y)) (y1 : p.y + t * (b.y - p.y) ≤ r.yMax) : HitsSide r p b := by
  refine ⟨⟨⟨r.xMax, r.yMin⟩, ⟨r.xMax, r.yMax⟩⟩, by simp [AARect.edges],
    ⟨r.xMax, p.y + t * (b.y - p.y)⟩, ⟨t, t0, t1, hx.symm, rfl⟩, mem_vert hv.2 y0 y1, ?_⟩
  simp only [Edge.Parallel, sub_self, mul_zero, mul_eq_zero, not_or]
  exact ⟨sub_ne_zero.2 hne.symm, sub_ne_zero.2 hv.2.ne'⟩

theorem hits_left {r : AARect K} {p b : Point K} (hv : r.Valid) {t : K} (t0 : 0 ≤ t) (t1 : t ≤ 1)
    (hx : p.x + t * (b.x - p.x) = r.xMin) (hne : p.x ≠ b.x)
    (y0 : r.yMin ≤ p.y + t * (b.y - p.y)) (y1 : p.y + t * (b.y - p.y) ≤ r.yMax) : HitsSide r p b := by
  refine ⟨⟨⟨r.xMin, r.yMax⟩, ⟨r.xMin, r.yMin⟩⟩, by simp [AARect.edges],
    ⟨r.xMin, p.y + t * (b.y - p.y)⟩, ⟨t, t0, t1, hx.symm, rfl⟩, ?_, ?_⟩
  · show _ ∈ segPts _ _
    rw [segPts_comm]
    exact mem_vert hv.2 y0 y1
  · simp only [Edge.Parallel, sub_self, mul_zero, mul_eq_zero, not_or]
    exact ⟨sub_ne_zero.2 hne.symm, sub_ne_zero.2 hv.2.ne⟩

theorem hits_top {r : AARect K} {p b : Point K} (hv : r.Valid) {t : K} (t0 : 0 ≤ t) (t1 : t ≤ 1)
    (hy : p.y + t * (b.y - p.y) = r.yMax) (hne : p.y ≠ b.y)
    (x0 : r.xMin ≤ p.x + t * (b.x - p.x)) (x1 : p.x + t * (b.x - p.x) ≤ r.xMax) : HitsSide r p b := by
  refine ⟨⟨⟨r.xMax, r.yMax⟩, ⟨r.xMin, r.yMax⟩⟩, by simp [AARect.edges],
    ⟨p.x + t * (b.x - p.x), r.yMax⟩, ⟨t, t0, t1, rfl, hy.symm⟩, ?_, ?_⟩
  · show _ ∈ segPts _ _
    rw [segPts_comm]
    exact mem_horiz hv.1 x0 x1
  · simp only [Edge.Parallel, sub_self, mul_zero]
    intro h
    exact (mul_ne_zero (sub_ne_zero.2 hne.symm) (sub_ne_zero.2 hv.1.ne)) h.symm

theorem hits_bottom {r : AARect K} {p b : Point K} (hv : r.Valid) {t : K} (t0 : 0 ≤ t) (t1 : t ≤ 1)
    (hy : p.y + t * (b.y - p.y) = r.yMin) (hne : p.y ≠ b.y)
    (x0 : r.xMin ≤ p.x + t * (b.x - p.x)) (x1 : p.x + t * (b.x - p.x) ≤ r.xMax) : HitsSide r p b := by
  refine ⟨⟨⟨r.xMin, r.yMin⟩, ⟨r.xMax, r.yMin⟩⟩, by simp [AARect.edges],
    ⟨p.x + t * (b.x - p.x), r.yMin⟩, ⟨t, t0, t1, rfl, hy.symm⟩, mem_horiz hv.1 x0 x1, ?_⟩
  simp only [Edge.Parallel, sub_self, mul_zero]
  intro h
  exact (mul_ne_zero (sub_ne_zero.2 hne.symm) (sub_ne_zero.2 hv.1.ne')) h.symm

/-- When `y` at parameter `t` exceeded the top, it is crossed earlier, with `x` in between. -/
theorem exit_y {r : AARect K} {p b : Point K} (hv : r.Valid) (hp : p ∈ r.pts) {t : K}
    (t0 : 0 ≤ t) (t1 : t ≤ 1)
    (hx0 : r.xMin ≤ p.x + t * (b.x - p.x)) (hx1 : p.x + t * (b.x - p.x) ≤ r.xMax)
    (hy : r.yMax < p.y + t * (b.y - p.y) ∨ p.y + t * (b.y - p.y) < r.yMin) : HitsSide r p b := by
  obtain ⟨p1, p2, p3, p4⟩ := hp
  set q : Point K := ⟨p.x + t * (b.x - p.x), p.y + t * (b.y - p.y)⟩ with hq
  rcases hy with hy | hy
  · obtain ⟨s, s0, s1, hs, hne⟩ := cross_horiz (p := p) (b := q) (c := r.yMax) (Or.inl ⟨p4, hy⟩)
    have hbounds := lerp_bounds (a := p.x) (b := q.x) s0 s1.le
    refine hits_top (t := s * t) hv (mul_nonneg s0 t0) (mul_le_one₀ s1.le t0 t1) ?_ ?_ ?_ ?_
    · rw [← hs, hq]; ring
    · intro h; apply hne; rw [hq]; simp [h]
    · refine le_trans (le_min p1 hx0) (le_trans hbounds.1 (le_of_eq ?_)); rw [hq]; ring
    · refine le_trans (le_trans (le_of_eq ?_) hbounds.2) (max_le p2 hx1); rw [hq]; ring
  · obtain ⟨s, s0, s1, hs, hne⟩ := cross_horiz (p := p) (b := q) (c := r.yMin) (Or.inr ⟨hy, p3⟩)
    have hbounds := lerp_bounds (a := p.x) (b := q.x) s0 s1.le
    refine hits_bottom (t := s * t) hv (mul_nonneg s0 t0) (mul_le_one₀ s1.le t0 t1) ?_ ?_ ?_ ?_
    · rw [← hs, hq]; ring
    · intro h; apply hne; rw [hq]; simp [h]
    · refine le_trans (le_min p1 hx0) (le_trans hbounds.1 (le_of_eq ?_)); rw [hq]; ring
    · refine le_trans (le_trans (le_of_eq ?_) hbounds.2) (max_le p2 hx1); rw [hq]; ring

/-- A segment from inside a rectangle to the outside meets a side it is not parallel to. -/
theorem exit_rect {r : AARect K} {p b : Point K} (hv : r.Valid) (hp : p ∈ r.pts) (hb : b ∉ r.pts) :
    HitsSide r p b := by
  have hp' := hp
  obtain ⟨p1, p2, p3, p4⟩ := hp
  by_cases hxr : b.x > r.xMax
  · obtain ⟨t, t0, t1, ht, hne⟩ := cross_vert (p := p) (b := b) (c := r.xMax) (Or.inl ⟨p2, hxr⟩)
    by_cases hy : r.yMin ≤ p.y + t * (b.y - p.y) ∧ p.y + t * (b.y - p.y) ≤ r.yMax
    · exact hits_right hv t0 t1.le ht hne hy.1 hy.2
    · refine exit_y hv hp' t0 t1.le (by rw [ht]; exact hv.1.le) (by rw [ht]) ?_
      rw [not_and_or, not_le, not_le] at hy
      exact hy.symm
  · by_cases hxl : b.x < r.xMin
    · obtain ⟨t, t0, t1, ht, hne⟩ := cross_vert (p := p) (b := b) (c := r.xMin) (Or.inr ⟨hxl, p1⟩)
      by_cases hy : r.yMin ≤ p.y + t * (b.y - p.y) ∧ p.y + t * (b.y - p.y) ≤ r.yMax
      · exact hits_left hv t0 t1.le ht hne hy.1 hy.2
      · refine exit_y hv hp' t0 t1.le (by rw [ht]) (by rw [ht]; exact hv.1.le) ?_
        rw [not_and_or, not_le, not_le] at hy
        exact hy.symm
    · have e1 : p.x + 1 * (b.x - p.x) = b.x := by ring
      have e2 : p.y + 1 * (b.y - p.y) = b.y := by ring
      refine exit_y (t := 1) hv hp' zero_le_one le_rfl (by rw [e1]; exact not_lt.1 hxl)
        (by rw [e1]; exact not_lt.1 hxr) ?_
      rw [e2]
      by_contra hcon
      rw [not_or, not_lt, not_lt] at hcon
      exact hb ⟨not_lt.1 hxl, not_lt.1 hxr, hcon.2, hcon.1⟩

/-- The signed side function of an edge. -/
def sideOf (e : Edge K) (p : Point K) : K :=
  (p.x - e.start.x) * (e.stop.y - e.start.y) - (p.y - e.start.y) * (e.stop.x - e.start.x)

theorem sideOf_on {e : Edge K} {p : Point K} (h : p ∈ e.pts) : sideOf e p = 0 := by
  obtain ⟨t, _, _, hx, hy⟩ := h
  unfold sideOf
  rw [hx, hy]; ring

/-- A rectangle point on the line of the edge prevents all corners from being strictly on one side. -/
theorem corner_le {r : AARect K} {e : Edge K} {p : Point K} (hp : p ∈ r.pts) (h0 : sideOf e p = 0) :
    ∃ c ∈ r.corners, sideOf e c ≤ 0 := by
  obtain ⟨p1, p2, p3, p4⟩ := hp
  unfold sideOf at h0
  simp only [AARect.corners, List.mem_cons, List.not_mem_nil, or_false, exists_eq_or_imp,
    exists_eq_left, sideOf]
  set dx := e.stop.x - e.start.x
  set dy := e.stop.y - e.start.y
  rcases le_total 0 dx with hx | hx <;> rcases le_total 0 dy with hy | hy
  · right; left
    nlinarith [mul_le_mul_of_nonneg_right p1 hy, mul_le_mul_of_nonneg_right p4 hx]
  · left
    nlinarith [mul_le_mul_of_nonpos_right p2 hy, mul_le_mul_of_nonneg_right p4 hx]
  · right; right; left
    nlinarith [mul_le_mul_of_nonneg_right p1 hy, mul_le_mul_of_nonpos_right p3 hx]
  · right; right; right
    nlinarith [mul_le_mul_of_nonpos_right p2 hy, mul_le_mul_of_nonpos_right p3 hx]

theorem corner_ge {r : AARect K} {e : Edge K} {p : Point K} (hp : p ∈ r.pts) (h0 : sideOf e p = 0) :
    ∃ c ∈ r.corners, 0 ≤ sideOf e c := by
  have h1 : sideOf e.reverse p = 0 := by
    unfold sideOf Edge.reverse at *
    linear_combination -h0
  obtain ⟨c, hc, hle⟩ := corner_le hp h1
  refine ⟨c, hc, ?_⟩
  have : sideOf e c = - sideOf e.reverse c := by unfold sideOf Edge.reverse; ring
  rw [this]; linarith

theorem rect_collidesEdge_iff (r : AARect K) (e : Edge K) (hv : r.Valid) :
    r.collidesEdge e = true ↔ ∃ p, p ∈ e.pts ∧ p ∈ r.pts := by
  constructor
  · intro h
    unfold AARect.collidesEdge at h
    split at h
    · simp at h
    · split at h
      · rename_i hc
        rw [Bool.or_eq_true, collidesPoint_iff, collidesPoint_iff] at hc
        rcases hc with hc | hc
        · exact ⟨_, segPts_start _ _, hc⟩
        · exact ⟨_, segPts_stop _ _, hc⟩
      · dsimp only at h
        split at h
        · simp at h
        · rw [List.any_eq_true] at h
          obtain ⟨f, hf, hcol⟩ := h
          obtain ⟨_, p, hp, hq⟩ := (collidesEdge_iff e f).1 hcol
          exact ⟨p, hp, rectEdge_subset hv.1.le hv.2.le hf hq⟩
  · rintro ⟨p, hp, hr⟩
    have hb := mem_pts_bounds hp
    unfold AARect.collidesEdge
    rw [if_neg]
    · split
      · rfl
      · rename_i hc
        rw [Bool.or_eq_true, collidesPoint_iff, collidesPoint_iff, not_or] at hc
        have hside := sideOf_on hp
        obtain ⟨c, hcm, hcle⟩ := corner_le hr hside
        obtain ⟨c', hcm', hcge⟩ := corner_ge hr hside
        have hnd : ¬ (e.stop.x = e.start.x ∧ e.stop.y = e.start.y) := by
          rintro ⟨h1, h2⟩
          apply hc.1
          obtain ⟨t, _, _, hx, hy⟩ := hp
          have : e.start = p := by
            ext
            · rw [hx, h1]; ring
            · rw [hy, h2]; ring
          rw [this]; exact hr
        dsimp only
        rw [if_neg]
        · rw [List.any_eq_true]
          obtain ⟨re, hre, q, hq, hqre, hpar⟩ := exit_rect hv hr hc.2
          refine ⟨re, hre, (collidesEdge_iff e re).2 ⟨?_, q, ?_, hqre⟩⟩
          · intro hpar'
            apply hpar
            obtain ⟨t, _, _, hx, hy⟩ := hp
            unfold Edge.Parallel at *
            simp only
            rw [hx, hy]
            linear_combination (1 - t) * hpar'
          · obtain ⟨t, ht0, ht1, hx, hy⟩ := hp
            obtain ⟨s, hs0, hs1, hsx, hsy⟩ := hq
            refine ⟨t + s * (1 - t), ?_, ?_, ?_, ?_⟩
            · have := mul_nonneg hs0 (sub_nonneg.2 ht1); linarith
            · nlinarith
            · rw [hsx, hx]; ring
            · rw [hsy, hy]; ring
        · rintro ⟨h01, h12, h23⟩
          unfold AARect.pointEdgeRelation at h01 h12 h23
          have key : ∀ d ∈ r.corners, ∀ d' ∈ r.corners,
              compare (sideOf e d) 0 = compare (sideOf e d') 0 := by
            simp only [AARect.corners, List.mem_cons, List.not_mem_nil, or_false, sideOf]
            intro d hd d' hd'
            rcases hd with rfl | rfl | rfl | rfl <;> rcases hd' with rfl | rfl | rfl | rfl <;>
              simp_all
          have hz : ∀ d ∈ r.corners, sideOf e d = 0 := by
            intro d hd
            rcases lt_trichotomy (sideOf e d) 0 with hlt | heq | hgt
            · have := key d hd c' hcm'
              rw [compare_lt_iff_lt.2 hlt] at this
              have := compare_lt_iff_lt.1 this.symm
              linarith
            · exact heq
            · have := key d hd c hcm
              rw [compare_gt_iff_gt.2 hgt] at this
              have := compare_gt_iff_gt.1 this.symm
              linarith
          have z0 := hz ⟨r.xMax, r.yMax⟩ (by simp [AARect.corners])
          have z1 := hz ⟨r.xMin, r.yMax⟩ (by simp [AARect.corners])
          have z3 := hz ⟨r.xMax, r.yMin⟩ (by simp [AARect.corners])
          unfold sideOf at z0 z1 z3
          simp only at z0 z1 z3
          apply hnd
          constructor
          · have : (r.yMax - r.yMin) * (e.stop.x - e.start.x) = 0 := by linear_combination z3 - z0
            rcases mul_eq_zero.1 this with h | h
            · linarith [hv.2]
            · linarith
          · have : (r.xMax - r.xMin) * (e.stop.y - e.start.y) = 0 := by linear_combination z0 - z1
            rcases mul_eq_zero.1 this with h | h
            · linarith [hv.1]
            · linarith
    · intro h
      obtain ⟨r1, r2, r3, r4⟩ := hr
      obtain ⟨b1, b2, b3, b4⟩ := hb
      rcases h with h | h | h | h <;> linarith

end Jagua
