import Verif.Lemmas.RoundedObjects

/-! # Edges and rectangles in general position up to the roundoff -/

set_option linter.unusedSectionVars false

namespace Jagua

variable {r : Rounding} {u : ℚ}

/-! ## A horizontal and a vertical edge -/

/-- a fraction of numbers between which rounding cannot exchange the order -/
theorem frac_between (st : r.Standard u) (hu : u < 1) {p q c : ℚ} (hc : c ≠ 0) (hq : q ≠ 0) (h : (0 ≤ p ∧ p ≤ q) ∨ (q ≤ p ∧ p ≤ 0)) :
    r.rnd (r.rnd q * c) ≠ 0 ∧ 0 ≤ r.rnd (r.rnd (r.rnd p * c) / r.rnd (r.rnd q * c)) ∧
      r.rnd (r.rnd (r.rnd p * c) / r.rnd (r.rnd q * c)) ≤ 1 := by
  have h0 := st.zero
  have key : ∀ a b : ℚ, b ≠ 0 → ((0 ≤ a ∧ a ≤ b) ∨ (b ≤ a ∧ a ≤ 0)) → 0 ≤ r.rnd (a / b) ∧ r.rnd (a / b) ≤ 1 := by
    intro a b hb hab
    have : 0 ≤ a / b ∧ a / b ≤ 1 := by
      rcases hab with ⟨h1, h2⟩ | ⟨h1, h2⟩
      · have : 0 < b := lt_of_le_of_ne (h1.trans h2) hb.symm
        exact ⟨div_nonneg h1 this.le, (div_le_one this).2 h2⟩
      · have : b < 0 := lt_of_le_of_ne (h1.trans h2) hb
        exact ⟨div_nonneg_of_nonpos h2 this.le, (div_le_one_of_neg this).2 h1⟩
    constructor
    · rw [← h0]; exact st.mono this.1
    · rw [← st.one]; exact st.mono this.2
  have sgn : ∀ x : ℚ, x ≠ 0 → r.rnd x ≠ 0 := by
    intro x hx
    rcases lt_or_gt_of_ne hx with h | h
    · exact (st.neg' hu h).ne
    · exact (st.pos hu h).ne'
  have hne : r.rnd (r.rnd q * c) ≠ 0 := sgn _ (mul_ne_zero (sgn _ hq) hc)
  refine ⟨hne, key _ _ hne ?_⟩
  have m0 : r.rnd (r.rnd 0 * c) = 0 := by rw [h0, zero_mul, h0]
  rcases lt_or_gt_of_ne hc with hc' | hc'
  · have anti : ∀ x y : ℚ, x ≤ y → r.rnd (r.rnd y * c) ≤ r.rnd (r.rnd x * c) := fun x y hxy =>
      st.mono (mul_le_mul_of_nonpos_right (st.mono hxy) hc'.le)
    rcases h with ⟨h1, h2⟩ | ⟨h1, h2⟩
    · right; exact ⟨anti _ _ h2, by rw [← m0]; exact anti _ _ h1⟩
    · left; exact ⟨by rw [← m0]; exact anti _ _ h2, anti _ _ h1⟩
  · have mono : ∀ x y : ℚ, x ≤ y → r.rnd (r.rnd x * c) ≤ r.rnd (r.rnd y * c) := fun x y hxy =>
      st.mono (mul_le_mul_of_nonneg_right (st.mono hxy) hc'.le)
    rcases h with ⟨h1, h2⟩ | ⟨h1, h2⟩
    · left; exact ⟨by rw [← m0]; exact mono _ _ h1, mono _ _ h2⟩
    · right; exact ⟨mono _ _ h1, by rw [← m0]; exact mono _ _ h2⟩

/-- the numbers of the test for a horizontal and a vertical edge -/
theorem axis_core (st : r.Standard u) (hu : u < 1) {x1 x2 y x y3 y4 : Rounded r} (h1 : x1.1 ≠ x2.1) (h2 : y3.1 ≠ y4.1)
    (hx : min x1.1 x2.1 ≤ x.1 ∧ x.1 ≤ max x1.1 x2.1) (hy : min y3.1 y4.1 ≤ y.1 ∧ y.1 ≤ max y3.1 y4.1) :
    (Edge.mk ⟨x1, y⟩ ⟨x2, y⟩).collidesEdge ⟨⟨x, y3⟩, ⟨x, y4⟩⟩ = true ∧ (Edge.mk ⟨x, y3⟩ ⟨x, y4⟩).collidesEdge ⟨⟨x1, y⟩, ⟨x2, y⟩⟩ = true := by
  have sgn : ∀ z : ℚ, z ≠ 0 → r.rnd z ≠ 0 := by
    intro z hz
    rcases lt_or_gt_of_ne hz with h | h
    · exact (st.neg' hu h).ne
    · exact (st.pos hu h).ne'
  have e0 : ∀ a : Rounded r, a - a = 0 := fun a => val_sub_self st a
  have bx : (0 ≤ x2.1 - x.1 ∧ x2.1 - x.1 ≤ x2.1 - x1.1) ∨ (x2.1 - x1.1 ≤ x2.1 - x.1 ∧ x2.1 - x.1 ≤ 0) := by
    rcases le_total x1.1 x2.1 with h | h
    · rw [min_eq_left h, max_eq_right h] at hx; left; constructor <;> linarith [hx.1, hx.2]
    · rw [min_eq_right h, max_eq_left h] at hx; right; constructor <;> linarith [hx.1, hx.2]
  have bx' : (0 ≤ x1.1 - x.1 ∧ x1.1 - x.1 ≤ x1.1 - x2.1) ∨ (x1.1 - x2.1 ≤ x1.1 - x.1 ∧ x1.1 - x.1 ≤ 0) := by
    rcases bx with h | h
    · right; constructor <;> linarith [h.1, h.2]
    · left; constructor <;> linarith [h.1, h.2]
  have by' : (0 ≤ y4.1 - y.1 ∧ y4.1 - y.1 ≤ y4.1 - y3.1) ∨ (y4.1 - y3.1 ≤ y4.1 - y.1 ∧ y4.1 - y.1 ≤ 0) := by
    rcases le_total y3.1 y4.1 with h | h
    · rw [min_eq_left h, max_eq_right h] at hy; left; constructor <;> linarith [hy.1, hy.2]
    · rw [min_eq_right h, max_eq_left h] at hy; right; constructor <;> linarith [hy.1, hy.2]
  have nx : x2.1 - x1.1 ≠ 0 := fun h => h1 (by linarith)
  have ny : y4.1 - y3.1 ≠ 0 := fun h => h2 (by linarith)
  have cy : r.rnd (y4.1 - y3.1) ≠ 0 := sgn _ ny
  have cx : r.rnd (x2.1 - x1.1) ≠ 0 := sgn _ nx
  obtain ⟨d1, a1, a2⟩ := frac_between st hu cy nx bx
  obtain ⟨d2, b1, b2⟩ := frac_between st hu cx ny by'
  have neg_sub' : ∀ a b : ℚ, r.rnd (a - b) = -r.rnd (b - a) := fun a b => by rw [← st.neg]; congr 1; ring
  have hle : ∀ a : Rounded r, (0 ≤ a ∧ a ≤ 1) ↔ (0 ≤ a.1 ∧ a.1 ≤ 1) := by
    intro a; rw [val_le, val_le, val_zero st, val_one st]
  have hz : ∀ a : Rounded r, a ≠ 0 ↔ a.1 ≠ 0 := fun a => by rw [ne_eq, val_eq, val_zero st]
  have hbox : (max (min x1 x2) (min x x) ≤ min (max x1 x2) (max x x) ∧ max (min y y) (min y3 y4) ≤ min (max y y) (max y3 y4)) := by
    simp only [val_le, val_min, val_max, min_self, max_self]
    refine ⟨max_le (le_min (by simp) hx.1) (le_min hx.2 le_rfl), max_le (le_min le_rfl hy.2) (le_min hy.1 (by simp))⟩
  have hbox' : (max (min x x) (min x1 x2) ≤ min (max x x) (max x1 x2) ∧ max (min y3 y4) (min y y) ≤ min (max y3 y4) (max y y)) := by
    rw [max_comm (min x x), min_comm (max x x), max_comm (min y3 y4), min_comm (max y3 y4)]; exact hbox
  constructor
  · rw [collidesEdge_arith, hle, hle, hz]
    simp only [e0, val_zero_mul st, val_mul_zero st, val_sub_zero st]
    refine ⟨hbox, d1, ⟨a1, a2⟩, ?_⟩
    have hU : (0 - (y - y4) * (x2 - x1) : Rounded r).1 = r.rnd (r.rnd (y4.1 - y.1) * r.rnd (x2.1 - x1.1)) := by
      rw [val_zero_sub st]
      show -r.rnd (r.rnd (y.1 - y4.1) * r.rnd (x2.1 - x1.1)) = _
      rw [neg_sub' y.1 y4.1, neg_mul, st.neg, neg_neg]
    show 0 ≤ r.rnd ((0 - (y - y4) * (x2 - x1) : Rounded r).1 / r.rnd (r.rnd (x2.1 - x1.1) * r.rnd (y4.1 - y3.1))) ∧
      r.rnd ((0 - (y - y4) * (x2 - x1) : Rounded r).1 / r.rnd (r.rnd (x2.1 - x1.1) * r.rnd (y4.1 - y3.1))) ≤ 1
    rw [hU, mul_comm (r.rnd (x2.1 - x1.1)) (r.rnd (y4.1 - y3.1))]
    exact ⟨b1, b2⟩
  · rw [collidesEdge_arith, hle, hle, hz]
    simp only [e0, val_zero_mul st, val_mul_zero st, val_sub_zero st]
    have hD : (0 - (y4 - y3) * (x2 - x1) : Rounded r).1 = -r.rnd (r.rnd (y4.1 - y3.1) * r.rnd (x2.1 - x1.1)) := by
      rw [val_zero_sub st]; rfl
    have hT : (0 - (y4 - y) * (x2 - x1) : Rounded r).1 = -r.rnd (r.rnd (y4.1 - y.1) * r.rnd (x2.1 - x1.1)) := by
      rw [val_zero_sub st]; rfl
    refine ⟨hbox', ?_, ?_, ?_⟩
    · rw [hD]; exact neg_ne_zero.2 d2
    · show 0 ≤ r.rnd ((0 - (y4 - y) * (x2 - x1) : Rounded r).1 / (0 - (y4 - y3) * (x2 - x1) : Rounded r).1) ∧
        r.rnd ((0 - (y4 - y) * (x2 - x1) : Rounded r).1 / (0 - (y4 - y3) * (x2 - x1) : Rounded r).1) ≤ 1
      rw [hD, hT, neg_div_neg_eq]
      exact ⟨b1, b2⟩
    · show 0 ≤ r.rnd (r.rnd (r.rnd (x.1 - x2.1) * r.rnd (y4.1 - y3.1)) / (0 - (y4 - y3) * (x2 - x1) : Rounded r).1) ∧
        r.rnd (r.rnd (r.rnd (x.1 - x2.1) * r.rnd (y4.1 - y3.1)) / (0 - (y4 - y3) * (x2 - x1) : Rounded r).1) ≤ 1
      rw [hD, neg_sub' x.1 x2.1, neg_mul, st.neg, neg_div_neg_eq, mul_comm (r.rnd (y4.1 - y3.1)) (r.rnd (x2.1 - x1.1))]
      exact ⟨a1, a2⟩

theorem axis_share {x1 x2 y x y3 y4 : ℚ} (hx : min x1 x2 ≤ x ∧ x ≤ max x1 x2) (hy : min y3 y4 ≤ y ∧ y ≤ max y3 y4) :
    (⟨x, y⟩ : Point ℚ) ∈ (Edge.mk ⟨x1, y⟩ ⟨x2, y⟩).pts ∧ (⟨x, y⟩ : Point ℚ) ∈ (Edge.mk ⟨x, y3⟩ ⟨x, y4⟩).pts := by
  have frac : ∀ a b c : ℚ, min a b ≤ c → c ≤ max a b → ∃ t, 0 ≤ t ∧ t ≤ 1 ∧ c = a + t * (b - a) := by
    intro a b c h1 h2
    rcases eq_or_ne a b with rfl | hne
    · refine ⟨0, le_rfl, zero_le_one, ?_⟩
      simp only [min_self, max_self] at h1 h2
      linarith
    · have hb : b - a ≠ 0 := sub_ne_zero.2 hne.symm
      refine ⟨(c - a) / (b - a), ?_, ?_, by field_simp; ring⟩
      · rcases lt_or_gt_of_ne hne with h | h
        · rw [min_eq_left h.le] at h1; exact div_nonneg (by linarith) (by linarith)
        · rw [max_eq_left h.le] at h2; exact div_nonneg_of_nonpos (by linarith) (by linarith)
      · rcases lt_or_gt_of_ne hne with h | h
        · rw [max_eq_right h.le] at h2; exact (div_le_one (by linarith)).2 (by linarith)
        · rw [min_eq_right h.le] at h1; exact (div_le_one_of_neg (by linarith)).2 (by linarith)
  obtain ⟨t, t0, t1, ht⟩ := frac x1 x2 x hx.1 hx.2
  obtain ⟨t', t0', t1', ht'⟩ := frac y3 y4 y hy.1 hy.2
  exact ⟨⟨t, t0, t1, ht, by simp⟩, ⟨t', t0', t1', by simp, ht'⟩⟩

/-- boxes that have no point in common -/
theorem boxesApart_of_disjoint {e f : Edge ℚ} (h : ¬ (max e.xMin f.xMin ≤ min e.xMax f.xMax ∧ max e.yMin f.yMin ≤ min e.yMax f.yMax)) :
    e.BoxesApart f := by
  unfold Edge.BoxesApart
  unfold Edge.xMin Edge.xMax Edge.yMin Edge.yMax at h
  by_contra hn
  push Not at hn
  obtain ⟨⟨h1, h2⟩, h3, h4⟩ := hn
  exact h ⟨max_le (le_min min_le_max h2) (le_min h1 min_le_max), max_le (le_min min_le_max h4) (le_min h3 min_le_max)⟩

theorem BoxesApart.symm' {e f : Edge ℚ} (h : e.BoxesApart f) : f.BoxesApart e := by
  unfold Edge.BoxesApart at h ⊢
  tauto

theorem BoxesApart.no_share {e f : Edge ℚ} (h : e.BoxesApart f) : ¬ (e.pts ∩ f.pts).Nonempty := by
  rintro ⟨p, hp, hq⟩
  have b1 := mem_pts_bounds hp
  have b2 := mem_pts_bounds hq
  unfold Edge.xMin Edge.xMax Edge.yMin Edge.yMax at b1 b2
  rcases h with (h | h) | h | h <;> linarith [b1.1, b1.2.1, b1.2.2.1, b1.2.2.2, b2.1, b2.2.1, b2.2.2.1, b2.2.2.2]

theorem collidesEdge_apart {e f : Edge (Rounded r)} (h : e.exact.BoxesApart f.exact) : e.collidesEdge f = false := by
  rw [← Bool.not_eq_true]
  intro hc
  obtain ⟨⟨x1, y1⟩, ⟨x2, y2⟩⟩ := e
  obtain ⟨⟨x3, y3⟩, ⟨x4, y4⟩⟩ := f
  rw [collidesEdge_arith] at hc
  obtain ⟨⟨h1, h2⟩, -⟩ := hc
  simp only [val_le, val_min, val_max] at h1 h2
  unfold Edge.BoxesApart at h
  simp only [Edge.exact, Point.exact] at h
  have i1 := (le_max_left _ _).trans (h1.trans (min_le_right _ _))
  have i2 := (le_max_right _ _).trans (h1.trans (min_le_left _ _))
  have i3 := (le_max_left _ _).trans (h2.trans (min_le_right _ _))
  have i4 := (le_max_right _ _).trans (h2.trans (min_le_left _ _))
  rcases h with (h | h) | h | h <;> linarith

/-- A horizontal and a vertical edge: the rounded test gives the exact answer. -/
theorem collidesEdge_axis (st : r.Standard u) (hu : u < 1) {e f : Edge (Rounded r)} (he : e.exact.Level) (hf : f.exact.Upright) :
    (e.collidesEdge f = true ↔ (e.exact.pts ∩ f.exact.pts).Nonempty) ∧ (f.collidesEdge e = true ↔ (f.exact.pts ∩ e.exact.pts).Nonempty) := by
  by_cases hb : max e.exact.xMin f.exact.xMin ≤ min e.exact.xMax f.exact.xMax ∧ max e.exact.yMin f.exact.yMin ≤ min e.exact.yMax f.exact.yMax
  swap
  · have ha := boxesApart_of_disjoint hb
    exact ⟨iff_of_false (by rw [collidesEdge_apart ha]; simp) (BoxesApart.no_share ha),
      iff_of_false (by rw [collidesEdge_apart (BoxesApart.symm' ha)]; simp) (BoxesApart.no_share (BoxesApart.symm' ha))⟩
  obtain ⟨⟨x1, y⟩, ⟨x2, y2⟩⟩ := e
  obtain ⟨⟨x, y3⟩, ⟨x4, y4⟩⟩ := f
  obtain rfl : y = y2 := val_eq.2 he.1
  obtain rfl : x = x4 := val_eq.2 hf.1
  unfold Edge.xMin Edge.xMax Edge.yMin Edge.yMax at hb
  simp only [Edge.exact, Point.exact, min_self, max_self] at hb
  obtain ⟨h1, h2⟩ := hb
  have hx : min x1.1 x2.1 ≤ x.1 ∧ x.1 ≤ max x1.1 x2.1 :=
    ⟨(le_max_left _ _).trans (h1.trans (min_le_right _ _)), (le_max_right _ _).trans (h1.trans (min_le_left _ _))⟩
  have hy : min y3.1 y4.1 ≤ y.1 ∧ y.1 ≤ max y3.1 y4.1 :=
    ⟨(le_max_right _ _).trans (h2.trans (min_le_left _ _)), (le_max_left _ _).trans (h2.trans (min_le_right _ _))⟩
  obtain ⟨c1, c2⟩ := axis_core st hu he.2 hf.2 hx hy
  obtain ⟨s1, s2⟩ := axis_share hx hy
  exact ⟨iff_of_true c1 ⟨_, s1, s2⟩, iff_of_true c2 ⟨_, s2, s1⟩⟩

theorem Edge.Beside.no_share {e f : Edge ℚ} {F : ℚ} (hF : 0 ≤ F) (h : e.Beside f F) {p : Point ℚ} (hp : p ∈ e.pts) (hq : p ∈ f.pts) : False := by
  have o := opposite_of_share hp hq
  rcases h with ⟨h1, h2⟩ | ⟨h1, h2⟩
  · exact o.1 ⟨by linarith, by linarith⟩
  · exact o.2 ⟨by linarith, by linarith⟩

/-- Edges in general position up to the roundoff: the rounded test gives the exact answer. -/
theorem collidesEdge_decided (st : r.Standard u) (hu : u ≤ 1 / 256) {e f : Edge (Rounded r)} {d : ℚ} (h : e.exact.Decided f.exact u d) :
    e.collidesEdge f = true ↔ (e.exact.pts ∩ f.exact.pts).Nonempty := by
  have hu0 := st.nonneg
  have hF : 0 ≤ 20 * u * d ^ 2 := by positivity
  rcases h with h | ⟨h1, h2⟩ | ⟨h1, h2⟩ | ⟨hw, h | h | h⟩
  · exact iff_of_false (by rw [collidesEdge_apart h]; simp) (BoxesApart.no_share h)
  · exact (collidesEdge_axis st (by linarith) h1 h2).1
  · exact (collidesEdge_axis st (by linarith) h2 h1).2
  · exact iff_of_false (by rw [collidesEdge_beside st hu hw (.inl h)]; simp) (fun ⟨p, hp, hq⟩ => h.no_share hF hp hq)
  · exact iff_of_false (by rw [collidesEdge_beside st hu hw (.inr h)]; simp) (fun ⟨p, hp, hq⟩ => h.no_share hF hq hp)
  · exact collidesEdge_rounded st hu hw h

/-! ## A rectangle and an edge -/

theorem compare_zero_val (st : r.Standard u) {a : Rounded r} {x : ℚ} (h1 : 0 < x → 0 < a.1) (h2 : x < 0 → a.1 < 0) (h3 : x = 0 → a.1 = 0) :
    compare a 0 = compare x 0 := by
  rcases lt_trichotomy x 0 with h | h | h
  · rw [compare_lt_iff_lt.2 h, compare_lt_iff_lt, val_lt, val_zero st]; exact h2 h
  · rw [h, compare_eq_iff_eq.2 rfl, compare_eq_iff_eq, val_eq, val_zero st]; exact h3 h
  · rw [compare_gt_iff_gt.2 h, compare_gt_iff_gt]; show (0 : Rounded r) < a; rw [val_lt, val_zero st]; exact h1 h

/-- the sign of a product of differences is not changed by rounding -/
theorem prod_sign (st : r.Standard u) (hu : u < 1) (a b : ℚ) :
    (0 < a * b → 0 < r.rnd (r.rnd a * r.rnd b)) ∧ (a * b < 0 → r.rnd (r.rnd a * r.rnd b) < 0) ∧ (a * b = 0 → r.rnd (r.rnd a * r.rnd b) = 0) := by
  refine ⟨fun h => ?_, fun h => ?_, fun h => ?_⟩
  · rcases mul_pos_iff.1 h with ⟨h1, h2⟩ | ⟨h1, h2⟩
    · exact st.pos hu (mul_pos (st.pos hu h1) (st.pos hu h2))
    · exact st.pos hu (mul_pos_of_neg_of_neg (st.neg' hu h1) (st.neg' hu h2))
  · rcases mul_neg_iff.1 h with ⟨h1, h2⟩ | ⟨h1, h2⟩
    · exact st.neg' hu (mul_neg_of_pos_of_neg (st.pos hu h1) (st.neg' hu h2))
    · exact st.neg' hu (mul_neg_of_neg_of_pos (st.neg' hu h1) (st.pos hu h2))
  · rcases mul_eq_zero.1 h with h | h
    · rw [h, st.zero, zero_mul, st.zero]
    · rw [h, st.zero, mul_zero, st.zero]

theorem pointEdgeRelation_axis (st : r.Standard u) (hu : u < 1) {p : Point (Rounded r)} {e : Edge (Rounded r)} (he : e.exact.Level ∨ e.exact.Upright) :
    AARect.pointEdgeRelation p e = AARect.pointEdgeRelation p.exact e.exact := by
  obtain ⟨⟨x1, y1⟩, ⟨x2, y2⟩⟩ := e
  obtain ⟨x, y⟩ := p
  unfold AARect.pointEdgeRelation
  rcases he with he | he
  · obtain rfl : y1 = y2 := val_eq.2 he.1
    simp only [val_sub_self st, val_mul_zero st, Edge.exact, Point.exact, sub_self, mul_zero, zero_sub]
    obtain ⟨k1, k2, k3⟩ := prod_sign st hu (y.1 - y1.1) (x2.1 - x1.1)
    have e : (0 - (y - y1) * (x2 - x1) : Rounded r).1 = -r.rnd (r.rnd (y.1 - y1.1) * r.rnd (x2.1 - x1.1)) := by rw [val_zero_sub st]; rfl
    apply compare_zero_val st
    · intro h; rw [e]; have := k2 (by linarith); linarith
    · intro h; rw [e]; have := k1 (by linarith); linarith
    · intro h; rw [e]; have := k3 (by linarith); linarith
  · obtain rfl : x1 = x2 := val_eq.2 he.1
    simp only [val_sub_self st, val_mul_zero st, val_sub_zero st, Edge.exact, Point.exact, sub_self, mul_zero, sub_zero]
    obtain ⟨k1, k2, k3⟩ := prod_sign st hu (x.1 - x1.1) (y2.1 - y1.1)
    exact compare_zero_val st k1 k2 k3

theorem side_eq_relation (p : Point ℚ) (e : Edge ℚ) :
    (p.x - e.start.x) * (e.stop.y - e.start.y) - (p.y - e.start.y) * (e.stop.x - e.start.x) = e.side p := by unfold Edge.side; ring

theorem relation_side (st : r.Standard u) (hu : u ≤ 1 / 256) {p : Point (Rounded r)} {e : Edge (Rounded r)} {d : ℚ}
    (h1 : |p.exact.x - e.exact.start.x| ≤ d) (h2 : |p.exact.y - e.exact.start.y| ≤ d)
    (h3 : |e.exact.stop.x - e.exact.start.x| ≤ d) (h4 : |e.exact.stop.y - e.exact.start.y| ≤ d)
    (hc : 9 * u * d ^ 2 < |e.exact.side p.exact|) : AARect.pointEdgeRelation p e = compare (e.exact.side p.exact) 0 := by
  rw [← side_eq_relation]
  exact pointEdgeRelation_rounded st hu h1 h2 h3 h4 hc

theorem exact_mem_sides {b : AARect (Rounded r)} {s : Edge ℚ} (hs : s ∈ b.exact.sides) : ∃ e ∈ b.edges, e.exact = s := by
  simp only [AARect.sides, List.mem_cons, List.not_mem_nil, or_false] at hs
  rcases hs with rfl | rfl | rfl | rfl
  · exact ⟨⟨⟨b.xMax, b.yMax⟩, ⟨b.xMin, b.yMax⟩⟩, by simp [AARect.edges], rfl⟩
  · exact ⟨⟨⟨b.xMin, b.yMax⟩, ⟨b.xMin, b.yMin⟩⟩, by simp [AARect.edges], rfl⟩
  · exact ⟨⟨⟨b.xMin, b.yMin⟩, ⟨b.xMax, b.yMin⟩⟩, by simp [AARect.edges], rfl⟩
  · exact ⟨⟨⟨b.xMax, b.yMin⟩, ⟨b.xMax, b.yMax⟩⟩, by simp [AARect.edges], rfl⟩

theorem sides_pts {b : AARect ℚ} (hv : b.Valid) {s : Edge ℚ} (hs : s ∈ b.sides) : s.start ∈ b.pts ∧ s.stop ∈ b.pts := by
  obtain ⟨h1, h2⟩ := hv
  simp only [AARect.sides, List.mem_cons, List.not_mem_nil, or_false] at hs
  rcases hs with rfl | rfl | rfl | rfl <;> refine ⟨⟨?_, ?_, ?_, ?_⟩, ⟨?_, ?_, ?_, ?_⟩⟩ <;> dsimp only <;> linarith

/-- no point of a rectangle lies on a line that has all corners on one side -/
theorem one_side {b : AARect ℚ} {a c k F : ℚ} (hF : 0 ≤ F) (h1 : F < a * b.xMin + c * b.yMin + k) (h2 : F < a * b.xMin + c * b.yMax + k)
    (h3 : F < a * b.xMax + c * b.yMin + k) (h4 : F < a * b.xMax + c * b.yMax + k) {p : Point ℚ} (hp : p ∈ b.pts) : 0 < a * p.x + c * p.y + k := by
  obtain ⟨p1, p2, p3, p4⟩ := hp
  rcases le_total 0 a with ha | ha <;> rcases le_total 0 c with hc | hc
  · nlinarith [mul_le_mul_of_nonneg_left p1 ha, mul_le_mul_of_nonneg_left p3 hc]
  · nlinarith [mul_le_mul_of_nonneg_left p1 ha, mul_le_mul_of_nonpos_left p4 hc]
  · nlinarith [mul_le_mul_of_nonpos_left p2 ha, mul_le_mul_of_nonneg_left p3 hc]
  · nlinarith [mul_le_mul_of_nonpos_left p2 ha, mul_le_mul_of_nonpos_left p4 hc]

theorem corners_one_side {b : AARect ℚ} {e : Edge ℚ} {F : ℚ} (hF : 0 ≤ F)
    (h : (∀ s ∈ b.sides, F < e.side s.start) ∨ ∀ s ∈ b.sides, e.side s.start < -F) {p : Point ℚ} (hp : p ∈ b.pts) : e.side p ≠ 0 := by
  have eq : ∀ q : Point ℚ, e.side q = (e.stop.y - e.start.y) * q.x + -(e.stop.x - e.start.x) * q.y +
      (e.stop.y * (e.stop.x - e.start.x) - e.stop.x * (e.stop.y - e.start.y)) := by intro q; unfold Edge.side; ring
  simp only [AARect.sides, List.mem_cons, List.not_mem_nil, or_false, forall_eq_or_imp, forall_eq] at h
  rcases h with ⟨h1, h2, h3, h4⟩ | ⟨h1, h2, h3, h4⟩
  · rw [eq] at h1 h2 h3 h4 ⊢
    exact (one_side hF h3 h2 h4 h1 hp).ne'
  · have eq' : ∀ q : Point ℚ, -e.side q = -(e.stop.y - e.start.y) * q.x + (e.stop.x - e.start.x) * q.y +
      -(e.stop.y * (e.stop.x - e.start.x) - e.stop.x * (e.stop.y - e.start.y)) := by intro q; rw [eq]; ring
    have g : ∀ q : Point ℚ, e.side q < -F → F < -e.side q := fun q h => by linarith
    have h1 := g _ h1
    have h2 := g _ h2
    have h3 := g _ h3
    have h4 := g _ h4
    rw [eq'] at h1 h2 h3 h4
    have := one_side hF h3 h2 h4 h1 hp
    rw [← eq'] at this
    intro h0
    rw [h0] at this
    simp at this

/-- what the test does, in terms of its parts -/
theorem rect_edge_parts (b : AARect (Rounded r)) (e : Edge (Rounded r)) : b.collidesEdge e = true ↔
    ¬ ((e.exact.xMax < b.exact.xMin ∨ b.exact.xMax < e.exact.xMin) ∨ e.exact.yMax < b.exact.yMin ∨ b.exact.yMax < e.exact.yMin) ∧
    ((e.exact.start ∈ b.exact.pts ∨ e.exact.stop ∈ b.exact.pts) ∨
      (¬ (AARect.pointEdgeRelation ⟨b.xMax, b.yMax⟩ e = AARect.pointEdgeRelation ⟨b.xMin, b.yMax⟩ e ∧
          AARect.pointEdgeRelation ⟨b.xMin, b.yMax⟩ e = AARect.pointEdgeRelation ⟨b.xMin, b.yMin⟩ e ∧
          AARect.pointEdgeRelation ⟨b.xMin, b.yMin⟩ e = AARect.pointEdgeRelation ⟨b.xMax, b.yMin⟩ e) ∧
        ∃ s ∈ b.edges, e.collidesEdge s = true)) := by
  have hbox : (e.xMax < b.xMin ∨ e.xMin > b.xMax ∨ e.yMax < b.yMin ∨ e.yMin > b.yMax) ↔
      ((e.exact.xMax < b.exact.xMin ∨ b.exact.xMax < e.exact.xMin) ∨ e.exact.yMax < b.exact.yMin ∨ b.exact.yMax < e.exact.yMin) := by
    simp only [gt_iff_lt, val_lt, Edge.xMax, Edge.xMin, Edge.yMax, Edge.yMin, val_min, val_max, or_assoc]
    rfl
  have hpt : (b.collidesPoint e.start || b.collidesPoint e.stop) = true ↔ (e.exact.start ∈ b.exact.pts ∨ e.exact.stop ∈ b.exact.pts) := by
    rw [Bool.or_eq_true, rect_collidesPoint_rounded, rect_collidesPoint_rounded, Jagua.collidesPoint_iff, Jagua.collidesPoint_iff]
    rfl
  unfold AARect.collidesEdge
  rw [← hbox, ← hpt]
  by_cases h1 : (e.xMax < b.xMin ∨ e.xMin > b.xMax ∨ e.yMax < b.yMin ∨ e.yMin > b.yMax)
  · rw [if_pos h1]; simp [h1]
  rw [if_neg h1]
  by_cases h2 : (b.collidesPoint e.start || b.collidesPoint e.stop) = true
  · rw [if_pos h2]; exact iff_of_true rfl ⟨h1, .inl h2⟩
  rw [if_neg h2]
  dsimp only
  split_ifs with h3
  · refine iff_of_false (by simp) ?_
    rintro ⟨-, h | ⟨h, -⟩⟩
    · exact h2 h
    · exact h h3
  · rw [List.any_eq_true]
    constructor
    · intro h; exact ⟨h1, .inr ⟨h3, h⟩⟩
    · rintro ⟨-, h | ⟨-, h⟩⟩
      · exact absurd h h2
      · exact h

theorem compare_product' {P Q Z : ℚ} (hZ : Z ≠ 0) (hP : 0 ≤ P) (hQ : Q ≤ 0) (h : Q < P) (hc : compare (P * Z) 0 = compare (Q * Z) 0) : False := by
  rcases lt_or_gt_of_ne hZ with z | z
  · have h1 : Q * Z > P * Z := by nlinarith
    have h2 : P * Z ≤ 0 := by nlinarith
    have h3 : 0 ≤ Q * Z := by nlinarith
    rcases h2.eq_or_lt with h2 | h2
    · rw [compare_eq_iff_eq.2 h2] at hc
      have := compare_eq_iff_eq.1 hc.symm
      linarith
    · rw [compare_lt_iff_lt.2 h2] at hc
      have := compare_lt_iff_lt.1 hc.symm
      linarith
  · have h1 : Q * Z < P * Z := by nlinarith
    have h2 : 0 ≤ P * Z := by nlinarith
    have h3 : Q * Z ≤ 0 := by nlinarith
    rcases h2.eq_or_lt with h2 | h2
    · rw [compare_eq_iff_eq.2 h2.symm] at hc
      have := compare_eq_iff_eq.1 hc.symm
      linarith
    · rw [compare_gt_iff_gt.2 h2] at hc
      have : Q * Z > 0 := compare_gt_iff_gt.1 hc.symm
      linarith

/-- An edge and a rectangle in general position up to the roundoff: the rounded test gives the exact answer. -/
theorem rect_collidesEdge_decided (st : r.Standard u) (hu : u ≤ 1 / 256) {b : AARect (Rounded r)} (hb : b.exact.Valid) {e : Edge (Rounded r)} {d : ℚ}
    (h : b.exact.Decided e.exact u d) : b.collidesEdge e = true ↔ ∃ p ∈ e.exact.pts, p ∈ b.exact.pts := by
  have hu0 := st.nonneg
  have hu1 : u < 1 := by linarith
  have hF : 0 ≤ 20 * u * d ^ 2 := by positivity
  -- an edge with a common point is not apart
  have napart : ∀ p ∈ e.exact.pts, p ∈ b.exact.pts →
      ¬ ((e.exact.xMax < b.exact.xMin ∨ b.exact.xMax < e.exact.xMin) ∨ e.exact.yMax < b.exact.yMin ∨ b.exact.yMax < e.exact.yMin) := by
    intro p hp hq
    have b1 := mem_pts_bounds hp
    obtain ⟨q1, q2, q3, q4⟩ := hq
    rintro ((h | h) | h | h) <;> linarith [b1.1, b1.2.1, b1.2.2.1, b1.2.2.2]
  have ends : e.exact.start ∈ e.exact.pts ∧ e.exact.stop ∈ e.exact.pts :=
    ⟨⟨0, le_rfl, zero_le_one, by simp, by simp⟩, ⟨1, zero_le_one, le_rfl, by simp, by simp⟩⟩
  rw [rect_edge_parts]
  by_cases hA : ((e.exact.xMax < b.exact.xMin ∨ b.exact.xMax < e.exact.xMin) ∨ e.exact.yMax < b.exact.yMin ∨ b.exact.yMax < e.exact.yMin)
  · exact iff_of_false (fun h => h.1 hA) (fun ⟨p, hp, hq⟩ => napart p hp hq hA)
  by_cases hB : e.exact.start ∈ b.exact.pts ∨ e.exact.stop ∈ b.exact.pts
  · refine iff_of_true ⟨hA, .inl hB⟩ ?_
    rcases hB with hB | hB
    · exact ⟨_, ends.1, hB⟩
    · exact ⟨_, ends.2, hB⟩
  rcases h with h | h | h | ⟨hd, h⟩
  · exact absurd h hA
  · exact absurd h hB
  · -- a horizontal or vertical edge through the rectangle
    have hR : ∀ p : Point (Rounded r), AARect.pointEdgeRelation p e = AARect.pointEdgeRelation p.exact e.exact := fun p => pointEdgeRelation_axis st hu1 h
    push Not at hA hB
    obtain ⟨⟨a1, a2⟩, a3, a4⟩ := hA
    obtain ⟨n1, n2⟩ := hB
    obtain ⟨v1, v2⟩ := hb
    unfold Edge.xMax Edge.xMin Edge.yMax Edge.yMin at *
    rcases h with h | h
    · obtain ⟨k1, k2⟩ := h
      rw [← k1] at a3 a4
      simp only [min_self, max_self] at a3 a4
      have hcross : (e.exact.start.x < b.exact.xMin ∧ b.exact.xMax < e.exact.stop.x) ∨ (e.exact.stop.x < b.exact.xMin ∧ b.exact.xMax < e.exact.start.x) := by
        have m1 : e.exact.start.x < b.exact.xMin ∨ b.exact.xMax < e.exact.start.x := by
          by_contra hn; push Not at hn; exact n1 ⟨hn.1, hn.2, a3, a4⟩
        have m2 : e.exact.stop.x < b.exact.xMin ∨ b.exact.xMax < e.exact.stop.x := by
          by_contra hn; push Not at hn; exact n2 ⟨hn.1, hn.2, by rw [← k1]; exact a3, by rw [← k1]; exact a4⟩
        rcases m1 with m1 | m1 <;> rcases m2 with m2 | m2
        · exact absurd a1 (not_le.2 (max_lt m1 m2))
        · exact .inl ⟨m1, m2⟩
        · exact .inr ⟨m2, m1⟩
        · exact absurd a2 (not_le.2 (lt_min m1 m2))
      set s : Edge (Rounded r) := ⟨⟨b.xMin, b.yMax⟩, ⟨b.xMin, b.yMin⟩⟩ with hs
      have hx : min e.exact.start.x e.exact.stop.x ≤ b.exact.xMin ∧ b.exact.xMin ≤ max e.exact.start.x e.exact.stop.x := by
        rcases hcross with ⟨m1, m2⟩ | ⟨m1, m2⟩
        · exact ⟨(min_le_left _ _).trans m1.le, le_trans (by linarith) (le_max_right _ _)⟩
        · exact ⟨(min_le_right _ _).trans m1.le, le_trans (by linarith) (le_max_left _ _)⟩
      have hy : min b.exact.yMax b.exact.yMin ≤ e.exact.start.y ∧ e.exact.start.y ≤ max b.exact.yMax b.exact.yMin :=
        ⟨(min_le_right _ _).trans a3, a4.trans (le_max_left _ _)⟩
      have hsh := axis_share hx hy
      have hmem : (⟨b.exact.xMin, e.exact.start.y⟩ : Point ℚ) ∈ b.exact.pts := ⟨le_rfl, v1.le, a3, a4⟩
      have hpe : (⟨b.exact.xMin, e.exact.start.y⟩ : Point ℚ) ∈ e.exact.pts := by
        have := hsh.1
        rwa [show (Edge.mk ⟨e.exact.start.x, e.exact.start.y⟩ ⟨e.exact.stop.x, e.exact.start.y⟩ : Edge ℚ) = e.exact from by
          rw [show (⟨e.exact.stop.x, e.exact.start.y⟩ : Point ℚ) = e.exact.stop from by rw [k1]]] at this
      refine iff_of_true ⟨by push Not; exact ⟨⟨a1, a2⟩, by rw [← k1]; simpa using a3, by rw [← k1]; simpa using a4⟩, .inr ⟨?_, s, by simp [AARect.edges, hs], ?_⟩⟩ ⟨_, hpe, hmem⟩
      · rintro ⟨-, h2, -⟩
        rw [hR, hR] at h2
        unfold AARect.pointEdgeRelation at h2
        simp only [← k1, sub_self, mul_zero, zero_sub] at h2
        rw [← mul_neg, ← mul_neg] at h2
        have hne : e.exact.stop.x - e.exact.start.x ≠ 0 := sub_ne_zero.2 (Ne.symm k2)
        have c1 : 0 ≤ (Point.exact ⟨b.xMin, b.yMax⟩ : Point ℚ).y - e.exact.start.y := by show 0 ≤ b.exact.yMax - e.exact.start.y; linarith
        have c2 : (Point.exact ⟨b.xMin, b.yMin⟩ : Point ℚ).y - e.exact.start.y ≤ 0 := by show b.exact.yMin - e.exact.start.y ≤ 0; linarith
        have c3 : (Point.exact ⟨b.xMin, b.yMin⟩ : Point ℚ).y - e.exact.start.y < (Point.exact ⟨b.xMin, b.yMax⟩ : Point ℚ).y - e.exact.start.y := by
          show b.exact.yMin - e.exact.start.y < b.exact.yMax - e.exact.start.y; linarith
        generalize (Point.exact ⟨b.xMin, b.yMax⟩ : Point ℚ).y - e.exact.start.y = P at *
        generalize (Point.exact ⟨b.xMin, b.yMin⟩ : Point ℚ).y - e.exact.start.y = Q at *
        generalize e.exact.stop.x - e.exact.start.x = Z at *
        exact compare_product' (neg_ne_zero.2 hne) c1 c2 c3 h2
      · exact (collidesEdge_axis st hu1 ⟨k1, k2⟩ (f := s) ⟨rfl, v2.ne'⟩).1.2 ⟨_, hpe, hsh.2⟩
    · obtain ⟨k1, k2⟩ := h
      rw [← k1] at a1 a2
      simp only [min_self, max_self] at a1 a2
      have hcross : (e.exact.start.y < b.exact.yMin ∧ b.exact.yMax < e.exact.stop.y) ∨ (e.exact.stop.y < b.exact.yMin ∧ b.exact.yMax < e.exact.start.y) := by
        have m1 : e.exact.start.y < b.exact.yMin ∨ b.exact.yMax < e.exact.start.y := by
          by_contra hn; push Not at hn; exact n1 ⟨a1, a2, hn.1, hn.2⟩
        have m2 : e.exact.stop.y < b.exact.yMin ∨ b.exact.yMax < e.exact.stop.y := by
          by_contra hn; push Not at hn; exact n2 ⟨by rw [← k1]; exact a1, by rw [← k1]; exact a2, hn.1, hn.2⟩
        rcases m1 with m1 | m1 <;> rcases m2 with m2 | m2
        · exact absurd a3 (not_le.2 (max_lt m1 m2))
        · exact .inl ⟨m1, m2⟩
        · exact .inr ⟨m2, m1⟩
        · exact absurd a4 (not_le.2 (lt_min m1 m2))
      set s : Edge (Rounded r) := ⟨⟨b.xMax, b.yMax⟩, ⟨b.xMin, b.yMax⟩⟩ with hs
      have hy : min e.exact.start.y e.exact.stop.y ≤ b.exact.yMax ∧ b.exact.yMax ≤ max e.exact.start.y e.exact.stop.y := by
        rcases hcross with ⟨m1, m2⟩ | ⟨m1, m2⟩
        · exact ⟨(min_le_left _ _).trans (by linarith), m2.le.trans (le_max_right _ _)⟩
        · exact ⟨(min_le_right _ _).trans (by linarith), m2.le.trans (le_max_left _ _)⟩
      have hx : min b.exact.xMax b.exact.xMin ≤ e.exact.start.x ∧ e.exact.start.x ≤ max b.exact.xMax b.exact.xMin :=
        ⟨(min_le_right _ _).trans a1, a2.trans (le_max_left _ _)⟩
      have hsh := axis_share hx hy
      have hmem : (⟨e.exact.start.x, b.exact.yMax⟩ : Point ℚ) ∈ b.exact.pts := ⟨a1, a2, v2.le, le_rfl⟩
      have hpe : (⟨e.exact.start.x, b.exact.yMax⟩ : Point ℚ) ∈ e.exact.pts := by
        have := hsh.2
        rwa [show (Edge.mk ⟨e.exact.start.x, e.exact.start.y⟩ ⟨e.exact.start.x, e.exact.stop.y⟩ : Edge ℚ) = e.exact from by
          rw [show (⟨e.exact.start.x, e.exact.stop.y⟩ : Point ℚ) = e.exact.stop from by rw [k1]]] at this
      refine iff_of_true ⟨by push Not; exact ⟨⟨by rw [← k1]; simpa using a1, by rw [← k1]; simpa using a2⟩, a3, a4⟩, .inr ⟨?_, s, by simp [AARect.edges, hs], ?_⟩⟩ ⟨_, hpe, hmem⟩
      · rintro ⟨h2, -, -⟩
        rw [hR, hR] at h2
        unfold AARect.pointEdgeRelation at h2
        simp only [← k1, sub_self, mul_zero, sub_zero] at h2
        have hne : e.exact.stop.y - e.exact.start.y ≠ 0 := sub_ne_zero.2 (Ne.symm k2)
        have c1 : 0 ≤ (Point.exact ⟨b.xMax, b.yMax⟩ : Point ℚ).x - e.exact.start.x := by show 0 ≤ b.exact.xMax - e.exact.start.x; linarith
        have c2 : (Point.exact ⟨b.xMin, b.yMax⟩ : Point ℚ).x - e.exact.start.x ≤ 0 := by show b.exact.xMin - e.exact.start.x ≤ 0; linarith
        have c3 : (Point.exact ⟨b.xMin, b.yMax⟩ : Point ℚ).x - e.exact.start.x < (Point.exact ⟨b.xMax, b.yMax⟩ : Point ℚ).x - e.exact.start.x := by
          show b.exact.xMin - e.exact.start.x < b.exact.xMax - e.exact.start.x; linarith
        generalize (Point.exact ⟨b.xMax, b.yMax⟩ : Point ℚ).x - e.exact.start.x = P at *
        generalize (Point.exact ⟨b.xMin, b.yMax⟩ : Point ℚ).x - e.exact.start.x = Q at *
        generalize e.exact.stop.y - e.exact.start.y = Z at *
        exact compare_product' hne c1 c2 c3 h2
      · exact (collidesEdge_axis st hu1 (e := s) ⟨rfl, v1.ne'⟩ ⟨k1, k2⟩).2.2 ⟨_, hpe, hsh.1⟩
  · -- corners of which the side is known
    have hrel : ∀ x y : Rounded r, ∀ q, (⟨⟨x.1, y.1⟩, q⟩ : Edge ℚ) ∈ b.exact.sides → 20 * u * d ^ 2 < |e.exact.side ⟨x.1, y.1⟩| →
        AARect.pointEdgeRelation ⟨x, y⟩ e = compare (e.exact.side ⟨x.1, y.1⟩) 0 := by
      intro x y q hm hc
      have a1 := hd _ hm ⟨x.1, y.1⟩ (by simp) e.exact.start (by simp)
      have a2 := hd _ hm e.exact.stop (by simp) e.exact.start (by simp)
      have hm9 : 9 * u * d ^ 2 < |e.exact.side ⟨x.1, y.1⟩| := lt_of_le_of_lt (by have := mul_nonneg hu0 (sq_nonneg d); linarith) hc
      exact relation_side st hu (p := ⟨x, y⟩) (d := d) a1.1 a1.2 a2.1 a2.2 hm9
    have r0 := hrel b.xMax b.yMax ⟨b.xMin.1, b.yMax.1⟩ (by simp [AARect.sides, AARect.exact])
    have r1 := hrel b.xMin b.yMax ⟨b.xMin.1, b.yMin.1⟩ (by simp [AARect.sides, AARect.exact])
    have r2 := hrel b.xMin b.yMin ⟨b.xMax.1, b.yMin.1⟩ (by simp [AARect.sides, AARect.exact])
    have r3 := hrel b.xMax b.yMin ⟨b.xMax.1, b.yMax.1⟩ (by simp [AARect.sides, AARect.exact])
    have hone : ((∀ s ∈ b.exact.sides, 20 * u * d ^ 2 < e.exact.side s.start) ∨ ∀ s ∈ b.exact.sides, e.exact.side s.start < -(20 * u * d ^ 2)) →
        ((¬ ((e.exact.xMax < b.exact.xMin ∨ b.exact.xMax < e.exact.xMin) ∨ e.exact.yMax < b.exact.yMin ∨ b.exact.yMax < e.exact.yMin) ∧
    ((e.exact.start ∈ b.exact.pts ∨ e.exact.stop ∈ b.exact.pts) ∨
      (¬ (AARect.pointEdgeRelation ⟨b.xMax, b.yMax⟩ e = AARect.pointEdgeRelation ⟨b.xMin, b.yMax⟩ e ∧
          AARect.pointEdgeRelation ⟨b.xMin, b.yMax⟩ e = AARect.pointEdgeRelation ⟨b.xMin, b.yMin⟩ e ∧
          AARect.pointEdgeRelation ⟨b.xMin, b.yMin⟩ e = AARect.pointEdgeRelation ⟨b.xMax, b.yMin⟩ e) ∧
        ∃ s ∈ b.edges, e.collidesEdge s = true))) ↔ ∃ p ∈ e.exact.pts, p ∈ b.exact.pts) := by
      intro h
      refine iff_of_false ?_ (fun ⟨p, hp, hq⟩ => corners_one_side hF h hq (side_self hp))
      rintro ⟨-, h' | ⟨h', -⟩⟩
      · exact hB h'
      · apply h'
        have sgn : ∃ o : Ordering, ∀ s ∈ b.exact.sides, compare (e.exact.side s.start) 0 = o ∧ 20 * u * d ^ 2 < |e.exact.side s.start| := by
          rcases h with h | h
          · exact ⟨.gt, fun s hs => ⟨compare_gt_iff_gt.2 (by have := h s hs; show (0:ℚ) < _; linarith), (h s hs).trans_le (le_abs_self _)⟩⟩
          · exact ⟨.lt, fun s hs => ⟨compare_lt_iff_lt.2 (by have := h s hs; linarith), by
              have := h s hs
              have := neg_abs_le (e.exact.side s.start)
              linarith⟩⟩
        obtain ⟨o, ho⟩ := sgn
        simp only [AARect.sides, List.mem_cons, List.not_mem_nil, or_false, forall_eq_or_imp, forall_eq] at ho
        obtain ⟨⟨o0, m0⟩, ⟨o1, m1⟩, ⟨o2, m2⟩, ⟨o3, m3⟩⟩ := ho
        rw [(r0 m0).trans o0, (r1 m1).trans o1, (r2 m2).trans o2, (r3 m3).trans o3]
        exact ⟨rfl, rfl, rfl⟩
    rcases h with h | h | ⟨s, hs, hc, hx⟩
    · exact hone (.inl h)
    · exact hone (.inr h)
    · -- a side is crossed
      obtain ⟨p, hp, hq⟩ := share_of_opposite hx.1 hx.2
      have hpb : p ∈ b.exact.pts := seg_in_rect (sides_pts hb hs).1 (sides_pts hb hs).2 hq
      obtain ⟨se, hse, rfl⟩ := exact_mem_sides hs
      refine iff_of_true ⟨napart p hp hpb, .inr ⟨?_, se, hse, (collidesEdge_rounded st hu (hd _ hs) hc).2 ⟨p, hp, hq⟩⟩⟩ ⟨p, hp, hpb⟩
      have opp : compare (e.exact.side se.exact.start) 0 ≠ compare (e.exact.side se.exact.stop) 0 := by
        intro heq
        rcases mul_neg_iff.1 hx.2 with ⟨h1, h2⟩ | ⟨h1, h2⟩
        · rw [compare_gt_iff_gt.2 h1, compare_lt_iff_lt.2 h2] at heq; simp at heq
        · rw [compare_lt_iff_lt.2 h1, compare_gt_iff_gt.2 h2] at heq; simp at heq
      have q1 := hc.2.1
      have q2 := hc.2.2
      rintro ⟨e1, e2, e3⟩
      simp only [AARect.edges, List.mem_cons, List.not_mem_nil, or_false] at hse
      rcases hse with rfl | rfl | rfl | rfl
      · exact opp ((r0 q1).symm.trans (e1.trans (r1 q2)))
      · exact opp ((r1 q1).symm.trans (e2.trans (r2 q2)))
      · exact opp ((r2 q1).symm.trans (e3.trans (r3 q2)))
      · exact opp ((r3 q1).symm.trans ((e1.trans (e2.trans e3)).symm.trans (r0 q2)))

end Jagua
