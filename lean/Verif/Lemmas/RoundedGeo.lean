import Verif.Spec.RoundedGeo
import Verif.Lemmas.Tolerance

/-! # Collision tests in arithmetic with rounding -/

set_option linter.unusedSectionVars false

namespace Jagua

variable {r : Rounding} {u : ℚ}

namespace Rounding.Standard

theorem nonneg (st : r.Standard u) : 0 ≤ u := by
  have := st.near 1
  rw [st.one] at this
  simpa using this

theorem zero (st : r.Standard u) : r.rnd 0 = 0 := by
  have := st.near 0
  simpa using this

theorem lower (st : r.Standard u) {x : ℚ} (hx : 0 ≤ x) : x * (1 - u) ≤ r.rnd x := by
  have := st.near x
  rw [abs_of_nonneg hx, abs_le] at this
  linarith [this.1]

theorem pos (st : r.Standard u) (hu : u < 1) {x : ℚ} (hx : 0 < x) : 0 < r.rnd x := by
  have := st.lower hx.le
  have : 0 < x * (1 - u) := mul_pos hx (by linarith)
  linarith

theorem neg' (st : r.Standard u) (hu : u < 1) {x : ℚ} (hx : x < 0) : r.rnd x < 0 := by
  have := st.pos hu (x := -x) (by linarith)
  rw [st.neg] at this
  linarith

/-- a rounded product of rounded factors -/
theorem prod (st : r.Standard u) {a b a' b' : ℚ} (ha : |a' - a| ≤ u * |a|) (hb : |b' - b| ≤ u * |b|) :
    |r.rnd (a' * b') - a * b| ≤ ((1 + u) ^ 3 - 1) * |a * b| := by
  have hu := st.nonneg
  have hb' : |b'| ≤ (1 + u) * |b| := by
    have := abs_add_le (b' - b) b
    rw [sub_add_cancel] at this
    linarith
  have ha' : |a'| ≤ (1 + u) * |a| := by
    have := abs_add_le (a' - a) a
    rw [sub_add_cancel] at this
    linarith
  have h1 : |a' * b' - a * b| ≤ u * |a| * ((1 + u) * |b|) + |a| * (u * |b|) := by
    have e : a' * b' - a * b = (a' - a) * b' + a * (b' - b) := by ring
    rw [e]
    refine (abs_add_le _ _).trans ?_
    rw [abs_mul, abs_mul]
    exact add_le_add (mul_le_mul ha hb' (abs_nonneg _) (by positivity)) (mul_le_mul_of_nonneg_left hb (abs_nonneg _))
  have h2 := st.near (a' * b')
  have h3 : |a' * b'| ≤ (1 + u) * |a| * ((1 + u) * |b|) := by
    rw [abs_mul]
    exact mul_le_mul ha' hb' (abs_nonneg _) (by positivity)
  have h4 : |r.rnd (a' * b') - a * b| ≤ |r.rnd (a' * b') - a' * b'| + |a' * b' - a * b| := abs_sub_le _ _ _
  have h5 : u * |a' * b'| ≤ u * ((1 + u) * |a| * ((1 + u) * |b|)) := mul_le_mul_of_nonneg_left h3 hu
  rw [abs_mul a b]
  nlinarith [abs_nonneg a, abs_nonneg b]

/-- the difference of two rounded products of rounded factors -/
theorem cross (st : r.Standard u) {a b c d a' b' c' d' : ℚ} (ha : |a' - a| ≤ u * |a|) (hb : |b' - b| ≤ u * |b|)
    (hc : |c' - c| ≤ u * |c|) (hd : |d' - d| ≤ u * |d|) :
    |r.rnd (r.rnd (a' * b') - r.rnd (c' * d')) - (a * b - c * d)| ≤ ((1 + u) ^ 4 - 1) * (|a * b| + |c * d|) := by
  have hu := st.nonneg
  have h1 := st.prod ha hb
  have h2 := st.prod hc hd
  set P := r.rnd (a' * b')
  set Q := r.rnd (c' * d')
  have h3 := st.near (P - Q)
  have e1 : |(P - Q) - (a * b - c * d)| ≤ |P - a * b| + |Q - c * d| := by
    have : (P - Q) - (a * b - c * d) = (P - a * b) - (Q - c * d) := by ring
    rw [this]
    exact abs_sub _ _
  have e2 : |P - Q| ≤ |(P - Q) - (a * b - c * d)| + (|a * b| + |c * d|) := by
    have := abs_add_le ((P - Q) - (a * b - c * d)) (a * b - c * d)
    rw [sub_add_cancel] at this
    exact this.trans (by linarith [abs_sub (a * b) (c * d)])
  have e3 : |r.rnd (P - Q) - (a * b - c * d)| ≤ |r.rnd (P - Q) - (P - Q)| + |(P - Q) - (a * b - c * d)| := abs_sub_le _ _ _
  have e4 : u * |P - Q| ≤ u * (((1 + u) ^ 3 - 1) * (|a * b| + |c * d|) + (|a * b| + |c * d|)) :=
    mul_le_mul_of_nonneg_left (by nlinarith) hu
  nlinarith

theorem pow_three (st : r.Standard u) (hu : u ≤ 1 / 256) : (1 + u) ^ 3 - 1 ≤ 25 / 8 * u := by
  have := st.nonneg
  nlinarith [mul_nonneg this this, mul_nonneg (mul_nonneg this this) this]

theorem pow_four (st : r.Standard u) (hu : u ≤ 1 / 256) : (1 + u) ^ 4 - 1 ≤ 17 / 4 * u := by
  have := st.nonneg
  nlinarith [mul_nonneg this this, mul_nonneg (mul_nonneg this this) this, mul_nonneg (mul_nonneg (mul_nonneg this this) this) this]

end Rounding.Standard

/-! ## Two edges -/

/-- the test, over any arithmetic -/
theorem collidesEdge_arith {K : Type*} [Arith K] [LinearOrder K] (x1 y1 x2 y2 x3 y3 x4 y4 : K) :
    (Edge.mk ⟨x1, y1⟩ ⟨x2, y2⟩).collidesEdge ⟨⟨x3, y3⟩, ⟨x4, y4⟩⟩ = true ↔
      (max (min x1 x2) (min x3 x4) ≤ min (max x1 x2) (max x3 x4) ∧ max (min y1 y2) (min y3 y4) ≤ min (max y1 y2) (max y3 y4)) ∧
      (x2 - x1) * (y4 - y3) - (y2 - y1) * (x4 - x3) ≠ 0 ∧
      (0 ≤ ((x2 - x4) * (y4 - y3) - (y2 - y4) * (x4 - x3)) / ((x2 - x1) * (y4 - y3) - (y2 - y1) * (x4 - x3)) ∧
        ((x2 - x4) * (y4 - y3) - (y2 - y4) * (x4 - x3)) / ((x2 - x1) * (y4 - y3) - (y2 - y1) * (x4 - x3)) ≤ 1) ∧
      0 ≤ ((x2 - x4) * (y2 - y1) - (y2 - y4) * (x2 - x1)) / ((x2 - x1) * (y4 - y3) - (y2 - y1) * (x4 - x3)) ∧
        ((x2 - x4) * (y2 - y1) - (y2 - y4) * (x2 - x1)) / ((x2 - x1) * (y4 - y3) - (y2 - y1) * (x4 - x3)) ≤ 1 := by
  unfold Edge.collidesEdge Edge.edgeIntersection Edge.xMin Edge.xMax Edge.yMin Edge.yMax
  simp only [or_self, gt_iff_lt, Bool.false_eq_true, if_false]
  generalize hD : (x2 - x1) * (y4 - y3) - (y2 - y1) * (x4 - x3) = D
  generalize hN : ((x2 - x4) * (y4 - y3) - (y2 - y4) * (x4 - x3)) / D = N
  generalize hU : ((x2 - x4) * (y2 - y1) - (y2 - y4) * (x2 - x1)) / D = U
  have hb : (max (min x1 x2) (min x3 x4) ≤ min (max x1 x2) (max x3 x4) ∧ max (min y1 y2) (min y3 y4) ≤ min (max y1 y2) (max y3 y4)) ↔
      ¬ (min (max x1 x2) (max x3 x4) < max (min x1 x2) (min x3 x4) ∨ min (max y1 y2) (max y3 y4) < max (min y1 y2) (min y3 y4)) := by
    rw [not_or, not_lt, not_lt]
  rw [hb]
  by_cases g1 : min (max x1 x2) (max x3 x4) < max (min x1 x2) (min x3 x4) ∨ min (max y1 y2) (max y3 y4) < max (min y1 y2) (min y3 y4)
  · simp only [g1, if_true, Bool.false_eq_true, not_true_eq_false, false_and]
  · by_cases g2 : D = 0
    · simp only [g1, g2, if_true, if_false, Bool.false_eq_true, ne_eq, not_true_eq_false, false_and, and_false]
    · by_cases g3 : (0 ≤ N ∧ N ≤ 1) ∧ 0 ≤ U ∧ U ≤ 1
      · simp only [g1, g2, g3, if_true, if_false, not_false_eq_true, and_self, ne_eq]
      · simp only [g1, g2, g3, if_false, not_false_eq_true, true_and, ne_eq, Bool.false_eq_true]

theorem val_le {a b : Rounded r} : a ≤ b ↔ a.1 ≤ b.1 := Iff.rfl
theorem val_lt {a b : Rounded r} : a < b ↔ a.1 < b.1 := Iff.rfl
theorem val_zero (st : r.Standard u) : (0 : Rounded r).1 = 0 := st.zero
theorem val_one (st : r.Standard u) : (1 : Rounded r).1 = 1 := st.one
theorem val_eq {a b : Rounded r} : a = b ↔ a.1 = b.1 := Subtype.ext_iff

theorem val_min (a b : Rounded r) : (min a b).1 = min a.1 b.1 := by
  rcases le_total a b with h | h
  · rw [min_eq_left h, min_eq_left (val_le.1 h)]
  · rw [min_eq_right h, min_eq_right (val_le.1 h)]

theorem val_max (a b : Rounded r) : (max a b).1 = max a.1 b.1 := by
  rcases le_total a b with h | h
  · rw [max_eq_right h, max_eq_right (val_le.1 h)]
  · rw [max_eq_left h, max_eq_left (val_le.1 h)]

/-- Whether a ratio is between 0 and 1, with rounding: opposite sides. -/
theorem ratio_opposite (st : r.Standard u) {s s' E N D : ℚ} (hE : 0 ≤ E) (hN : |N - s| ≤ E) (hD : |D - (s - s')| ≤ E)
    (h : (2 * E < s ∧ s' < -(2 * E)) ∨ (s < -(2 * E) ∧ 2 * E < s')) :
    D ≠ 0 ∧ 0 ≤ r.rnd (N / D) ∧ r.rnd (N / D) ≤ 1 := by
  rw [abs_le] at hN hD
  have key : D ≠ 0 ∧ 0 ≤ N / D ∧ N / D ≤ 1 := by
    rcases h with ⟨h1, h2⟩ | ⟨h1, h2⟩
    · have hd : 0 < D := by linarith
      exact ⟨hd.ne', div_nonneg (by linarith) hd.le, (div_le_one hd).2 (by linarith)⟩
    · have hd : D < 0 := by linarith
      exact ⟨hd.ne, div_nonneg_of_nonpos (by linarith) hd.le, (div_le_one_of_neg hd).2 (by linarith)⟩
  refine ⟨key.1, ?_, ?_⟩
  · rw [← st.zero]; exact st.mono key.2.1
  · rw [← st.one]; exact st.mono key.2.2

/-- Whether a ratio is between 0 and 1, with rounding: the same side. -/
theorem ratio_same (st : r.Standard u) (hu : u < 1) {s s' E S N D : ℚ} (hE : 0 ≤ E) (hN : |N - s| ≤ E) (hD : |D - (s - s')| ≤ E)
    (hS : |s| ≤ S) (h : (2 * E + u * S < s ∧ 2 * E + u * S < s') ∨ (s < -(2 * E + u * S) ∧ s' < -(2 * E + u * S))) (hD0 : D ≠ 0) :
    ¬ (0 ≤ r.rnd (N / D) ∧ r.rnd (N / D) ≤ 1) := by
  have hu0 := st.nonneg
  rintro ⟨k0, k1⟩
  rw [abs_le] at hN hD hS
  have hS0 : 0 ≤ S := by linarith
  have hpos := mul_nonneg hu0 hS0
  -- the ratio is not negative, and so it is larger than 1
  have hq0 : 0 ≤ N / D := by
    by_contra hn
    exact absurd (st.neg' hu (not_le.1 hn)) (not_lt.2 k0)
  have hq := st.lower hq0
  have hq1 : N / D * (1 - u) ≤ 1 := hq.trans k1
  rw [div_mul_eq_mul_div] at hq1
  rcases h with ⟨h1, h2⟩ | ⟨h1, h2⟩
  · have hN0 : 0 < N := by linarith
    have hD1 : 0 < D := by
      by_contra hn
      have : D < 0 := lt_of_le_of_ne (not_lt.1 hn) hD0
      exact absurd (div_neg_of_pos_of_neg hN0 this) (not_lt.2 hq0)
    rw [div_le_one hD1] at hq1
    have := mul_le_mul_of_nonneg_left (show N ≤ s + E by linarith) hu0
    have := mul_le_mul_of_nonneg_left hS.2 hu0
    have := mul_nonneg hu0 hE
    have : u * E ≤ E := by nlinarith
    nlinarith
  · have hN0 : N < 0 := by linarith
    have hD1 : D < 0 := by
      by_contra hn
      have : 0 < D := lt_of_le_of_ne (not_lt.1 hn) hD0.symm
      exact absurd (div_neg_of_neg_of_pos hN0 this) (not_lt.2 hq0)
    rw [div_le_one_of_neg hD1] at hq1
    have := mul_le_mul_of_nonneg_left (show -N ≤ -s + E by linarith) hu0
    have := mul_le_mul_of_nonneg_left hS.1 hu0
    have : u * E ≤ E := by nlinarith
    nlinarith


theorem side_affine (f : Edge ℚ) {e : Edge ℚ} {p : Point ℚ} (hp : p ∈ e.pts) :
    ∃ t, 0 ≤ t ∧ t ≤ 1 ∧ f.side p = f.side e.start + t * (f.side e.stop - f.side e.start) := by
  obtain ⟨t, t0, t1, hx, hy⟩ := hp
  refine ⟨t, t0, t1, ?_⟩
  unfold Edge.side
  rw [hx, hy]
  ring

theorem side_self {f : Edge ℚ} {p : Point ℚ} (hp : p ∈ f.pts) : f.side p = 0 := by
  obtain ⟨t, -, -, hx, hy⟩ := hp
  unfold Edge.side
  rw [hx, hy]
  ring

/-- edges that share a point do not have ends on the same side of each other -/
theorem opposite_of_share {e f : Edge ℚ} {p : Point ℚ} (he : p ∈ e.pts) (hf : p ∈ f.pts) :
    ¬ (0 < f.side e.start ∧ 0 < f.side e.stop) ∧ ¬ (f.side e.start < 0 ∧ f.side e.stop < 0) := by
  obtain ⟨t, t0, t1, h⟩ := side_affine f he
  rw [side_self hf] at h
  constructor <;> rintro ⟨h1, h2⟩ <;> rcases t0.eq_or_lt with rfl | t0
  · linarith
  · nlinarith [mul_pos t0 h2, mul_nonneg (sub_nonneg.2 t1) h1.le]
  · linarith
  · nlinarith [mul_pos t0 (neg_pos.2 h2), mul_nonneg (sub_nonneg.2 t1) (neg_pos.2 h1).le]

theorem share_of_opposite {e f : Edge ℚ} (h1 : f.side e.start * f.side e.stop < 0) (h2 : e.side f.start * e.side f.stop < 0) :
    (e.pts ∩ f.pts).Nonempty := by
  set s := f.side e.start with hs
  set s' := f.side e.stop with hs'
  set t := e.side f.start with ht
  set t' := e.side f.stop with ht'
  have frac : ∀ a b : ℚ, a * b < 0 → a - b ≠ 0 ∧ 0 ≤ a / (a - b) ∧ a / (a - b) ≤ 1 := by
    intro a b h
    rcases lt_trichotomy a 0 with ha | ha | ha
    · have hb : 0 < b := by by_contra hn; nlinarith
      exact ⟨by linarith, div_nonneg_of_nonpos ha.le (by linarith), (div_le_one_of_neg (by linarith)).2 (by linarith)⟩
    · rw [ha] at h; simp at h
    · have hb : b < 0 := by by_contra hn; nlinarith
      exact ⟨by linarith, div_nonneg ha.le (by linarith), (div_le_one (by linarith)).2 (by linarith)⟩
  obtain ⟨d1, a0, a1⟩ := frac s s' h1
  obtain ⟨d2, b0, b1⟩ := frac t t' h2
  have hd : t - t' = -(s - s') := by
    rw [hs, hs', ht, ht']; unfold Edge.side; ring
  refine ⟨⟨e.start.x + s / (s - s') * (e.stop.x - e.start.x), e.start.y + s / (s - s') * (e.stop.y - e.start.y)⟩,
    ⟨_, a0, a1, rfl, rfl⟩, ⟨_, b0, b1, ?_, ?_⟩⟩
  · simp only
    rw [hd, div_neg, neg_mul, ← sub_eq_zero]
    have : (s - s') ≠ 0 := d1
    field_simp
    rw [hs, hs', ht]
    unfold Edge.side
    ring
  · simp only
    rw [hd, div_neg, neg_mul, ← sub_eq_zero]
    have : (s - s') ≠ 0 := d1
    field_simp
    rw [hs, hs', ht]
    unfold Edge.side
    ring

/-- the rounded numerator and denominator of the parameter of the common point -/
theorem edge_params (st : r.Standard u) (hu : u ≤ 1 / 256) {x2 x4 y4 y3 y2 x3 x1 y1 : Rounded r} {d : ℚ}
    (h : ∀ a b : Rounded r, (a, b) ∈ [(x2, x4), (y4, y3), (y2, y4), (x4, x3), (x2, x1), (y2, y1)] → |a.1 - b.1| ≤ d) :
    (|((x2 - x4) * (y4 - y3) - (y2 - y4) * (x4 - x3) : Rounded r).1 - ((x2.1 - x4.1) * (y4.1 - y3.1) - (y2.1 - y4.1) * (x4.1 - x3.1))| ≤ 17 / 2 * u * d ^ 2 ∧
      |((x2 - x1) * (y4 - y3) - (y2 - y1) * (x4 - x3) : Rounded r).1 - ((x2.1 - x1.1) * (y4.1 - y3.1) - (y2.1 - y1.1) * (x4.1 - x3.1))| ≤ 17 / 2 * u * d ^ 2) ∧
    |((x2 - x4) * (y2 - y1) - (y2 - y4) * (x2 - x1) : Rounded r).1 - ((x2.1 - x4.1) * (y2.1 - y1.1) - (y2.1 - y4.1) * (x2.1 - x1.1))| ≤ 17 / 2 * u * d ^ 2 := by
  have hu0 := st.nonneg
  have gen : ∀ a b c e f g i j : Rounded r, |a.1 - b.1| ≤ d → |c.1 - e.1| ≤ d → |f.1 - g.1| ≤ d → |i.1 - j.1| ≤ d →
      |((a - b) * (c - e) - (f - g) * (i - j) : Rounded r).1 - ((a.1 - b.1) * (c.1 - e.1) - (f.1 - g.1) * (i.1 - j.1))| ≤ 17 / 2 * u * d ^ 2 := by
    intro a b c e f g i j h1 h2 h3 h4
    refine (st.cross (st.near (a.1 - b.1)) (st.near (c.1 - e.1)) (st.near (f.1 - g.1)) (st.near (i.1 - j.1))).trans ?_
    rw [abs_mul, abs_mul]
    have d0 : 0 ≤ d := (abs_nonneg _).trans h1
    have m1 := mul_le_mul h1 h2 (abs_nonneg _) d0
    have m2 := mul_le_mul h3 h4 (abs_nonneg _) d0
    have k := st.pow_four hu
    have k0 : 0 ≤ 17 / 4 * u := by linarith
    refine (mul_le_mul k (add_le_add m1 m2) (by positivity) k0).trans ?_
    nlinarith
  simp only [List.mem_cons, Prod.mk.injEq, List.not_mem_nil, or_false] at h
  refine ⟨⟨gen _ _ _ _ _ _ _ _ (h _ _ ?_) (h _ _ ?_) (h _ _ ?_) (h _ _ ?_), gen _ _ _ _ _ _ _ _ (h _ _ ?_) (h _ _ ?_) (h _ _ ?_) (h _ _ ?_)⟩,
    gen _ _ _ _ _ _ _ _ (h _ _ ?_) (h _ _ ?_) (h _ _ ?_) (h _ _ ?_)⟩ <;> simp

/-- the test in terms of numbers that are close to the exact ones -/
theorem edge_core (st : r.Standard u) (hu : u ≤ 1 / 256) {e f : Edge (Rounded r)} {d : ℚ} (hd : e.exact.Within f.exact d) :
    ∃ N D U : ℚ, (e.collidesEdge f = true ↔ (max e.exact.xMin f.exact.xMin ≤ min e.exact.xMax f.exact.xMax ∧
        max e.exact.yMin f.exact.yMin ≤ min e.exact.yMax f.exact.yMax) ∧ D ≠ 0 ∧
        (0 ≤ r.rnd (N / D) ∧ r.rnd (N / D) ≤ 1) ∧ 0 ≤ r.rnd (U / D) ∧ r.rnd (U / D) ≤ 1) ∧
      |N - f.exact.side e.exact.stop| ≤ 17 / 2 * u * d ^ 2 ∧ |D - (f.exact.side e.exact.stop - f.exact.side e.exact.start)| ≤ 17 / 2 * u * d ^ 2 ∧
      |U - -(e.exact.side f.exact.stop)| ≤ 17 / 2 * u * d ^ 2 ∧ |D - (-(e.exact.side f.exact.stop) - -(e.exact.side f.exact.start))| ≤ 17 / 2 * u * d ^ 2 ∧
      |f.exact.side e.exact.stop| ≤ 2 * d ^ 2 ∧ |-(e.exact.side f.exact.stop)| ≤ 2 * d ^ 2 := by
  have hu0 := st.nonneg
  obtain ⟨⟨x1, y1⟩, ⟨x2, y2⟩⟩ := e
  obtain ⟨⟨x3, y3⟩, ⟨x4, y4⟩⟩ := f
  set e : Edge (Rounded r) := ⟨⟨x1, y1⟩, ⟨x2, y2⟩⟩ with he
  set f : Edge (Rounded r) := ⟨⟨x3, y3⟩, ⟨x4, y4⟩⟩ with hf
  obtain ⟨⟨pt, pd⟩, pu⟩ := edge_params st hu (d := d) (x2 := x2) (x4 := x4) (y4 := y4) (y3 := y3) (y2 := y2) (x3 := x3) (x1 := x1) (y1 := y1) (by
    intro a b hab
    simp only [List.mem_cons, Prod.mk.injEq, List.not_mem_nil, or_false] at hab
    have m1 : e.exact.start ∈ [e.exact.start, e.exact.stop, f.exact.start, f.exact.stop] := by simp
    have m2 : e.exact.stop ∈ [e.exact.start, e.exact.stop, f.exact.start, f.exact.stop] := by simp
    have m3 : f.exact.start ∈ [e.exact.start, e.exact.stop, f.exact.start, f.exact.stop] := by simp
    have m4 : f.exact.stop ∈ [e.exact.start, e.exact.stop, f.exact.start, f.exact.stop] := by simp
    rcases hab with ⟨rfl, rfl⟩ | ⟨rfl, rfl⟩ | ⟨rfl, rfl⟩ | ⟨rfl, rfl⟩ | ⟨rfl, rfl⟩ | ⟨rfl, rfl⟩
    · exact (hd _ m2 _ m4).1
    · exact (hd _ m4 _ m3).2
    · exact (hd _ m2 _ m4).2
    · exact (hd _ m4 _ m3).1
    · exact (hd _ m2 _ m1).1
    · exact (hd _ m2 _ m1).2)
  have d0 : 0 ≤ d := (abs_nonneg _).trans (hd e.exact.start (by simp) e.exact.start (by simp)).1
  have hE : 0 ≤ 17 / 2 * u * d ^ 2 := by positivity
  -- sizes of the exact values
  have size : ∀ (a b : Edge ℚ) (p : Point ℚ), (∀ q ∈ [b.start, b.stop, p], q ∈ [e.exact.start, e.exact.stop, f.exact.start, f.exact.stop]) →
      |b.side p| ≤ 2 * d ^ 2 := by
    intro _ b p hm
    unfold Edge.side
    refine (abs_sub _ _).trans ?_
    rw [abs_mul, abs_mul]
    have a1 := hd p (hm _ (by simp)) b.stop (hm _ (by simp))
    have a2 := hd b.stop (hm _ (by simp)) b.start (hm _ (by simp))
    have m1 := mul_le_mul a1.1 a2.2 (abs_nonneg _) d0
    have m2 := mul_le_mul a1.2 a2.1 (abs_nonneg _) d0
    nlinarith
  set s := f.exact.side e.exact.stop with hs
  set s' := f.exact.side e.exact.start with hs'
  set t := -(e.exact.side f.exact.stop) with ht
  set t' := -(e.exact.side f.exact.start) with ht'
  have hS : |s| ≤ 2 * d ^ 2 := size e.exact _ _ (by simp)
  have hT : |t| ≤ 2 * d ^ 2 := by rw [ht, abs_neg]; exact size e.exact _ _ (by simp)
  replace pt : |((x2 - x4) * (y4 - y3) - (y2 - y4) * (x4 - x3) : Rounded r).1 - s| ≤ 17 / 2 * u * d ^ 2 := pt
  have pd1 : |((x2 - x1) * (y4 - y3) - (y2 - y1) * (x4 - x3) : Rounded r).1 - (s - s')| ≤ 17 / 2 * u * d ^ 2 := by
    convert pd using 2
    rw [hs, hs']; unfold Edge.side; simp only [he, hf, Edge.exact, Point.exact]; ring
  have pd2 : |((x2 - x1) * (y4 - y3) - (y2 - y1) * (x4 - x3) : Rounded r).1 - (t - t')| ≤ 17 / 2 * u * d ^ 2 := by
    convert pd using 2
    rw [ht, ht']; unfold Edge.side; simp only [he, hf, Edge.exact, Point.exact]; ring
  have pu1 : |((x2 - x4) * (y2 - y1) - (y2 - y4) * (x2 - x1) : Rounded r).1 - t| ≤ 17 / 2 * u * d ^ 2 := by
    convert pu using 2
    rw [ht]; unfold Edge.side; simp only [he, hf, Edge.exact, Point.exact]; ring
  set N := ((x2 - x4) * (y4 - y3) - (y2 - y4) * (x4 - x3) : Rounded r)
  set D := ((x2 - x1) * (y4 - y3) - (y2 - y1) * (x4 - x3) : Rounded r)
  set U := ((x2 - x4) * (y2 - y1) - (y2 - y4) * (x2 - x1) : Rounded r)
  have hcol : e.collidesEdge f = true ↔ (max e.exact.xMin f.exact.xMin ≤ min e.exact.xMax f.exact.xMax ∧
        max e.exact.yMin f.exact.yMin ≤ min e.exact.yMax f.exact.yMax) ∧ D.1 ≠ 0 ∧
      (0 ≤ r.rnd (N.1 / D.1) ∧ r.rnd (N.1 / D.1) ≤ 1) ∧ 0 ≤ r.rnd (U.1 / D.1) ∧ r.rnd (U.1 / D.1) ≤ 1 := by
    have hz : D ≠ 0 ↔ D.1 ≠ 0 := by rw [ne_eq, val_eq, val_zero st]
    have hle : ∀ a : Rounded r, (0 ≤ a ∧ a ≤ 1) ↔ (0 ≤ a.1 ∧ a.1 ≤ 1) := by
      intro a
      rw [val_le, val_le, val_zero st, val_one st]
    rw [collidesEdge_arith, hle, hle, hz]
    simp only [val_le, val_min, val_max]
    rfl
  exact ⟨N.1, D.1, U.1, hcol, pt, pd1, pu1, pd2, hS, hT⟩

/-- the sides of the ends, with the margin that the ratios need -/
theorem side_margin (hu0 : 0 ≤ u) {d x : ℚ} (hx : 20 * u * d ^ 2 < |x|) :
    2 * (17 / 2 * u * d ^ 2) + u * (2 * d ^ 2) < x ∨ x < -(2 * (17 / 2 * u * d ^ 2) + u * (2 * d ^ 2)) := by
  have hud : 0 ≤ u * d ^ 2 := by positivity
  rcases lt_abs.1 hx with h | h
  · left; linarith
  · right; linarith

theorem collidesEdge_rounded (st : r.Standard u) (hu : u ≤ 1 / 256) {e f : Edge (Rounded r)} {d : ℚ} (hd : e.exact.Within f.exact d)
    (hc : e.exact.Clear f.exact (20 * u * d ^ 2)) : e.collidesEdge f = true ↔ (e.exact.pts ∩ f.exact.pts).Nonempty := by
  have hu0 := st.nonneg
  obtain ⟨N, D, U, hcol, pt, pd1, pu1, pd2, hS, hT⟩ := edge_core st hu hd
  obtain ⟨⟨c1, c2⟩, c3, c4⟩ := hc
  have hE : 0 ≤ 17 / 2 * u * d ^ 2 := by positivity
  set s := f.exact.side e.exact.stop with hs
  set s' := f.exact.side e.exact.start with hs'
  set t := -(e.exact.side f.exact.stop) with ht
  set t' := -(e.exact.side f.exact.start) with ht'
  have c3' : 20 * u * d ^ 2 < |t'| := by rw [ht', abs_neg]; exact c3
  have c4' : 20 * u * d ^ 2 < |t| := by rw [ht, abs_neg]; exact c4
  rw [hcol]
  have margin : ∀ x : ℚ, 20 * u * d ^ 2 < |x| → _ := fun x hx => side_margin hu0 (x := x) hx
  have hud : 0 ≤ u * d ^ 2 := by positivity
  have hu1 : u < 1 := by linarith
  constructor
  · rintro ⟨-, hD, hT', hU'⟩
    have o1 : s' * s < 0 := by
      rcases margin s c2 with k | k <;> rcases margin s' c1 with k' | k'
      · exact absurd hT' (ratio_same st hu1 hE pt pd1 hS (.inl ⟨k, k'⟩) hD)
      · exact mul_neg_of_neg_of_pos (by linarith) (by linarith)
      · exact mul_neg_of_pos_of_neg (by linarith) (by linarith)
      · exact absurd hT' (ratio_same st hu1 hE pt pd1 hS (.inr ⟨k, k'⟩) hD)
    have o2 : t' * t < 0 := by
      rcases margin t c4' with k | k <;> rcases margin t' c3' with k' | k'
      · exact absurd hU' (ratio_same st hu1 hE pu1 pd2 hT (.inl ⟨k, k'⟩) hD)
      · exact mul_neg_of_neg_of_pos (by linarith) (by linarith)
      · exact mul_neg_of_pos_of_neg (by linarith) (by linarith)
      · exact absurd hU' (ratio_same st hu1 hE pu1 pd2 hT (.inr ⟨k, k'⟩) hD)
    refine share_of_opposite o1 ?_
    rw [ht, ht', neg_mul_neg] at o2
    exact o2
  · rintro ⟨p, hpe, hpf⟩
    have b1 := mem_pts_bounds hpe
    have b2 := mem_pts_bounds hpf
    have o1 := opposite_of_share hpe hpf
    have o2 := opposite_of_share hpf hpe
    have k1 : (2 * (17 / 2 * u * d ^ 2) < s ∧ s' < -(2 * (17 / 2 * u * d ^ 2))) ∨ (s < -(2 * (17 / 2 * u * d ^ 2)) ∧ 2 * (17 / 2 * u * d ^ 2) < s') := by
      rcases margin s c2 with k | k <;> rcases margin s' c1 with k' | k'
      · exact absurd ⟨by linarith, by linarith⟩ o1.1
      · exact .inl ⟨by linarith, by linarith⟩
      · exact .inr ⟨by linarith, by linarith⟩
      · exact absurd ⟨by linarith, by linarith⟩ o1.2
    have k2 : (2 * (17 / 2 * u * d ^ 2) < t ∧ t' < -(2 * (17 / 2 * u * d ^ 2))) ∨ (t < -(2 * (17 / 2 * u * d ^ 2)) ∧ 2 * (17 / 2 * u * d ^ 2) < t') := by
      rcases margin t c4' with k | k <;> rcases margin t' c3' with k' | k'
      · exact absurd ⟨by linarith, by linarith⟩ o2.2
      · exact .inl ⟨by linarith, by linarith⟩
      · exact .inr ⟨by linarith, by linarith⟩
      · exact absurd ⟨by linarith, by linarith⟩ o2.1
    obtain ⟨hD, hT'⟩ := ratio_opposite st hE pt pd1 k1
    obtain ⟨-, hU'⟩ := ratio_opposite st hE pu1 pd2 k2
    refine ⟨?_, hD, hT', hU'⟩
    exact ⟨(max_le b1.1 b2.1).trans (le_min b1.2.1 b2.2.1), (max_le b1.2.2.1 b2.2.2.1).trans (le_min b1.2.2.2 b2.2.2.2)⟩

/-- edges that lie clearly beside each other are not reported -/
theorem collidesEdge_beside (st : r.Standard u) (hu : u ≤ 1 / 256) {e f : Edge (Rounded r)} {d : ℚ} (hd : e.exact.Within f.exact d)
    (hc : e.exact.Beside f.exact (20 * u * d ^ 2) ∨ f.exact.Beside e.exact (20 * u * d ^ 2)) : e.collidesEdge f = false := by
  have hu0 := st.nonneg
  obtain ⟨N, D, U, hcol, pt, pd1, pu1, pd2, hS, hT⟩ := edge_core st hu hd
  have hE : 0 ≤ 17 / 2 * u * d ^ 2 := by positivity
  have hud : 0 ≤ u * d ^ 2 := by positivity
  have hu1 : u < 1 := by linarith
  rw [← Bool.not_eq_true, hcol]
  rintro ⟨-, hD, hT', hU'⟩
  rcases hc with (⟨h1, h2⟩ | ⟨h1, h2⟩) | ⟨h1, h2⟩ | ⟨h1, h2⟩
  · exact ratio_same st hu1 hE pt pd1 hS (.inl ⟨by linarith, by linarith⟩) hD hT'
  · exact ratio_same st hu1 hE pt pd1 hS (.inr ⟨by linarith, by linarith⟩) hD hT'
  · exact ratio_same st hu1 hE pu1 pd2 hT (.inr ⟨by linarith, by linarith⟩) hD hU'
  · exact ratio_same st hu1 hE pu1 pd2 hT (.inl ⟨by linarith, by linarith⟩) hD hU'

/-! ## The ray of the point in polygon test -/

/-- The ratio of the rounded numbers `N` and `D` tells whether the crossing is right of the point. -/
theorem ray_ratio (st : r.Standard u) (hu : u ≤ 1 / 256) {X px Xc w N D Δ : ℚ} (hw : 0 ≤ w) (hΔ : Δ ≠ 0)
    (hN : |N - Δ * (X - Xc)| ≤ 153 / 10 * u * w * |Δ|) (hD : |D - Δ * (X - px)| ≤ 65 / 8 * u * w * |Δ|)
    (h1 : 2 / 5 * w ≤ X - px) (h2 : X - px ≤ 13 / 5 * w) (h3 : 2 / 5 * w ≤ X - Xc) (hpos : 0 < w) (hfar : 32 * u * w < |Xc - px|) :
    D ≠ 0 ∧ ((0 ≤ r.rnd (N / D) ∧ r.rnd (N / D) ≤ 1) ↔ px < Xc) := by
  have hu0 := st.nonneg
  have hA : 0 < |Δ| := abs_pos.2 hΔ
  have huw : 0 ≤ u * w := mul_nonneg hu0 hw
  have huw' : u * w ≤ 1 / 256 * w := mul_le_mul_of_nonneg_right hu hw
  -- divide by the height of the edge
  have dv : ∀ Y m c : ℚ, |Y - Δ * m| ≤ c * |Δ| → m - c ≤ Y / Δ ∧ Y / Δ ≤ m + c := by
    intro Y m c h
    have e : Y / Δ - m = (Y - Δ * m) / Δ := by field_simp
    have : |Y / Δ - m| ≤ c := by
      rw [e, abs_div, div_le_iff₀ hA]; exact h
    rw [abs_le] at this
    constructor <;> linarith
  obtain ⟨n1, n2⟩ := dv _ _ _ hN
  obtain ⟨d1, d2⟩ := dv _ _ _ hD
  have hq : N / D = (N / Δ) / (D / Δ) := by
    rw [div_div_div_cancel_right₀ hΔ]
  set N' := N / Δ
  set D' := D / Δ with hD'
  have hDpos : 0 < D' := by linarith
  have hD0 : D ≠ 0 := by
    intro h
    rw [hD', h, zero_div] at hDpos
    exact lt_irrefl _ hDpos
  refine ⟨hD0, ?_⟩
  rw [hq]
  constructor
  · rintro ⟨-, k1⟩
    by_contra hn
    have hlt : Xc < px - 32 * u * w := by
      rw [abs_of_nonpos (by linarith)] at hfar
      linarith
    have hN0 : 0 < N' := by linarith
    have := (st.lower (div_nonneg hN0.le hDpos.le)).trans k1
    rw [div_mul_eq_mul_div, div_le_one hDpos] at this
    have hN1 : X - px + 167 / 10 * (u * w) < N' := by linarith
    have hu1 : 0 < 1 - u := by linarith
    have := mul_lt_mul_of_pos_right hN1 hu1
    have := mul_le_mul_of_nonneg_left h2 hu0
    have := mul_le_mul_of_nonneg_right hu huw
    nlinarith
  · intro hlt
    rw [abs_of_nonneg (by linarith)] at hfar
    constructor
    · rw [← st.zero]
      exact st.mono (div_nonneg (by linarith) hDpos.le)
    · rw [← st.one]
      exact st.mono ((div_le_one hDpos).2 (by linarith))

theorem val_sub_self (st : r.Standard u) (a : Rounded r) : a - a = 0 := by
  rw [val_eq, val_zero st]
  show r.rnd (a.1 - a.1) = 0
  rw [sub_self, st.zero]

theorem val_zero_mul (st : r.Standard u) (a : Rounded r) : (0 : Rounded r) * a = 0 := by
  rw [val_eq, val_zero st]
  show r.rnd ((0 : Rounded r).1 * a.1) = 0
  rw [val_zero st, zero_mul, st.zero]

theorem val_mul_zero (st : r.Standard u) (a : Rounded r) : a * (0 : Rounded r) = 0 := by
  rw [val_eq, val_zero st]
  show r.rnd (a.1 * (0 : Rounded r).1) = 0
  rw [val_zero st, mul_zero, st.zero]

theorem val_sub_zero (st : r.Standard u) (a : Rounded r) : a - 0 = a := by
  rw [val_eq]
  show r.rnd (a.1 - (0 : Rounded r).1) = a.1
  rw [val_zero st, sub_zero, a.2]

theorem val_zero_sub (st : r.Standard u) (a : Rounded r) : (0 - a).1 = -a.1 := by
  show r.rnd ((0 : Rounded r).1 - a.1) = -a.1
  rw [val_zero st, zero_sub, st.neg, a.2]

/-- the parameter along the edge is always in range if the level of the ray meets the edge -/
theorem ray_second (st : r.Standard u) {px py X y3 y4 : Rounded r} (hlev : min y3.1 y4.1 ≤ py.1 ∧ py.1 ≤ max y3.1 y4.1)
    (hΔ : y4.1 - y3.1 ≠ 0) (hLpos : 0 < (X - px).1) (hD0 : ((X - px) * (y4 - y3)).1 ≠ 0) :
    0 ≤ (0 - (py - y4) * (X - px)) / ((X - px) * (y4 - y3)) ∧ (0 - (py - y4) * (X - px)) / ((X - px) * (y4 - y3)) ≤ 1 := by
  have R0 := st.zero
  have e1 : (0 - (py - y4) * (X - px)).1 = r.rnd (r.rnd (y4.1 - py.1) * (X - px).1) := by
    rw [val_zero_sub st]
    show -r.rnd (r.rnd (py.1 - y4.1) * (X - px).1) = _
    rw [← st.neg, ← neg_mul, ← st.neg, neg_sub]
  have e2 : ((X - px) * (y4 - y3)).1 = r.rnd ((X - px).1 * r.rnd (y4.1 - y3.1)) := rfl
  generalize (0 - (py - y4) * (X - px)) = A at e1 ⊢
  generalize ((X - px) * (y4 - y3)) = D at e2 hD0 ⊢
  generalize (X - px).1 = L at e1 e2 hLpos
  have key : 0 ≤ A.1 / D.1 ∧ A.1 / D.1 ≤ 1 := by
    rw [e1]
    rcases lt_or_gt_of_ne hΔ with h | h
    · have h' : y4.1 < y3.1 := by linarith
      rw [min_eq_right h'.le, max_eq_left h'.le] at hlev
      have a1 : r.rnd (y4.1 - py.1) ≤ 0 := by rw [← R0]; exact st.mono (by linarith)
      have a2 : r.rnd (y4.1 - y3.1) ≤ r.rnd (y4.1 - py.1) := st.mono (by linarith)
      have m1 : r.rnd (r.rnd (y4.1 - py.1) * L) ≤ 0 := by
        rw [← R0]; exact st.mono (by exact mul_nonpos_of_nonpos_of_nonneg a1 hLpos.le)
      have m2 : D.1 ≤ r.rnd (r.rnd (y4.1 - py.1) * L) := by
        rw [e2, mul_comm]; exact st.mono (mul_le_mul_of_nonneg_right a2 hLpos.le)
      have hDn : D.1 < 0 := lt_of_le_of_ne (m2.trans m1) hD0
      exact ⟨div_nonneg_of_nonpos m1 hDn.le, (div_le_one_of_neg hDn).2 m2⟩
    · have h' : y3.1 < y4.1 := by linarith
      rw [min_eq_left h'.le, max_eq_right h'.le] at hlev
      have a1 : 0 ≤ r.rnd (y4.1 - py.1) := by rw [← R0]; exact st.mono (by linarith)
      have a2 : r.rnd (y4.1 - py.1) ≤ r.rnd (y4.1 - y3.1) := st.mono (by linarith)
      have m1 : 0 ≤ r.rnd (r.rnd (y4.1 - py.1) * L) := by
        rw [← R0]; exact st.mono (by exact mul_nonneg a1 hLpos.le)
      have m2 : r.rnd (r.rnd (y4.1 - py.1) * L) ≤ D.1 := by
        rw [e2, mul_comm L]; exact st.mono (mul_le_mul_of_nonneg_right a2 hLpos.le)
      have hDp : 0 < D.1 := lt_of_le_of_ne (m1.trans m2) (Ne.symm hD0)
      exact ⟨div_nonneg m1 hDp.le, (div_le_one hDp).2 m2⟩
  constructor
  · rw [val_le, val_zero st]
    show 0 ≤ r.rnd (A.1 / D.1)
    have := st.mono key.1
    rwa [R0] at this
  · rw [val_le, val_one st]
    show r.rnd (A.1 / D.1) ≤ 1
    have := st.mono key.2
    rwa [st.one] at this

/-- where the level of a point meets an edge -/
theorem level_meets {px py x3 y3 x4 y4 : ℚ} (he3 : y3 = py → ¬ px < x3) (he4 : y4 = py → ¬ px < x4)
    (hlev : min y3 y4 ≤ py ∧ py ≤ max y3 y4) (hΔ : y4 - y3 ≠ 0) :
    ∃ τ, (0 ≤ τ ∧ τ ≤ 1) ∧ py = y3 + τ * (y4 - y3) ∧
      (CrossesRay (Point.mk px py) (⟨x3, y3⟩, ⟨x4, y4⟩) ↔ px < x3 + τ * (x4 - x3)) := by
  have hτ01 : 0 ≤ (py - y3) / (y4 - y3) ∧ (py - y3) / (y4 - y3) ≤ 1 := by
    rcases lt_or_gt_of_ne hΔ with h | h
    · have : y4 < y3 := by linarith
      rw [min_eq_right this.le, max_eq_left this.le] at hlev
      exact ⟨div_nonneg_of_nonpos (by linarith) h.le, (div_le_one_of_neg h).2 (by linarith)⟩
    · have : y3 < y4 := by linarith
      rw [min_eq_left this.le, max_eq_right this.le] at hlev
      exact ⟨div_nonneg (by linarith) h.le, (div_le_one h).2 (by linarith)⟩
  have hpyτ : py = y3 + (py - y3) / (y4 - y3) * (y4 - y3) := by
    rw [div_mul_cancel₀ _ hΔ]; ring
  generalize (py - y3) / (y4 - y3) = τ at hτ01 hpyτ
  refine ⟨τ, hτ01, hpyτ, ?_⟩
  have hmem : (Point.mk (x3 + τ * (x4 - x3)) py) ∈ segPts (Point.mk x3 y3) ⟨x4, y4⟩ := ⟨τ, hτ01.1, hτ01.2, rfl, hpyτ⟩
  constructor
  · rintro ⟨-, q, ⟨t, -, -, hx, hy⟩, hqy, hqx⟩
    simp only at hx hy hqy hqx
    have : (t - τ) * (y4 - y3) = 0 := by linarith
    rcases mul_eq_zero.1 this with h | h
    · have : t = τ := by linarith
      rw [← this, ← hx]
      exact hqx
    · exact absurd h hΔ
  · intro h
    refine ⟨?_, _, hmem, rfl, h⟩
    simp only
    have n3 : py ≠ y3 := by
      intro e
      have : τ * (y4 - y3) = 0 := by linarith
      rcases mul_eq_zero.1 this with h0 | h0
      · rw [h0, zero_mul, add_zero] at h
        exact he3 e.symm h
      · exact hΔ h0
    have n4 : py ≠ y4 := by
      intro e
      have : (τ - 1) * (y4 - y3) = 0 := by linarith
      rcases mul_eq_zero.1 this with h0 | h0
      · have h1 : τ = 1 := by linarith
        rw [h1, one_mul, add_sub_cancel] at h
        exact he4 e.symm h
      · exact hΔ h0
    rcases le_total y3 y4 with h' | h'
    · rw [min_eq_left h', max_eq_right h'] at hlev
      exact .inl ⟨lt_of_le_of_ne hlev.1 n3.symm, hlev.2⟩
    · rw [min_eq_right h', max_eq_left h'] at hlev
      exact .inr ⟨lt_of_le_of_ne hlev.1 n4.symm, hlev.2⟩

theorem lerp_le {a b c t : ℚ} (t0 : 0 ≤ t) (t1 : t ≤ 1) (ha : a ≤ c) (hb : b ≤ c) : a + t * (b - a) ≤ c := by
  have h1 := mul_le_mul_of_nonneg_left hb t0
  have h2 := mul_le_mul_of_nonneg_left ha (sub_nonneg.2 t1)
  nlinarith

/-- the error of the first numerator -/
theorem ray_numerator (st : r.Standard u) (hu : u ≤ 1 / 256) {py X x3 y3 x4 y4 w τ : ℚ} (t0 : 0 ≤ τ) (t1 : τ ≤ 1)
    (hpy : py = y3 + τ * (y4 - y3)) (i1 : |X - x4| ≤ 13 / 5 * w) (i2 : |x4 - x3| ≤ w) :
    |r.rnd (r.rnd (r.rnd (X - x4) * r.rnd (y4 - y3)) - r.rnd (r.rnd (py - y4) * r.rnd (x4 - x3))) - (y4 - y3) * (X - (x3 + τ * (x4 - x3)))| ≤
      153 / 10 * u * w * |y4 - y3| := by
  have hu0 := st.nonneg
  have e : (y4 - y3) * (X - (x3 + τ * (x4 - x3))) = (X - x4) * (y4 - y3) - (py - y4) * (x4 - x3) := by
    rw [hpy]; ring
  rw [e]
  refine (st.cross (st.near (X - x4)) (st.near (y4 - y3)) (st.near (py - y4)) (st.near (x4 - x3))).trans ?_
  have i3 : |py - y4| ≤ |y4 - y3| := by
    have : py - y4 = -((1 - τ) * (y4 - y3)) := by rw [hpy]; ring
    rw [this, abs_neg, abs_mul, abs_of_nonneg (by linarith)]
    have := mul_nonneg t0 (abs_nonneg (y4 - y3))
    linarith
  rw [abs_mul, abs_mul]
  have k := st.pow_four hu
  have k0 : 0 ≤ 17 / 4 * u := by linarith
  have m1 := mul_le_mul_of_nonneg_right i1 (abs_nonneg (y4 - y3))
  have m2 := mul_le_mul i3 i2 (abs_nonneg _) (abs_nonneg (y4 - y3))
  refine (mul_le_mul k (add_le_add m1 m2) (by positivity) k0).trans (le_of_eq ?_)
  ring

/-- the error of the denominator -/
theorem ray_denominator (st : r.Standard u) (hu : u ≤ 1 / 256) {px X y3 y4 w : ℚ} (i1 : |X - px| ≤ 13 / 5 * w) :
    |r.rnd (r.rnd (X - px) * r.rnd (y4 - y3)) - (y4 - y3) * (X - px)| ≤ 65 / 8 * u * w * |y4 - y3| := by
  have hu0 := st.nonneg
  rw [mul_comm (y4 - y3)]
  refine (st.prod (st.near (X - px)) (st.near (y4 - y3))).trans ?_
  rw [abs_mul]
  have k := st.pow_three hu
  have k0 : 0 ≤ 25 / 8 * u := by linarith
  have m1 := mul_le_mul_of_nonneg_right i1 (abs_nonneg (y4 - y3))
  refine (mul_le_mul k m1 (by positivity) k0).trans (le_of_eq ?_)
  ring

/-- the crossing of the ray and an edge that its level meets -/
theorem ray_plain (st : r.Standard u) (hu : u ≤ 1 / 256) {px py X x3 y3 x4 y4 xn xm w N D : ℚ} (hw : xm - xn = w) (hpos : 0 < w)
    (bp : xn ≤ px ∧ px ≤ xm) (b3 : xn ≤ x3 ∧ x3 ≤ xm) (b4 : xn ≤ x4 ∧ x4 ≤ xm)
    (hX1 : xm + 2 / 5 * w ≤ X) (hX2 : X ≤ xm + 8 / 5 * w)
    (hav : ∀ q ∈ segPts (Point.mk x3 y3) ⟨x4, y4⟩, q.y = py → 32 * u * w < |q.x - px|)
    (he3 : y3 = py → ¬ px < x3) (he4 : y4 = py → ¬ px < x4) (hlev : min y3 y4 ≤ py ∧ py ≤ max y3 y4) (hΔ : y4 - y3 ≠ 0)
    (hN : N = r.rnd (r.rnd (r.rnd (X - x4) * r.rnd (y4 - y3)) - r.rnd (r.rnd (py - y4) * r.rnd (x4 - x3))))
    (hD : D = r.rnd (r.rnd (X - px) * r.rnd (y4 - y3))) :
    D ≠ 0 ∧ ((0 ≤ r.rnd (N / D) ∧ r.rnd (N / D) ≤ 1) ↔ CrossesRay (Point.mk px py) (⟨x3, y3⟩, ⟨x4, y4⟩)) ∧
      (CrossesRay (Point.mk px py) (⟨x3, y3⟩, ⟨x4, y4⟩) → px ≤ max x3 x4) := by
  obtain ⟨τ, ⟨t0, t1⟩, hpy, hcross⟩ := level_meets he3 he4 hlev hΔ
  have hfar := hav ⟨x3 + τ * (x4 - x3), py⟩ ⟨τ, t0, t1, rfl, hpy⟩ rfl
  have hXm := lerp_le t0 t1 b3.2 b4.2
  have n := ray_numerator st hu (X := X) (x3 := x3) (x4 := x4) (w := w) t0 t1 hpy
    (by rw [abs_le]; constructor <;> linarith [b4.1, b4.2]) (by rw [abs_le]; constructor <;> linarith [b4.1, b4.2, b3.1, b3.2])
  have d := ray_denominator st hu (px := px) (X := X) (y3 := y3) (y4 := y4) (w := w)
    (by rw [abs_le]; constructor <;> linarith [bp.1, bp.2])
  rw [← hN] at n
  rw [← hD] at d
  obtain ⟨hD0, hiff⟩ := ray_ratio st hu hpos.le hΔ n d (by linarith [bp.2]) (by linarith [bp.1]) (by linarith) hpos hfar
  exact ⟨hD0, hiff.trans hcross.symm, fun h => (hcross.1 h).le.trans (lerp_le t0 t1 (le_max_left _ _) (le_max_right _ _))⟩

/-- the rounded ray against an edge -/
theorem ray_rounded (st : r.Standard u) (hu : u ≤ 1 / 256) {px py X x3 y3 x4 y4 : Rounded r} {xn xm w : ℚ} (hw : xm - xn = w) (hpos : 0 < w)
    (bp : xn ≤ px.1 ∧ px.1 ≤ xm) (b3 : xn ≤ x3.1 ∧ x3.1 ≤ xm) (b4 : xn ≤ x4.1 ∧ x4.1 ≤ xm)
    (hX1 : xm + 2 / 5 * w ≤ X.1) (hX2 : X.1 ≤ xm + 8 / 5 * w)
    (hav : ∀ q ∈ segPts (Point.mk x3.1 y3.1) ⟨x4.1, y4.1⟩, q.y = py.1 → 32 * u * w < |q.x - px.1|)
    (he3 : y3 = py → ¬ px < x3) (he4 : y4 = py → ¬ px < x4) :
    (Edge.mk ⟨px, py⟩ ⟨X, py⟩).collidesEdge ⟨⟨x3, y3⟩, ⟨x4, y4⟩⟩ = true ↔
      CrossesRay (Point.mk px.1 py.1) (⟨x3.1, y3.1⟩, ⟨x4.1, y4.1⟩) := by
  have hu0 := st.nonneg
  have hu1 : u < 1 := by linarith
  have R0 := st.zero
  have hpX : px.1 < X.1 := by linarith [bp.2]
  rw [collidesEdge_arith]
  rw [val_sub_self st, val_zero_mul st, val_sub_zero st, val_mul_zero st]
  -- the box test
  have hb : (max (min px X) (min x3 x4) ≤ min (max px X) (max x3 x4) ∧ max (min py py) (min y3 y4) ≤ min (max py py) (max y3 y4)) ↔
      (px.1 ≤ max x3.1 x4.1 ∧ min y3.1 y4.1 ≤ py.1 ∧ py.1 ≤ max y3.1 y4.1) := by
    simp only [val_le, val_min, val_max, min_self, max_self]
    rw [min_eq_left hpX.le, max_eq_right hpX.le, max_le_iff, le_min_iff, le_min_iff, max_le_iff, le_min_iff, le_min_iff]
    constructor
    · rintro ⟨⟨⟨-, h1⟩, -⟩, ⟨-, h2⟩, h3, -⟩
      exact ⟨h1, h3, h2⟩
    · rintro ⟨h1, h3, h2⟩
      refine ⟨⟨⟨hpX.le, h1⟩, (min_le_left _ _).trans (by linarith [b3.2]), min_le_max⟩, ⟨le_refl _, h2⟩, h3, min_le_max⟩
  rw [hb]
  by_cases hlev : min y3.1 y4.1 ≤ py.1 ∧ py.1 ≤ max y3.1 y4.1
  swap
  · -- the level does not meet the edge
    constructor
    · rintro ⟨⟨-, h⟩, -⟩
      exact absurd h hlev
    · rintro ⟨h, -⟩
      refine absurd ?_ hlev
      simp only at h
      rcases h with h | h
      · exact ⟨(min_le_left _ _).trans h.1.le, h.2.trans (le_max_right _ _)⟩
      · exact ⟨(min_le_right _ _).trans h.1.le, h.2.trans (le_max_left _ _)⟩
  by_cases hΔ : y4.1 - y3.1 = 0
  · -- a horizontal edge
    have e1 : y4.1 = y3.1 := by linarith
    constructor
    · rintro ⟨-, hD, -⟩
      refine absurd ?_ hD
      have : y4 - y3 = 0 := by
        rw [val_eq, val_zero st]
        show r.rnd (y4.1 - y3.1) = 0
        rw [hΔ, R0]
      rw [this, val_mul_zero st]
    · rintro ⟨h, -⟩
      simp only at h
      rw [e1] at h
      rcases h with h | h <;> exact absurd h.2 (not_le.2 h.1)
  obtain ⟨hD0, hiff, hm⟩ := ray_plain st hu hw hpos bp b3 b4 hX1 hX2 hav (fun h => he3 (val_eq.2 h)) (fun h => he4 (val_eq.2 h)) hlev hΔ rfl rfl
  have hz : (X - px) * (y4 - y3) ≠ 0 := by rw [ne_eq, val_eq, val_zero st]; exact hD0
  have hLpos : 0 < (X - px).1 := st.pos hu1 (sub_pos.2 hpX)
  constructor
  · rintro ⟨-, -, ⟨h1, h2⟩, -⟩
    rw [val_le, val_zero st] at h1
    rw [val_le, val_one st] at h2
    exact hiff.1 ⟨h1, h2⟩
  · intro h
    have h' := hiff.2 h
    refine ⟨⟨hm h, hlev⟩, hz, ⟨?_, ?_⟩, ray_second st hlev hΔ hLpos hD0⟩
    · rw [val_le, val_zero st]; exact h'.1
    · rw [val_le, val_one st]; exact h'.2

end Jagua
