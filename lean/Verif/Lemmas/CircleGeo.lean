import Verif.Lemmas.RectGeo2

/-! # Lemmas: closest point and circles -/

set_option linter.unusedSectionVars false

namespace Jagua

variable {K : Type*} [Field K] [LinearOrder K] [IsStrictOrderedRing K]

theorem closestPoint_mem (e : Edge K) (p : Point K) : e.closestPoint p ∈ e.pts := by
  unfold Edge.closestPoint
  dsimp only
  generalize (if (e.stop.x - e.start.x) * (e.stop.x - e.start.x)
    + (e.stop.y - e.start.y) * (e.stop.y - e.start.y) ≠ 0 then _ else (-1 : K)) = m
  by_cases h1 : m < 0
  · rw [if_pos h1]
    exact segPts_start e.start e.stop
  · rw [if_neg h1]
    by_cases h2 : m > 1
    · rw [if_pos h2]
      exact segPts_stop e.start e.stop
    · rw [if_neg h2]
      exact ⟨m, not_lt.1 h1, not_lt.1 h2, rfl, rfl⟩

/-- The closest point minimises the squared distance over the edge. -/
theorem closestPoint_min (e : Edge K) (p q : Point K) (hq : q ∈ e.pts) :
    p.sqDistance (e.closestPoint p) ≤ p.sqDistance q := by
  obtain ⟨t, t0, t1, hx, hy⟩ := hq
  unfold Edge.closestPoint Point.sqDistance
  dsimp only
  rw [hx, hy]
  set a := p.x - e.start.x with ha
  set b := p.y - e.start.y with hb
  set c := e.stop.x - e.start.x with hc
  set d := e.stop.y - e.start.y with hd
  have ex : e.stop.x = e.start.x + c := by rw [hc]; ring
  have ey : e.stop.y = e.start.y + d := by rw [hd]; ring
  have px : p.x = e.start.x + a := by rw [ha]; ring
  have py : p.y = e.start.y + b := by rw [hb]; ring
  rw [px, py]
  by_cases hl : c * c + d * d = 0
  · have hc0 : c = 0 := by nlinarith [mul_self_nonneg c, mul_self_nonneg d]
    have hd0 : d = 0 := by nlinarith [mul_self_nonneg c, mul_self_nonneg d]
    simp [hc0, hd0]
  · have hlp : 0 < c * c + d * d := lt_of_le_of_ne (by nlinarith [mul_self_nonneg c, mul_self_nonneg d]) (Ne.symm hl)
    simp only [ne_eq, hl, not_false_eq_true, if_true]
    set m := (a * c + b * d) / (c * c + d * d) with hm
    have hmd : m * (c * c + d * d) = a * c + b * d := by rw [hm]; exact div_mul_cancel₀ _ hl
    have key : ∀ s : K, (e.start.x + a - (e.start.x + s * c)) ^ 2 + (e.start.y + b - (e.start.y + s * d)) ^ 2
        = (s - m) ^ 2 * (c * c + d * d) + (a ^ 2 + b ^ 2 - m ^ 2 * (c * c + d * d)) := by
      intro s
      linear_combination (2 * s) * hmd
    rw [key t]
    clear_value m
    have mono : ∀ s : K, (s - m) ^ 2 ≤ (t - m) ^ 2 →
        (e.start.x + a - (e.start.x + s * c)) ^ 2 + (e.start.y + b - (e.start.y + s * d)) ^ 2
        ≤ (t - m) ^ 2 * (c * c + d * d) + (a ^ 2 + b ^ 2 - m ^ 2 * (c * c + d * d)) := by
      intro s hs
      rw [key s]
      have := mul_le_mul_of_nonneg_right hs hlp.le
      linarith
    by_cases h1 : m < 0
    · rw [if_pos h1]
      have := mono 0 (by nlinarith)
      simpa using this
    · rw [if_neg h1]
      by_cases h2 : m > 1
      · rw [if_pos h2]
        have := mono 1 (by nlinarith)
        simp only [ex, ey]
        simpa using this
      · rw [if_neg h2]
        exact mono m (by simp only [sub_self]; nlinarith)

theorem sqDistance_eq (e : Edge K) (p : Point K) : e.sqDistance p = p.sqDistance (e.closestPoint p) := rfl

theorem circle_collidesPoint_iff (c : Circle K) (p : Point K) : c.collidesPoint p = true ↔ p ∈ c.pts := by
  unfold Circle.collidesPoint
  rw [decide_eq_true_iff]
  rfl

theorem circle_collidesEdge_iff (c : Circle K) (e : Edge K) :
    c.collidesEdge e = true ↔ ∃ p, p ∈ e.pts ∧ p ∈ c.pts := by
  unfold Circle.collidesEdge
  rw [decide_eq_true_iff, sqDistance_eq]
  constructor
  · intro h
    refine ⟨_, closestPoint_mem e c.center, ?_⟩
    show (_ - _) ^ 2 + (_ - _) ^ 2 ≤ _
    refine le_trans (le_of_eq ?_) h
    unfold Point.sqDistance; ring
  · rintro ⟨p, hp, hc⟩
    refine (closestPoint_min e c.center p hp).trans (le_trans (le_of_eq ?_) hc)
    unfold Point.sqDistance; ring

theorem clamp_closest {a b x y : K} (hy : a ≤ y ∧ y ≤ b) :
    (max a (min x b) - x) ^ 2 ≤ (y - x) ^ 2 := by
  obtain ⟨h1, h2⟩ := hy
  rcases le_total x b with hb | hb
  · rw [min_eq_left hb]
    rcases le_total a x with ha | ha
    · rw [max_eq_right ha]; nlinarith
    · rw [max_eq_left ha]; nlinarith
  · rw [min_eq_right hb, max_eq_right (h1.trans h2)]; nlinarith

theorem circle_collidesRect_iff (c : Circle K) (r : AARect K) (hx : r.xMin ≤ r.xMax) (hy : r.yMin ≤ r.yMax) :
    c.collidesRect r = true ↔ ∃ p, p ∈ r.pts ∧ p ∈ c.pts := by
  unfold Circle.collidesRect
  dsimp only
  rw [decide_eq_true_iff]
  constructor
  · intro h
    exact ⟨⟨max r.xMin (min c.center.x r.xMax), max r.yMin (min c.center.y r.yMax)⟩,
      ⟨le_max_left _ _, max_le hx (min_le_right _ _), le_max_left _ _, max_le hy (min_le_right _ _)⟩, h⟩
  · rintro ⟨p, ⟨h1, h2, h3, h4⟩, hc⟩
    have e1 := clamp_closest (x := c.center.x) ⟨h1, h2⟩
    have e2 := clamp_closest (x := c.center.y) ⟨h3, h4⟩
    have hc' : (p.x - c.center.x) ^ 2 + (p.y - c.center.y) ^ 2 ≤ c.radius ^ 2 := hc
    linarith

/-- Squared triangle inequality in the form needed for discs (no square roots). -/
theorem disc_sum {a b x y r1 r2 : K} (h1 : 0 ≤ r1) (h2 : 0 ≤ r2)
    (ha : a ^ 2 + b ^ 2 ≤ r1 ^ 2) (hb : x ^ 2 + y ^ 2 ≤ r2 ^ 2) :
    (a + x) ^ 2 + (b + y) ^ 2 ≤ (r1 + r2) ^ 2 := by
  have cs : (a * x + b * y) ^ 2 ≤ (r1 * r2) ^ 2 := by
    have e : (a * x + b * y) ^ 2 + (a * y - b * x) ^ 2 = (a ^ 2 + b ^ 2) * (x ^ 2 + y ^ 2) := by ring
    have : (a ^ 2 + b ^ 2) * (x ^ 2 + y ^ 2) ≤ r1 ^ 2 * r2 ^ 2 :=
      mul_le_mul ha hb (by positivity) (by positivity)
    nlinarith [sq_nonneg (a * y - b * x)]
  have : a * x + b * y ≤ r1 * r2 := abs_le_of_sq_le_sq' cs (mul_nonneg h1 h2) |>.2
  nlinarith

theorem circle_collidesCircle_iff (a b : Circle K) (ha : 0 ≤ a.radius) (hb : 0 ≤ b.radius) :
    a.collidesCircle b = true ↔ ∃ p, p ∈ a.pts ∧ p ∈ b.pts := by
  unfold Circle.collidesCircle
  dsimp only
  rw [decide_eq_true_iff]
  constructor
  · intro h
    by_cases hs : a.radius + b.radius = 0
    · have ha0 : a.radius = 0 := by linarith
      have hb0 : b.radius = 0 := by linarith
      rw [hs] at h
      have hx : a.center.x - b.center.x = 0 := by
        nlinarith [mul_self_nonneg (a.center.x - b.center.x), mul_self_nonneg (a.center.y - b.center.y)]
      have hy : a.center.y - b.center.y = 0 := by
        nlinarith [mul_self_nonneg (a.center.x - b.center.x), mul_self_nonneg (a.center.y - b.center.y)]
      refine ⟨a.center, ?_, ?_⟩
      · show _ ^ 2 + _ ^ 2 ≤ _ ^ 2
        simp [ha0]
      · show _ ^ 2 + _ ^ 2 ≤ _ ^ 2
        rw [hx, hy, hb0]
        simp
    · have hpos : 0 < a.radius + b.radius := lt_of_le_of_ne (by linarith) (Ne.symm hs)
      set s := a.radius / (a.radius + b.radius) with hsdef
      have hs1 : s * (a.radius + b.radius) = a.radius := by rw [hsdef]; field_simp
      have hs2 : (1 - s) * (a.radius + b.radius) = b.radius := by linear_combination -hs1
      refine ⟨⟨a.center.x + s * (b.center.x - a.center.x), a.center.y + s * (b.center.y - a.center.y)⟩, ?_, ?_⟩
      · show _ ^ 2 + _ ^ 2 ≤ _ ^ 2
        rw [← hs1]
        have : s ^ 2 * ((a.center.x - b.center.x) * (a.center.x - b.center.x)
          + (a.center.y - b.center.y) * (a.center.y - b.center.y)) ≤
          s ^ 2 * ((a.radius + b.radius) * (a.radius + b.radius)) :=
          mul_le_mul_of_nonneg_left h (sq_nonneg s)
        dsimp only
        nlinarith
      · show _ ^ 2 + _ ^ 2 ≤ _ ^ 2
        rw [← hs2]
        have : (1 - s) ^ 2 * ((a.center.x - b.center.x) * (a.center.x - b.center.x)
          + (a.center.y - b.center.y) * (a.center.y - b.center.y)) ≤
          (1 - s) ^ 2 * ((a.radius + b.radius) * (a.radius + b.radius)) :=
          mul_le_mul_of_nonneg_left h (sq_nonneg (1 - s))
        dsimp only
        nlinarith
  · rintro ⟨p, h1, h2⟩
    have h1' : (p.x - a.center.x) ^ 2 + (p.y - a.center.y) ^ 2 ≤ a.radius ^ 2 := h1
    have h2' : (p.x - b.center.x) ^ 2 + (p.y - b.center.y) ^ 2 ≤ b.radius ^ 2 := h2
    have h1'' : (a.center.x - p.x) ^ 2 + (a.center.y - p.y) ^ 2 ≤ a.radius ^ 2 := by
      refine le_trans (le_of_eq ?_) h1'; ring
    have := disc_sum ha hb h1'' h2'
    nlinarith

end Jagua
