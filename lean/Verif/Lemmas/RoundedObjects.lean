import Verif.Lemmas.RoundedPoly
import Verif.Lemmas.RectGeo

/-! # Circles and rectangles in arithmetic with rounding -/

set_option linter.unusedSectionVars false

namespace Jagua

variable {r : Rounding} {u : ℚ}

theorem val_sq (st : r.Standard u) (a : Rounded r) : (a ^ 2 : Rounded r).1 = r.rnd (a.1 * a.1) := by
  show r.rnd (r.rnd (r.rnd 1 * a.1) * a.1) = _
  rw [st.one, one_mul, a.2]

/-- the rounded sum of the rounded squares of rounded numbers -/
theorem Rounding.Standard.sum_sq (st : r.Standard u) {a b a' b' : ℚ} (ha : |a' - a| ≤ u * |a|) (hb : |b' - b| ≤ u * |b|) :
    |r.rnd (r.rnd (a' * a') + r.rnd (b' * b')) - (a ^ 2 + b ^ 2)| ≤ ((1 + u) ^ 4 - 1) * (a ^ 2 + b ^ 2) := by
  have hb' : |-b' - -b| ≤ u * |-b| := by
    rw [abs_neg, neg_sub_neg, abs_sub_comm]; exact hb
  have h := st.cross ha ha hb' hb
  rw [neg_mul, st.neg, sub_neg_eq_add, neg_mul, sub_neg_eq_add, abs_neg, abs_of_nonneg (mul_self_nonneg a), abs_of_nonneg (mul_self_nonneg b)] at h
  rw [pow_two a, pow_two b]
  exact h

theorem sq_le_rounded (st : r.Standard u) (hu : u ≤ 1 / 256) {p q : Point (Rounded r)} {ρ : Rounded r}
    (h : 5 * u * (((p.x.1 - q.x.1) ^ 2 + (p.y.1 - q.y.1) ^ 2) + ρ.1 ^ 2) < |((p.x.1 - q.x.1) ^ 2 + (p.y.1 - q.y.1) ^ 2) - ρ.1 ^ 2|) :
    (p.x - q.x) ^ 2 + (p.y - q.y) ^ 2 ≤ ρ ^ 2 ↔ (p.x.1 - q.x.1) ^ 2 + (p.y.1 - q.y.1) ^ 2 ≤ ρ.1 ^ 2 := by
  have hu0 := st.nonneg
  have e1 : ((p.x - q.x) ^ 2 + (p.y - q.y) ^ 2 : Rounded r).1 =
      r.rnd (r.rnd (r.rnd (p.x.1 - q.x.1) * r.rnd (p.x.1 - q.x.1)) + r.rnd (r.rnd (p.y.1 - q.y.1) * r.rnd (p.y.1 - q.y.1))) := by
    show r.rnd (((p.x - q.x) ^ 2 : Rounded r).1 + ((p.y - q.y) ^ 2 : Rounded r).1) = _
    rw [val_sq st, val_sq st]
    rfl
  have k1 := st.sum_sq (st.near (p.x.1 - q.x.1)) (st.near (p.y.1 - q.y.1))
  have k2 := st.near (ρ.1 * ρ.1)
  rw [val_le, e1, val_sq st]
  rw [abs_of_nonneg (mul_self_nonneg ρ.1), ← pow_two] at k2
  rw [← pow_two ρ.1]
  have hS : 0 ≤ (p.x.1 - q.x.1) ^ 2 + (p.y.1 - q.y.1) ^ 2 := by positivity
  have hR : 0 ≤ ρ.1 ^ 2 := by positivity
  generalize r.rnd (r.rnd (r.rnd (p.x.1 - q.x.1) * r.rnd (p.x.1 - q.x.1)) + r.rnd (r.rnd (p.y.1 - q.y.1) * r.rnd (p.y.1 - q.y.1))) = S' at k1 ⊢
  generalize r.rnd (ρ.1 ^ 2) = R' at k2 ⊢
  generalize (p.x.1 - q.x.1) ^ 2 + (p.y.1 - q.y.1) ^ 2 = S at *
  generalize ρ.1 ^ 2 = R at *
  have k3 := k1.trans (mul_le_mul_of_nonneg_right (st.pow_four hu) hS)
  rw [abs_le] at k2 k3
  have p1 := mul_nonneg hu0 hS
  have p2 := mul_nonneg hu0 hR
  constructor
  · intro h1
    by_contra hn
    rw [abs_of_pos (by linarith)] at h
    linarith
  · intro h1
    rw [abs_of_nonpos (by linarith)] at h
    linarith

theorem circle_collidesPoint_rounded (st : r.Standard u) (hu : u ≤ 1 / 256) {c : Circle (Rounded r)} {p : Point (Rounded r)}
    (h : c.exact.Clear p.exact u) : c.collidesPoint p = true ↔ p.exact ∈ c.exact.pts := by
  unfold Circle.collidesPoint Point.sqDistance
  rw [decide_eq_true_eq, sq_le_rounded st hu h]
  rfl

/-! ## Rectangles -/

theorem rect_collidesPoint_rounded (b : AARect (Rounded r)) (p : Point (Rounded r)) : b.collidesPoint p = b.exact.collidesPoint p.exact := rfl

theorem rect_collidesRect_rounded (a b : AARect (Rounded r)) : a.collidesRect b = a.exact.collidesRect b.exact := by
  unfold AARect.collidesRect AARect.exact
  simp only [val_le, val_min, val_max]

theorem compare_zero_rounded (st : r.Standard u) {a : Rounded r} {x E : ℚ} (h : |a.1 - x| ≤ E) (hx : E < |x|) : compare a 0 = compare x 0 := by
  rw [abs_le] at h
  rcases lt_abs.1 hx with h' | h'
  · have hE : 0 ≤ E := by linarith
    rw [compare_gt_iff_gt.2 (show x > 0 by linarith), compare_gt_iff_gt]
    rw [val_lt, val_zero st]
    linarith
  · have hE : 0 ≤ E := by linarith
    rw [compare_lt_iff_lt.2 (show x < 0 by linarith), compare_lt_iff_lt]
    rw [val_lt, val_zero st]
    linarith

theorem pointEdgeRelation_rounded (st : r.Standard u) (hu : u ≤ 1 / 256) {p : Point (Rounded r)} {e : Edge (Rounded r)} {d : ℚ}
    (h1 : |p.x.1 - e.start.x.1| ≤ d) (h2 : |p.y.1 - e.start.y.1| ≤ d) (h3 : |e.stop.x.1 - e.start.x.1| ≤ d) (h4 : |e.stop.y.1 - e.start.y.1| ≤ d)
    (hc : 9 * u * d ^ 2 < |e.exact.side p.exact|) : AARect.pointEdgeRelation p e = AARect.pointEdgeRelation p.exact e.exact := by
  have hu0 := st.nonneg
  unfold AARect.pointEdgeRelation
  have hs : (p.exact.x - e.exact.start.x) * (e.exact.stop.y - e.exact.start.y) - (p.exact.y - e.exact.start.y) * (e.exact.stop.x - e.exact.start.x) =
      e.exact.side p.exact := by unfold Edge.side; ring
  have k := st.cross (st.near (p.x.1 - e.start.x.1)) (st.near (e.stop.y.1 - e.start.y.1)) (st.near (p.y.1 - e.start.y.1)) (st.near (e.stop.x.1 - e.start.x.1))
  have d0 : 0 ≤ d := (abs_nonneg _).trans h1
  have m1 := mul_le_mul h1 h4 (abs_nonneg _) d0
  have m2 := mul_le_mul h2 h3 (abs_nonneg _) d0
  rw [abs_mul (p.x.1 - e.start.x.1), abs_mul (p.y.1 - e.start.y.1)] at k
  have k' := k.trans (mul_le_mul (st.pow_four hu) (add_le_add m1 m2) (by positivity) (by linarith))
  refine compare_zero_rounded st (E := 9 * u * d ^ 2) ?_ (by rw [hs]; exact hc)
  refine k'.trans ?_
  nlinarith [mul_nonneg hu0 (mul_nonneg d0 d0)]

theorem not_parallel_of_clear {e f : Edge ℚ} {F : ℚ} (hF : 0 ≤ F) (hc : e.Clear f F) {p : Point ℚ} (he : p ∈ e.pts) (hf : p ∈ f.pts) :
    ¬ e.Parallel f := by
  intro hp
  obtain ⟨t, -, -, h⟩ := side_affine f he
  have h2 : f.side e.stop - f.side e.start = 0 := by
    unfold Edge.Parallel at hp
    unfold Edge.side
    linear_combination hp
  rw [side_self hf, h2, mul_zero, add_zero] at h
  have := hc.1.1
  rw [← h, abs_zero] at this
  linarith

theorem rect_collidesEdge_rounded (st : r.Standard u) (hu : u ≤ 1 / 256) {b : AARect (Rounded r)} (hb : b.exact.Valid) {e : Edge (Rounded r)} {d : ℚ}
    (hd : ∀ s ∈ b.exact.sides, e.exact.Within s d) (hc : ∀ s ∈ b.exact.sides, e.exact.Clear s (20 * u * d ^ 2)) :
    b.collidesEdge e = true ↔ (b.exact.pts ∩ e.exact.pts).Nonempty := by
  have hu0 := st.nonneg
  have hrel : ∀ x y : Rounded r, ∀ q, (⟨⟨x.1, y.1⟩, q⟩ : Edge ℚ) ∈ b.exact.sides →
      AARect.pointEdgeRelation ⟨x, y⟩ e = AARect.pointEdgeRelation ⟨x.1, y.1⟩ e.exact := by
    intro x y q hm
    have a1 := hd _ hm ⟨x.1, y.1⟩ (by simp) e.exact.start (by simp)
    have a2 := hd _ hm e.exact.stop (by simp) e.exact.start (by simp)
    have a3 := (hc _ hm).2.1
    refine pointEdgeRelation_rounded st hu a1.1 a1.2 a2.1 a2.2 (lt_of_le_of_lt ?_ a3)
    have := mul_nonneg hu0 (sq_nonneg d)
    linarith
  have hb0 : b.exact.xMax = b.xMax.1 ∧ b.exact.xMin = b.xMin.1 ∧ b.exact.yMax = b.yMax.1 ∧ b.exact.yMin = b.yMin.1 := ⟨rfl, rfl, rfl, rfl⟩
  have r0 := hrel b.xMax b.yMax ⟨b.xMin.1, b.yMax.1⟩ (by simp [AARect.sides, AARect.exact])
  have r1 := hrel b.xMin b.yMax ⟨b.xMin.1, b.yMin.1⟩ (by simp [AARect.sides, AARect.exact])
  have r2 := hrel b.xMin b.yMin ⟨b.xMax.1, b.yMin.1⟩ (by simp [AARect.sides, AARect.exact])
  have r3 := hrel b.xMax b.yMin ⟨b.xMax.1, b.yMax.1⟩ (by simp [AARect.sides, AARect.exact])
  have hany : (b.edges.any fun re => e.collidesEdge re) = b.exact.edges.any fun re => e.exact.collidesEdge re := by
    have hone : ∀ re : Edge (Rounded r), re.exact ∈ b.exact.sides → e.collidesEdge re = e.exact.collidesEdge re.exact := by
      intro re hm
      rw [Bool.eq_iff_iff, collidesEdge_rounded st hu (hd _ hm) (hc _ hm), collidesEdge_iff]
      constructor
      · rintro ⟨p, hp, hp'⟩
        exact ⟨not_parallel_of_clear (by positivity) (hc _ hm) hp hp', p, hp, hp'⟩
      · rintro ⟨_, p, hp, hp'⟩
        exact ⟨p, hp, hp'⟩
    simp only [AARect.edges, List.any_cons, List.any_nil]
    rw [hone ⟨⟨b.xMax, b.yMax⟩, ⟨b.xMin, b.yMax⟩⟩ (by simp [AARect.sides, AARect.exact, Edge.exact, Point.exact]),
      hone ⟨⟨b.xMin, b.yMax⟩, ⟨b.xMin, b.yMin⟩⟩ (by simp [AARect.sides, AARect.exact, Edge.exact, Point.exact]),
      hone ⟨⟨b.xMin, b.yMin⟩, ⟨b.xMax, b.yMin⟩⟩ (by simp [AARect.sides, AARect.exact, Edge.exact, Point.exact]),
      hone ⟨⟨b.xMax, b.yMin⟩, ⟨b.xMax, b.yMax⟩⟩ (by simp [AARect.sides, AARect.exact, Edge.exact, Point.exact])]
    rfl
  have hbox : (e.xMax < b.xMin ∨ e.xMin > b.xMax ∨ e.yMax < b.yMin ∨ e.yMin > b.yMax) ↔
      (e.exact.xMax < b.exact.xMin ∨ e.exact.xMin > b.exact.xMax ∨ e.exact.yMax < b.exact.yMin ∨ e.exact.yMin > b.exact.yMax) := by
    simp only [gt_iff_lt, val_lt, Edge.xMax, Edge.xMin, Edge.yMax, Edge.yMin, val_min, val_max]
    rfl
  have key : b.collidesEdge e = b.exact.collidesEdge e.exact := by
    unfold AARect.collidesEdge
    by_cases h1 : (e.xMax < b.xMin ∨ e.xMin > b.xMax ∨ e.yMax < b.yMin ∨ e.yMin > b.yMax)
    · rw [if_pos h1, if_pos (hbox.1 h1)]
    rw [if_neg h1, if_neg (fun h => h1 (hbox.2 h))]
    by_cases h2 : (b.collidesPoint e.start || b.collidesPoint e.stop) = true
    · rw [if_pos h2, if_pos (show (b.exact.collidesPoint e.exact.start || b.exact.collidesPoint e.exact.stop) = true from h2)]
    rw [if_neg h2, if_neg (show ¬ (b.exact.collidesPoint e.exact.start || b.exact.collidesPoint e.exact.stop) = true from h2), hany]
    dsimp only
    simp only [r0, r1, r2, r3]
    rfl
  rw [key, rect_collidesEdge_iff _ _ hb]
  exact ⟨fun ⟨p, h1, h2⟩ => ⟨p, by tauto, by tauto⟩, fun ⟨p, h1, h2⟩ => ⟨p, by tauto, by tauto⟩⟩

theorem clamp_sq {lo hi c x : ℚ} (h1 : lo ≤ x) (h2 : x ≤ hi) : (max lo (min c hi) - c) ^ 2 ≤ (x - c) ^ 2 := by
  rw [sq_le_sq]
  rcases le_total c hi with h | h
  · rw [min_eq_left h]
    rcases le_total lo c with h' | h'
    · rw [max_eq_right h']; simp
    · rw [max_eq_left h', abs_of_nonneg (by linarith), abs_of_nonneg (by linarith)]; linarith
  · rw [min_eq_right h, max_eq_right (by linarith), abs_of_nonpos (by linarith), abs_of_nonpos (by linarith)]; linarith

/-- the point of a rectangle that is nearest to the centre -/
theorem nearest_clamp {c : Circle ℚ} {b : AARect ℚ} (hb : b.Valid) {q : Point ℚ} (hq : c.Nearest b q) {x y : ℚ}
    (hx : x = max b.xMin (min c.center.x b.xMax)) (hy : y = max b.yMin (min c.center.y b.yMax)) :
    (⟨x, y⟩ : Point ℚ) ∈ b.pts ∧ (x - c.center.x) ^ 2 + (y - c.center.y) ^ 2 = (q.x - c.center.x) ^ 2 + (q.y - c.center.y) ^ 2 := by
  have c1 : b.xMin ≤ x := by rw [hx]; exact le_max_left b.xMin _
  have c2 : x ≤ b.xMax := by rw [hx]; exact max_le hb.1.le (min_le_right c.center.x b.xMax)
  have c3 : b.yMin ≤ y := by rw [hy]; exact le_max_left b.yMin _
  have c4 : y ≤ b.yMax := by rw [hy]; exact max_le hb.2.le (min_le_right c.center.y b.yMax)
  have hn : (⟨x, y⟩ : Point ℚ) ∈ b.pts := ⟨c1, c2, c3, c4⟩
  have k1 := hq.2 _ hn
  obtain ⟨a1, a2, a3, a4⟩ := hq.1
  have d1 : (x - c.center.x) ^ 2 ≤ (q.x - c.center.x) ^ 2 := by rw [hx]; exact clamp_sq a1 a2
  have d2 : (y - c.center.y) ^ 2 ≤ (q.y - c.center.y) ^ 2 := by rw [hy]; exact clamp_sq a3 a4
  exact ⟨hn, le_antisymm (add_le_add d1 d2) k1⟩

theorem circle_collidesRect_rounded (st : r.Standard u) (hu : u ≤ 1 / 256) {c : Circle (Rounded r)} {b : AARect (Rounded r)} (hb : b.exact.Valid)
    {q : Point ℚ} (hq : c.exact.Nearest b.exact q) (h : c.exact.Clear q u) : c.collidesRect b = true ↔ (c.exact.pts ∩ b.exact.pts).Nonempty := by
  unfold Circle.collidesRect
  obtain ⟨x, hx⟩ : ∃ x, x = max b.xMin (min c.center.x b.xMax) := ⟨_, rfl⟩
  obtain ⟨y, hy⟩ : ∃ y, y = max b.yMin (min c.center.y b.yMax) := ⟨_, rfl⟩
  have hx' : x.1 = max b.exact.xMin (min c.exact.center.x b.exact.xMax) := by rw [hx, val_max, val_min]; rfl
  have hy' : y.1 = max b.exact.yMin (min c.exact.center.y b.exact.yMax) := by rw [hy, val_max, val_min]; rfl
  obtain ⟨hn, hs⟩ := nearest_clamp hb hq hx' hy'
  have h' : c.exact.Clear ⟨x.1, y.1⟩ u := by
    unfold Circle.Clear at h ⊢
    rw [hs]; exact h
  have k := sq_le_rounded st hu (p := ⟨x, y⟩) (q := c.center) (ρ := c.radius) h'
  dsimp only at k ⊢
  rw [decide_eq_true_eq, ← hx, ← hy, k]
  constructor
  · intro k
    exact ⟨⟨x.1, y.1⟩, k, hn⟩
  · rintro ⟨q', k1, k2⟩
    exact hs.le.trans ((hq.2 _ k2).trans k1)

end Jagua
