import Verif.Spec.Sets

/-! # Lemmas: edges -/

set_option linter.unusedSectionVars false

namespace Jagua

variable {K : Type*} [Field K] [LinearOrder K] [IsStrictOrderedRing K]

theorem segPts_start (a b : Point K) : a ∈ segPts a b := ⟨0, le_rfl, zero_le_one, by simp, by simp⟩

theorem segPts_stop (a b : Point K) : b ∈ segPts a b := ⟨1, zero_le_one, le_rfl, by simp, by simp⟩

theorem segPts_comm (a b : Point K) : segPts a b = segPts b a := by
  ext p
  constructor <;>
  · rintro ⟨t, h0, h1, hx, hy⟩
    exact ⟨1 - t, by linarith, by linarith, by rw [hx]; ring, by rw [hy]; ring⟩

/-- A point between two values: `a + t (b - a)` lies between `min` and `max`. -/
theorem lerp_bounds {a b t : K} (h0 : 0 ≤ t) (h1 : t ≤ 1) :
    min a b ≤ a + t * (b - a) ∧ a + t * (b - a) ≤ max a b := by
  rcases le_total a b with h | h
  · rw [min_eq_left h, max_eq_right h]
    constructor
    · nlinarith
    · nlinarith
  · rw [min_eq_right h, max_eq_left h]
    constructor
    · nlinarith
    · nlinarith

theorem mem_pts_bounds {e : Edge K} {p : Point K} (h : p ∈ e.pts) :
    e.xMin ≤ p.x ∧ p.x ≤ e.xMax ∧ e.yMin ≤ p.y ∧ p.y ≤ e.yMax := by
  obtain ⟨t, h0, h1, hx, hy⟩ := h
  rw [hx, hy]
  exact ⟨(lerp_bounds h0 h1).1, (lerp_bounds h0 h1).2, (lerp_bounds h0 h1).1, (lerp_bounds h0 h1).2⟩

theorem Edge.denom_eq_zero_iff (e f : Edge K) : e.denom f = 0 ↔ e.Parallel f := by
  unfold Edge.denom Edge.Parallel
  exact sub_eq_zero

theorem Edge.Parallel.symm {e f : Edge K} (h : e.Parallel f) : f.Parallel e := by
  unfold Edge.Parallel at *
  linarith [h]

/-- Common core: `edgeIntersection` in terms of parameters. -/
theorem edgeIntersection_isSome_iff (e f : Edge K) (b : Bool) (h : ¬ e.Parallel f) :
    (Edge.edgeIntersection e f b).isSome = true ↔ ∃ p, p ∈ e.pts ∧ p ∈ f.pts := by
  have hd : e.denom f ≠ 0 := fun h' => h ((Edge.denom_eq_zero_iff e f).1 h')
  unfold Edge.denom at hd
  unfold Edge.edgeIntersection
  constructor
  · intro hs
    split at hs
    · simp at hs
    · rename_i hb
      dsimp only at hs
      split at hs
      · simp at hs
      · rename_i hd'
        split at hs
        · rename_i htu
          obtain ⟨⟨ht0, ht1⟩, hu0, hu1⟩ := htu
          set D := (e.stop.x - e.start.x) * (f.stop.y - f.start.y)
            - (e.stop.y - e.start.y) * (f.stop.x - f.start.x) with hD
          set t := ((e.stop.x - f.stop.x) * (f.stop.y - f.start.y)
            - (e.stop.y - f.stop.y) * (f.stop.x - f.start.x)) / D with ht
          set u := ((e.stop.x - f.stop.x) * (e.stop.y - e.start.y)
            - (e.stop.y - f.stop.y) * (e.stop.x - e.start.x)) / D with hu
          have htD : t * D = (e.stop.x - f.stop.x) * (f.stop.y - f.start.y)
            - (e.stop.y - f.stop.y) * (f.stop.x - f.start.x) := by
            rw [ht]; field_simp
          have huD : u * D = (e.stop.x - f.stop.x) * (e.stop.y - e.start.y)
            - (e.stop.y - f.stop.y) * (e.stop.x - e.start.x) := by
            rw [hu]; field_simp
          refine ⟨⟨e.stop.x + t * (e.start.x - e.stop.x), e.stop.y + t * (e.start.y - e.stop.y)⟩,
            ⟨1 - t, by linarith, by linarith, by simp; ring, by simp; ring⟩,
            ⟨1 - u, by linarith, by linarith, ?_, ?_⟩⟩
          · apply mul_right_cancel₀ hd
            show (e.stop.x + t * (e.start.x - e.stop.x)) * D = (f.start.x + (1 - u) * (f.stop.x - f.start.x)) * D
            linear_combination (e.start.x - e.stop.x) * htD - (f.start.x - f.stop.x) * huD
              + (e.stop.x - f.stop.x) * hD
          · apply mul_right_cancel₀ hd
            show (e.stop.y + t * (e.start.y - e.stop.y)) * D = (f.start.y + (1 - u) * (f.stop.y - f.start.y)) * D
            linear_combination (e.start.y - e.stop.y) * htD - (f.start.y - f.stop.y) * huD
              + (e.stop.y - f.stop.y) * hD
        · simp at hs
  · rintro ⟨p, hp, hq⟩
    have b1 := mem_pts_bounds hp
    have b2 := mem_pts_bounds hq
    rw [if_neg]
    · obtain ⟨s, hs0, hs1, hsx, hsy⟩ := hp
      obtain ⟨v, hv0, hv1, hvx, hvy⟩ := hq
      dsimp only
      rw [if_neg (by tauto)]
      have ht : ((e.stop.x - f.stop.x) * (f.stop.y - f.start.y)
            - (e.stop.y - f.stop.y) * (f.stop.x - f.start.x)) /
            ((e.stop.x - e.start.x) * (f.stop.y - f.start.y)
            - (e.stop.y - e.start.y) * (f.stop.x - f.start.x)) = 1 - s := by
        rw [div_eq_iff hd]
        have hx : e.start.x + s * (e.stop.x - e.start.x) = f.start.x + v * (f.stop.x - f.start.x) := by
          rw [← hsx, ← hvx]
        have hy : e.start.y + s * (e.stop.y - e.start.y) = f.start.y + v * (f.stop.y - f.start.y) := by
          rw [← hsy, ← hvy]
        linear_combination (f.stop.y - f.start.y) * hx - (f.stop.x - f.start.x) * hy
      have hu : ((e.stop.x - f.stop.x) * (e.stop.y - e.start.y)
            - (e.stop.y - f.stop.y) * (e.stop.x - e.start.x)) /
            ((e.stop.x - e.start.x) * (f.stop.y - f.start.y)
            - (e.stop.y - e.start.y) * (f.stop.x - f.start.x)) = 1 - v := by
        rw [div_eq_iff hd]
        have hx : e.start.x + s * (e.stop.x - e.start.x) = f.start.x + v * (f.stop.x - f.start.x) := by
          rw [← hsx, ← hvx]
        have hy : e.start.y + s * (e.stop.y - e.start.y) = f.start.y + v * (f.stop.y - f.start.y) := by
          rw [← hsy, ← hvy]
        linear_combination (e.stop.y - e.start.y) * hx - (e.stop.x - e.start.x) * hy
      rw [ht, hu, if_pos ⟨⟨by linarith, by linarith⟩, by linarith, by linarith⟩]
      cases b <;> simp
    · rintro (h' | h')
      · exact absurd h' (not_lt.2 (le_trans (max_le b1.1 b2.1) (le_min b1.2.1 b2.2.1)))
      · exact absurd h' (not_lt.2 (le_trans (max_le b1.2.2.1 b2.2.2.1) (le_min b1.2.2.2 b2.2.2.2)))

theorem edgeIntersection_parallel (e f : Edge K) (b : Bool) (h : e.Parallel f) :
    Edge.edgeIntersection e f b = none := by
  have hd : e.denom f = 0 := (Edge.denom_eq_zero_iff e f).2 h
  unfold Edge.denom at hd
  unfold Edge.edgeIntersection
  split
  · rfl
  · dsimp only
    rw [if_pos (Or.inl hd)]

theorem collidesEdge_iff (e f : Edge K) :
    e.collidesEdge f = true ↔ ¬ e.Parallel f ∧ ∃ p, p ∈ e.pts ∧ p ∈ f.pts := by
  have h1 : e.collidesEdge f = (Edge.edgeIntersection e f false).isSome := by
    unfold Edge.collidesEdge
    cases Edge.edgeIntersection e f false <;> rfl
  rw [h1]
  by_cases hp : e.Parallel f
  · rw [edgeIntersection_parallel e f false hp]
    simp [hp]
  · rw [edgeIntersection_isSome_iff e f false hp]
    simp [hp]

theorem collidesEdge_symm (e f : Edge K) : e.collidesEdge f = f.collidesEdge e := by
  rw [Bool.eq_iff_iff, collidesEdge_iff, collidesEdge_iff]
  constructor
  · rintro ⟨h, p, h1, h2⟩
    exact ⟨fun h' => h h'.symm, p, h2, h1⟩
  · rintro ⟨h, p, h1, h2⟩
    exact ⟨fun h' => h h'.symm, p, h2, h1⟩

end Jagua
