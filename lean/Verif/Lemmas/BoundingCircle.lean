import Verif.Model.FailFast
import Verif.Lemmas.HPGGeo

/-!
# Bounding circles
-/

set_option linter.unusedSectionVars false

namespace Jagua

variable {K : Type*} [Field K] [LinearOrder K] [IsStrictOrderedRing K]

theorem HEnv.SqrtExact.eq {env : HEnv K} (hs : env.SqrtExact) {x y : K} (hy : 0 ≤ y) (h : y ^ 2 = x) : env.sqrt x = y := by
  obtain ⟨h0, h1⟩ := hs x (by rw [← h]; positivity)
  exact (pow_left_inj₀ h0 hy (two_ne_zero)).1 (h1.trans h.symm)

theorem HEnv.SqrtExact.upper {env : HEnv K} (hs : env.SqrtExact) : env.SqrtUpper := fun x hx => ⟨(hs x hx).1, (hs x hx).2.ge⟩

theorem Point.sqDistance_eq (p q : Point K) : p.sqDistance q = sqDist p q := rfl

/-- A disc lies in another if the distance of the centres leaves room. -/
theorem Circle.pts_subset {a b : Circle K} {d : K} (ha : 0 ≤ a.radius) (hd : 0 ≤ d) (h : sqDist a.center b.center ≤ d ^ 2)
    (hr : d + a.radius ≤ b.radius) : a.pts ⊆ b.pts := by
  intro p hp
  have hp' : sqDist p a.center ≤ a.radius ^ 2 := hp
  have := sqDist_triangle ha hd hp' h
  exact this.trans (pow_le_pow_left₀ (by linarith) (by linarith) 2)

theorem Circle.boundStep_spec {env : HEnv K} (hs : env.SqrtExact) {b c : Circle K} (hb : 0 ≤ b.radius) (hc : 0 ≤ c.radius)
    (h : c.radius ≤ env.sqrt (b.center.sqDistance c.center) + b.radius) :
    ∃ b', b.boundStep env c = some b' ∧ b.pts ⊆ b'.pts ∧ c.pts ⊆ b'.pts ∧ b.radius ≤ b'.radius := by
  unfold Circle.boundStep
  obtain ⟨d0, d1⟩ := hs (b.center.sqDistance c.center) (sqDist_nonneg _ _)
  generalize hd : env.sqrt (b.center.sqDistance c.center) = d at d0 d1 h ⊢
  split_ifs with hcond
  · have hne : b.center ≠ c.center := by
      intro he
      rw [he] at d1
      have : d ^ 2 = 0 := by rw [d1]; unfold Point.sqDistance; ring
      have : d = 0 := by simpa using this
      linarith
    unfold Edge.mk?
    rw [if_neg hne]
    have dpos : 0 < d := by
      rcases d0.lt_or_eq with h | h
      · exact h
      · exfalso
        rw [← h] at d1
        have e : (b.center.x - c.center.x) ^ 2 + (b.center.y - c.center.y) ^ 2 = 0 := by
          have : b.center.sqDistance c.center = 0 := by rw [← d1]; ring
          exact this
        have e1 : b.center.x - c.center.x = 0 := by nlinarith [sq_nonneg (b.center.x - c.center.x), sq_nonneg (b.center.y - c.center.y)]
        have e2 : b.center.y - c.center.y = 0 := by nlinarith [sq_nonneg (b.center.x - c.center.x), sq_nonneg (b.center.y - c.center.y)]
        exact hne (Point.ext (by linarith) (by linarith))
    have dne := dpos.ne'
    obtain ⟨b0, R⟩ := b
    obtain ⟨c0, r⟩ := c
    obtain ⟨bx, b_y⟩ := b0
    obtain ⟨cx, cy⟩ := c0
    dsimp only at *
    unfold Point.sqDistance at d1
    dsimp only at d1
    -- the extended edge
    have l1 : (Edge.mk (⟨bx, b_y⟩ : Point K) ⟨cx, cy⟩).diameter env = d := hd
    have f1 : (Edge.mk (⟨bx, b_y⟩ : Point K) ⟨cx, cy⟩).extendAtFront env R =
        ⟨⟨bx - (cx - bx) * (R / d), b_y - (cy - b_y) * (R / d)⟩, ⟨cx, cy⟩⟩ := by
      unfold Edge.extendAtFront
      rw [l1]
    have l2 : (Edge.mk (⟨bx - (cx - bx) * (R / d), b_y - (cy - b_y) * (R / d)⟩ : Point K) ⟨cx, cy⟩).diameter env = d + R := by
      unfold Edge.diameter
      refine hs.eq (by linarith) ?_
      unfold Point.sqDistance
      field_simp
      linear_combination (d + R) ^ 2 * d1
    have dR : d + R ≠ 0 := by linarith
    have f2 : ((Edge.mk (⟨bx, b_y⟩ : Point K) ⟨cx, cy⟩).extendAtFront env R).extendAtBack env r =
        ⟨⟨bx - (cx - bx) * (R / d), b_y - (cy - b_y) * (R / d)⟩, ⟨cx + (cx - bx) * (r / d), cy + (cy - b_y) * (r / d)⟩⟩ := by
      rw [f1]
      unfold Edge.extendAtBack
      rw [l2]
      congr 2 <;> field_simp <;> ring
    have l3 : (Edge.mk (⟨bx - (cx - bx) * (R / d), b_y - (cy - b_y) * (R / d)⟩ : Point K)
        ⟨cx + (cx - bx) * (r / d), cy + (cy - b_y) * (r / d)⟩).diameter env = d + R + r := by
      unfold Edge.diameter
      refine hs.eq (by linarith) ?_
      unfold Point.sqDistance
      field_simp
      linear_combination (d + R + r) ^ 2 * d1
    refine ⟨_, rfl, ?_, ?_, ?_⟩
    · beta_reduce
      rw [f2]
      refine Circle.pts_subset (d := (d + r - R) / 2) hb (by linarith) ?_ (by rw [l3]; dsimp only; linarith)
      unfold sqDist Edge.centroid
      dsimp only
      refine le_of_eq ?_
      field_simp
      linear_combination -(d + r - R) ^ 2 * d1
    · beta_reduce
      rw [f2]
      refine Circle.pts_subset (d := (d - r + R) / 2) hc (by linarith) ?_ (by rw [l3]; dsimp only; linarith)
      unfold sqDist Edge.centroid
      dsimp only
      refine le_of_eq ?_
      field_simp
      linear_combination -(d - r + R) ^ 2 * d1
    · beta_reduce
      rw [f2, l3]
      dsimp only
      linarith
  · push Not at hcond
    refine ⟨b, rfl, subset_rfl, ?_, le_rfl⟩
    refine Circle.pts_subset (d := d) hc d0 ?_ hcond
    rw [sqDist_comm]
    exact d1.ge

end Jagua
