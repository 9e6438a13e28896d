import Verif.Lemmas.Parity

/-! # The interior of a rectangle -/

set_option linter.unusedSectionVars false

namespace Jagua

variable {K : Type*} [Field K] [LinearOrder K] [IsStrictOrderedRing K]

/-- the corners of a rectangle, counterclockwise -/
def rectPoly (x0 y0 x1 y1 : K) : List (Point K) := [⟨x0, y0⟩, ⟨x1, y0⟩, ⟨x1, y1⟩, ⟨x0, y1⟩]

theorem sides_rectPoly (x0 y0 x1 y1 : K) : sides (rectPoly x0 y0 x1 y1) =
    [(⟨x0, y0⟩, ⟨x1, y0⟩), (⟨x1, y0⟩, ⟨x1, y1⟩), (⟨x1, y1⟩, ⟨x0, y1⟩), (⟨x0, y1⟩, ⟨x0, y0⟩)] := rfl

theorem crosses_vertical {p : Point K} {x a b : K} (hab : a < b) :
    CrossesRay p (⟨x, a⟩, ⟨x, b⟩) ↔ a < p.y ∧ p.y ≤ b ∧ p.x < x := by
  constructor
  · rintro ⟨h | h, c, ⟨t, -, -, hx, -⟩, -, hc⟩
    · simp only [sub_self, mul_zero, add_zero] at hx
      exact ⟨h.1, h.2, hx ▸ hc⟩
    · exact absurd (h.1.trans_le h.2) (not_lt.2 hab.le)
  · rintro ⟨h1, h2, h3⟩
    obtain ⟨c, hc, hcy, -⟩ := level_point (a := ⟨x, a⟩) (b := ⟨x, b⟩) h1 h2
    refine ⟨.inl ⟨h1, h2⟩, c, hc, hcy, ?_⟩
    obtain ⟨t, -, -, hx, -⟩ := hc
    simp only [sub_self, mul_zero, add_zero] at hx
    rw [hx]; exact h3

theorem crosses_horizontal {p : Point K} {a b y : K} : ¬ CrossesRay p (⟨a, y⟩, ⟨b, y⟩) := by
  rintro ⟨h | h, -⟩ <;> exact absurd (h.1.trans_le h.2) (lt_irrefl _)

theorem seg_vertical {p : Point K} {x a b : K} (hab : a < b) :
    p ∈ segPts (⟨x, a⟩ : Point K) ⟨x, b⟩ ↔ p.x = x ∧ a ≤ p.y ∧ p.y ≤ b := by
  constructor
  · rintro ⟨t, t0, t1, hx, hy⟩
    simp only [sub_self, mul_zero, add_zero] at hx hy
    exact ⟨hx, by nlinarith, by nlinarith⟩
  · rintro ⟨h1, h2, h3⟩
    have : 0 < b - a := by linarith
    refine ⟨(p.y - a) / (b - a), div_nonneg (by linarith) this.le, by rw [div_le_one this]; linarith, ?_, ?_⟩
    · simp [h1]
    · simp only; field_simp; ring

theorem seg_horizontal {p : Point K} {y a b : K} (hab : a < b) :
    p ∈ segPts (⟨a, y⟩ : Point K) ⟨b, y⟩ ↔ p.y = y ∧ a ≤ p.x ∧ p.x ≤ b := by
  constructor
  · rintro ⟨t, t0, t1, hx, hy⟩
    simp only [sub_self, mul_zero, add_zero] at hx hy
    exact ⟨hy, by nlinarith, by nlinarith⟩
  · rintro ⟨h1, h2, h3⟩
    have : 0 < b - a := by linarith
    refine ⟨(p.x - a) / (b - a), div_nonneg (by linarith) this.le, by rw [div_le_one this]; linarith, ?_, ?_⟩
    · simp only; field_simp; ring
    · simp [h1]

theorem bdry_rectPoly {x0 y0 x1 y1 : K} (hx : x0 < x1) (hy : y0 < y1) (p : Point K) :
    p ∈ bdry (rectPoly x0 y0 x1 y1) ↔
      (x0 ≤ p.x ∧ p.x ≤ x1 ∧ y0 ≤ p.y ∧ p.y ≤ y1) ∧ (p.x = x0 ∨ p.x = x1 ∨ p.y = y0 ∨ p.y = y1) := by
  unfold bdry
  rw [sides_rectPoly]
  simp only [Set.mem_ofPred_eq, List.mem_cons, List.not_mem_nil, or_false, exists_eq_or_imp, exists_eq_left]
  rw [segPts_comm ⟨x1, y1⟩, segPts_comm ⟨x0, y1⟩ ⟨x0, y0⟩, seg_horizontal hx, seg_horizontal hx, seg_vertical hy,
    seg_vertical hy]
  constructor
  · rintro (⟨h1, h2, h3⟩ | ⟨h1, h2, h3⟩ | ⟨h1, h2, h3⟩ | ⟨h1, h2, h3⟩)
    · exact ⟨⟨h2, h3, h1.ge, by linarith⟩, by tauto⟩
    · exact ⟨⟨by linarith, h1.le, h2, h3⟩, by tauto⟩
    · exact ⟨⟨h2, h3, by linarith, h1.le⟩, by tauto⟩
    · exact ⟨⟨h1.ge, by linarith, h2, h3⟩, by tauto⟩
  · tauto

/-- The even-odd interior of a rectangle is the open rectangle. -/
theorem interior_rectPoly {x0 y0 x1 y1 : K} (hx : x0 < x1) (hy : y0 < y1) (p : Point K) :
    p ∈ interior (rectPoly x0 y0 x1 y1) ↔ x0 < p.x ∧ p.x < x1 ∧ y0 < p.y ∧ p.y < y1 := by
  classical
  have hc : Odd (rayCount (rectPoly x0 y0 x1 y1) p) ↔ (y0 < p.y ∧ p.y ≤ y1) ∧ x0 ≤ p.x ∧ p.x < x1 := by
    unfold rayCount
    rw [sides_rectPoly]
    simp only [List.countP_cons, List.countP_nil, crosses_horizontal, crosses_vertical hy,
      crossesRay_comm (p := p) (a := ⟨x0, y1⟩) (b := ⟨x0, y0⟩)]
    by_cases h1 : y0 < p.y ∧ p.y ≤ y1
    · by_cases h2 : p.x < x1
      · by_cases h3 : p.x < x0
        · simp only [h1, h2, h3, not_le.2 h3]
          simp
        · simp [h1, h2, h3, not_lt.1 h3]
      · have h3 : ¬ p.x < x0 := fun h => h2 (h.trans hx)
        simp [h2, h3]
    · have : ∀ q : Prop, ¬ (y0 < p.y ∧ p.y ≤ y1 ∧ q) := fun q h => h1 ⟨h.1, h.2.1⟩
      simp [this, h1]
  show _ ∧ _ ↔ _
  rw [hc, bdry_rectPoly hx hy]
  constructor
  · rintro ⟨h1, ⟨h2, h3⟩, h4, h5⟩
    have : ¬ (p.x = x0 ∨ p.x = x1 ∨ p.y = y0 ∨ p.y = y1) := fun h => h1 ⟨⟨h4, h5.le, h2.le, h3⟩, h⟩
    push Not at this
    exact ⟨lt_of_le_of_ne h4 (Ne.symm this.1), h5, h2, lt_of_le_of_ne h3 this.2.2.2⟩
  · rintro ⟨h1, h2, h3, h4⟩
    refine ⟨?_, ⟨h3, h4.le⟩, h1.le, h2⟩
    rintro ⟨-, h | h | h | h⟩ <;> linarith

end Jagua
