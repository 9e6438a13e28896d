import Verif.Lemmas.RectGeo

/-! # Lemmas: relation, quadrants, inflation of rectangles -/

set_option linter.unusedSectionVars false

namespace Jagua

variable {K : Type*} [Field K] [LinearOrder K] [IsStrictOrderedRing K]

theorem pts_subset_iff {a b : AARect K} (ha : a.Valid) :
    a.pts ⊆ b.pts ↔ b.xMin ≤ a.xMin ∧ b.yMin ≤ a.yMin ∧ a.xMax ≤ b.xMax ∧ a.yMax ≤ b.yMax := by
  constructor
  · intro h
    have h1 : (⟨a.xMin, a.yMin⟩ : Point K) ∈ b.pts := h ⟨le_rfl, ha.1.le, le_rfl, ha.2.le⟩
    have h2 : (⟨a.xMax, a.yMax⟩ : Point K) ∈ b.pts := h ⟨ha.1.le, le_rfl, ha.2.le, le_rfl⟩
    exact ⟨h1.1, h1.2.2.1, h2.2.1, h2.2.2.2⟩
  · rintro ⟨h1, h2, h3, h4⟩ p ⟨q1, q2, q3, q4⟩
    exact ⟨h1.trans q1, q2.trans h3, h2.trans q3, q4.trans h4⟩

theorem relationTo_surrounding_iff {a b : AARect K} (hb : b.Valid) :
    a.relationTo b = .surrounding ↔ b.pts ⊆ a.pts := by
  rw [pts_subset_iff hb]
  unfold AARect.relationTo
  constructor
  · intro h
    split at h
    · split at h
      · rename_i h'; exact ⟨h'.1, h'.2.1, h'.2.2.1, h'.2.2.2⟩
      · split at h <;> simp at h
    · simp at h
  · rintro ⟨h1, h2, h3, h4⟩
    rw [if_pos, if_pos ⟨h1, h2, h3, h4⟩]
    rw [rect_collidesRect_iff]
    exact ⟨⟨b.xMin, b.yMin⟩, ⟨h1, hb.1.le.trans h3, h2, hb.2.le.trans h4⟩, le_rfl, hb.1.le, le_rfl, hb.2.le⟩

theorem relationTo_enclosed {a b : AARect K} (h : a.relationTo b = .enclosed) : a.pts ⊆ b.pts := by
  unfold AARect.relationTo at h
  split at h
  · split at h
    · simp at h
    · split at h
      · rename_i h'
        rintro p ⟨q1, q2, q3, q4⟩
        exact ⟨h'.1.trans q1, q2.trans h'.2.2.1, h'.2.1.trans q3, q4.trans h'.2.2.2⟩
      · simp at h
  · simp at h

theorem relationTo_disjoint_iff {a b : AARect K} :
    a.relationTo b = .disjoint ↔ ¬ ∃ p, p ∈ a.pts ∧ p ∈ b.pts := by
  rw [← rect_collidesRect_iff]
  unfold AARect.relationTo
  split
  · rename_i h
    simp only [h, not_true_eq_false, iff_false]
    split <;> simp
    split <;> simp
  · rename_i h; simp [h]

theorem almost_exact (a b : AARect K) :
    a.almostRelationTo Fpa.exact b = a.relationTo b := by
  unfold AARect.almostRelationTo AARect.relationTo AARect.almostCollidesRect AARect.collidesRect Fpa.le
    Fpa.exact
  simp only [Bool.or_eq_true, Bool.and_eq_true, decide_eq_true_eq, ← le_iff_eq_or_lt, ge_iff_le,
    and_assoc]

/-- Explicit form of the quadrants of a valid rectangle. -/
theorem quadrants_eq {r : AARect K} (hv : r.Valid) :
    r.quadrants 0 = ⟨(r.xMin + r.xMax) / 2, (r.yMin + r.yMax) / 2, r.xMax, r.yMax⟩ ∧
    r.quadrants 1 = ⟨r.xMin, (r.yMin + r.yMax) / 2, (r.xMin + r.xMax) / 2, r.yMax⟩ ∧
    r.quadrants 2 = ⟨r.xMin, r.yMin, (r.xMin + r.xMax) / 2, (r.yMin + r.yMax) / 2⟩ ∧
    r.quadrants 3 = ⟨(r.xMin + r.xMax) / 2, r.yMin, r.xMax, (r.yMin + r.yMax) / 2⟩ := by
  obtain ⟨hx, hy⟩ := hv
  have h1 : (r.xMin + r.xMax) / 2 ≤ r.xMax := by linarith
  have h2 : r.xMin ≤ (r.xMin + r.xMax) / 2 := by linarith
  have h3 : (r.yMin + r.yMax) / 2 ≤ r.yMax := by linarith
  have h4 : r.yMin ≤ (r.yMin + r.yMax) / 2 := by linarith
  simp only [AARect.quadrants, Edge.bbox, Edge.xMin, Edge.yMin, Edge.xMax, Edge.yMax, AARect.centroid,
    min_eq_right h1, min_eq_left h2, max_eq_left h1, max_eq_right h2,
    min_eq_right h3, min_eq_left h4, max_eq_left h3, max_eq_right h4, and_self]

theorem quadrants_valid {r : AARect K} (hv : r.Valid) (i : Fin 4) : (r.quadrants i).Valid := by
  obtain ⟨h0, h1, h2, h3⟩ := quadrants_eq hv
  obtain ⟨hx, hy⟩ := hv
  fin_cases i
  · show (r.quadrants 0).Valid
    rw [h0]; constructor <;> simp only <;> linarith
  · show (r.quadrants 1).Valid
    rw [h1]; constructor <;> simp only <;> linarith
  · show (r.quadrants 2).Valid
    rw [h2]; constructor <;> simp only <;> linarith
  · show (r.quadrants 3).Valid
    rw [h3]; constructor <;> simp only <;> linarith

theorem quadrants_subset {r : AARect K} (hv : r.Valid) (i : Fin 4) : (r.quadrants i).pts ⊆ r.pts := by
  rw [pts_subset_iff (quadrants_valid hv i)]
  obtain ⟨h0, h1, h2, h3⟩ := quadrants_eq hv
  obtain ⟨hx, hy⟩ := hv
  fin_cases i
  · show _ ≤ (r.quadrants 0).xMin ∧ _ ≤ (r.quadrants 0).yMin ∧ (r.quadrants 0).xMax ≤ _ ∧ (r.quadrants 0).yMax ≤ _
    rw [h0]; refine ⟨?_, ?_, ?_, ?_⟩ <;> simp only <;> linarith
  · show _ ≤ (r.quadrants 1).xMin ∧ _ ≤ (r.quadrants 1).yMin ∧ (r.quadrants 1).xMax ≤ _ ∧ (r.quadrants 1).yMax ≤ _
    rw [h1]; refine ⟨?_, ?_, ?_, ?_⟩ <;> simp only <;> linarith
  · show _ ≤ (r.quadrants 2).xMin ∧ _ ≤ (r.quadrants 2).yMin ∧ (r.quadrants 2).xMax ≤ _ ∧ (r.quadrants 2).yMax ≤ _
    rw [h2]; refine ⟨?_, ?_, ?_, ?_⟩ <;> simp only <;> linarith
  · show _ ≤ (r.quadrants 3).xMin ∧ _ ≤ (r.quadrants 3).yMin ∧ (r.quadrants 3).xMax ≤ _ ∧ (r.quadrants 3).yMax ≤ _
    rw [h3]; refine ⟨?_, ?_, ?_, ?_⟩ <;> simp only <;> linarith

theorem quadrants_cover {r : AARect K} (hv : r.Valid) {p : Point K} (hp : p ∈ r.pts) :
    ∃ i, p ∈ (r.quadrants i).pts := by
  obtain ⟨h0, h1, h2, h3⟩ := quadrants_eq hv
  obtain ⟨p1, p2, p3, p4⟩ := hp
  rcases le_total p.x ((r.xMin + r.xMax) / 2) with hx | hx <;>
    rcases le_total p.y ((r.yMin + r.yMax) / 2) with hy | hy
  · exact ⟨2, by rw [h2]; exact ⟨p1, hx, p3, hy⟩⟩
  · exact ⟨1, by rw [h1]; exact ⟨p1, hx, hy, p4⟩⟩
  · exact ⟨3, by rw [h3]; exact ⟨hx, p2, p3, hy⟩⟩
  · exact ⟨0, by rw [h0]; exact ⟨hx, p2, hy, p4⟩⟩

theorem inflate_contains (r : AARect K) : r.pts ⊆ r.inflateToSquare.pts := by
  rintro p ⟨h1, h2, h3, h4⟩
  unfold AARect.inflateToSquare
  dsimp only
  refine ⟨?_, ?_, ?_, ?_⟩ <;> dsimp only <;> (repeat' split) <;> linarith

theorem inflate_square (r : AARect K) : r.inflateToSquare.width = r.inflateToSquare.height := by
  unfold AARect.inflateToSquare AARect.width AARect.height
  dsimp only
  (repeat' split) <;> linarith

theorem inflate_valid {r : AARect K} (hv : r.Valid) : r.inflateToSquare.Valid := by
  obtain ⟨h1, h2⟩ := hv
  unfold AARect.inflateToSquare
  constructor <;> dsimp only <;> (repeat' split) <;> linarith

/-- In the larger dimension the inflated square coincides with the rectangle. -/
theorem inflate_tight (r : AARect K) :
    (r.inflateToSquare.xMin = r.xMin ∧ r.inflateToSquare.xMax = r.xMax) ∨
    (r.inflateToSquare.yMin = r.yMin ∧ r.inflateToSquare.yMax = r.yMax) := by
  unfold AARect.inflateToSquare
  dsimp only
  by_cases h : r.yMax - r.yMin < r.xMax - r.xMin
  · left; simp [h]
  · right; simp [h]

theorem centroid_mem {r : AARect K} (hv : r.Valid) : r.centroid ∈ r.pts := by
  obtain ⟨h1, h2⟩ := hv
  refine ⟨?_, ?_, ?_, ?_⟩ <;> simp only [AARect.centroid] <;> linarith

end Jagua
