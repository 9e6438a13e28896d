import Verif.Lemmas.CircleGeo
import Verif.Spec.Distance

/-! # Lemmas: intersection location, rectangle distances, sides of quadrants -/

set_option linter.unusedSectionVars false

namespace Jagua

variable {K : Type*} [Field K] [LinearOrder K] [IsStrictOrderedRing K]

theorem edgeIntersection_loc (e f : Edge K) (p : Point K) (h : Edge.edgeIntersection e f true = some (some p)) :
    p ∈ e.pts ∧ p ∈ f.pts := by
  unfold Edge.edgeIntersection at h
  dsimp only at h
  split at h
  · cases h
  · split at h
    · cases h
    · rename_i hd
      split at h
      · rename_i htu
        simp only [if_true, Option.some.injEq] at h
        push Not at hd
        obtain ⟨hd, -⟩ := hd
        obtain ⟨⟨t0, t1⟩, u0, u1⟩ := htu
        generalize htd : ((e.stop.x - e.start.x) * (f.stop.y - f.start.y) - (e.stop.y - e.start.y) * (f.stop.x - f.start.x)) = D at *
        set T := ((e.stop.x - f.stop.x) * (f.stop.y - f.start.y) - (e.stop.y - f.stop.y) * (f.stop.x - f.start.x)) / D with hT
        set U := ((e.stop.x - f.stop.x) * (e.stop.y - e.start.y) - (e.stop.y - f.stop.y) * (e.stop.x - e.start.x)) / D with hU
        have eT : T * D = (e.stop.x - f.stop.x) * (f.stop.y - f.start.y) - (e.stop.y - f.stop.y) * (f.stop.x - f.start.x) := by
          rw [hT]; exact div_mul_cancel₀ _ hd
        have eU : U * D = (e.stop.x - f.stop.x) * (e.stop.y - e.start.y) - (e.stop.y - f.stop.y) * (e.stop.x - e.start.x) := by
          rw [hU]; exact div_mul_cancel₀ _ hd
        rw [← h]
        refine ⟨⟨1 - T, by linarith, by linarith, by simp only; ring, by simp only; ring⟩,
          ⟨1 - U, by linarith, by linarith, ?_, ?_⟩⟩
        · simp only
          apply mul_left_cancel₀ hd
          linear_combination (e.start.x - e.stop.x) * eT - (f.start.x - f.stop.x) * eU - (e.stop.x - f.stop.x) * htd
        · simp only
          apply mul_left_cancel₀ hd
          linear_combination (e.start.y - e.stop.y) * eT - (f.start.y - f.stop.y) * eU - (e.stop.y - f.stop.y) * htd
      · cases h

theorem edgeIntersection_flag (e f : Edge K) :
    (Edge.edgeIntersection e f true).isSome = (Edge.edgeIntersection e f false).isSome ∧
    Edge.edgeIntersection e f true ≠ some none := by
  unfold Edge.edgeIntersection
  dsimp only
  (repeat' split) <;> simp_all

theorem collidesAt_spec (e f : Edge K) (_h : ¬ e.Parallel f) :
    ∃ o, e.collidesAt f = some o ∧ (o.isSome = e.collidesEdge f) ∧ ∀ p, o = some p → p ∈ e.pts ∧ p ∈ f.pts := by
  obtain ⟨h1, h2⟩ := edgeIntersection_flag e f
  have h3 := edgeIntersection_loc e f
  unfold Edge.collidesAt Edge.collidesEdge
  cases hr : Edge.edgeIntersection e f true with
  | none =>
    rw [hr] at h1
    refine ⟨none, rfl, ?_, by simp⟩
    cases hf : Edge.edgeIntersection e f false with
    | none => rfl
    | some o => rw [hf] at h1; simp at h1
  | some o =>
    cases o with
    | none => exact absurd hr h2
    | some p =>
      refine ⟨some p, rfl, ?_, ?_⟩
      · rw [hr] at h1
        cases hf : Edge.edgeIntersection e f false with
        | none => rw [hf] at h1; simp at h1
        | some o => rfl
      · rintro q ⟨⟩
        exact h3 p hr

theorem rect_sqDistance_eq (r : AARect K) (hv : r.Valid) (p : Point K) :
    r.sqDistance p = (max r.xMin (min p.x r.xMax) - p.x) ^ 2 + (max r.yMin (min p.y r.yMax) - p.y) ^ 2 := by
  have key : ∀ {a b x : K}, a < b →
      (if x < a then (x - a) ^ 2 else if x > b then (x - b) ^ 2 else 0) = (max a (min x b) - x) ^ 2 := by
    intro a b x hab
    split
    · rename_i h
      rw [min_eq_left (h.trans hab).le, max_eq_left h.le]; ring
    · rename_i h
      split
      · rename_i h'
        rw [min_eq_right h'.le, max_eq_right hab.le]; ring
      · rename_i h'
        rw [min_eq_left (not_lt.1 h'), max_eq_right (not_lt.1 h)]; ring
  unfold AARect.sqDistance
  dsimp only
  rw [key hv.1, key hv.2, fabs_eq, abs_of_nonneg (by positivity)]

theorem rect_sqDistance_border (r : AARect K) (hv : r.Valid) (p : Point K) (hp : p ∉ r.pts) :
    IsSqDist p r.border (r.sqDistance p) := by
  rw [rect_sqDistance_eq r hv p]
  have hx := hv.1
  have hy := hv.2
  refine ⟨⟨⟨max r.xMin (min p.x r.xMax), max r.yMin (min p.y r.yMax)⟩,
    ⟨⟨le_max_left _ _, max_le hx.le (min_le_right _ _), le_max_left _ _, max_le hy.le (min_le_right _ _)⟩, ?_⟩, by ring⟩, ?_⟩
  · dsimp only
    by_contra hcon
    push Not at hcon
    obtain ⟨c1, c2, c3, c4⟩ := hcon
    apply hp
    have key : ∀ {a b x : K}, a < b → max a (min x b) ≠ a → max a (min x b) ≠ b → a ≤ x ∧ x ≤ b := by
      intro a b x hab h1 h2
      rcases le_total x b with hb | hb
      · rw [min_eq_left hb] at h1 h2
        rcases le_total a x with ha | ha
        · exact ⟨ha, hb⟩
        · exact absurd (max_eq_left ha) h1
      · rw [min_eq_right hb] at h1 h2
        exact absurd (max_eq_right hab.le) h2
    obtain ⟨a1, a2⟩ := key hx c1 c2
    obtain ⟨b1, b2⟩ := key hy c3 c4
    exact ⟨a1, a2, b1, b2⟩
  · rintro q ⟨⟨h1, h2, h3, h4⟩, -⟩
    have e1 := clamp_closest (x := p.x) ⟨h1, h2⟩
    have e2 := clamp_closest (x := p.y) ⟨h3, h4⟩
    nlinarith

theorem rect_inner_border (r : AARect K) (hv : r.Valid) (p : Point K) (hp : p ∈ r.pts) :
    0 ≤ min (min (min |p.x - r.xMin| |p.x - r.xMax|) |p.y - r.yMin|) |p.y - r.yMax| ∧
    IsSqDist p r.border ((min (min (min |p.x - r.xMin| |p.x - r.xMax|) |p.y - r.yMin|) |p.y - r.yMax|) ^ 2) := by
  obtain ⟨h1, h2, h3, h4⟩ := hp
  obtain ⟨hx, hy⟩ := hv
  set m := min (min (min |p.x - r.xMin| |p.x - r.xMax|) |p.y - r.yMin|) |p.y - r.yMax| with hm
  have m0 : 0 ≤ m := le_min (le_min (le_min (abs_nonneg _) (abs_nonneg _)) (abs_nonneg _)) (abs_nonneg _)
  have ma : m ≤ |p.x - r.xMin| := ((min_le_left _ _).trans (min_le_left _ _)).trans (min_le_left _ _)
  have mb : m ≤ |p.x - r.xMax| := ((min_le_left _ _).trans (min_le_left _ _)).trans (min_le_right _ _)
  have mc : m ≤ |p.y - r.yMin| := (min_le_left _ _).trans (min_le_right _ _)
  have md : m ≤ |p.y - r.yMax| := min_le_right _ _
  have sq : ∀ a : K, m ≤ |a| → m ^ 2 ≤ a ^ 2 := by
    intro a ha
    rw [← sq_abs a]
    exact pow_le_pow_left₀ m0 ha 2
  refine ⟨m0, ?_, ?_⟩
  · have cases : m = |p.x - r.xMin| ∨ m = |p.x - r.xMax| ∨ m = |p.y - r.yMin| ∨ m = |p.y - r.yMax| := by
      rw [hm]
      rcases min_choice (min (min |p.x - r.xMin| |p.x - r.xMax|) |p.y - r.yMin|) |p.y - r.yMax| with h | h
      · rw [h]
        rcases min_choice (min |p.x - r.xMin| |p.x - r.xMax|) |p.y - r.yMin| with h | h
        · rw [h]
          rcases min_choice |p.x - r.xMin| |p.x - r.xMax| with h | h <;> rw [h] <;> simp
        · rw [h]; simp
      · rw [h]; simp
    rcases cases with h | h | h | h
    · exact ⟨⟨r.xMin, p.y⟩, ⟨⟨le_rfl, hx.le, h3, h4⟩, Or.inl rfl⟩, by rw [h, sq_abs]; ring⟩
    · exact ⟨⟨r.xMax, p.y⟩, ⟨⟨hx.le, le_rfl, h3, h4⟩, Or.inr (Or.inl rfl)⟩, by rw [h, sq_abs]; ring⟩
    · exact ⟨⟨p.x, r.yMin⟩, ⟨⟨h1, h2, le_rfl, hy.le⟩, Or.inr (Or.inr (Or.inl rfl))⟩, by rw [h, sq_abs]; ring⟩
    · exact ⟨⟨p.x, r.yMax⟩, ⟨⟨h1, h2, hy.le, le_rfl⟩, Or.inr (Or.inr (Or.inr rfl))⟩, by rw [h, sq_abs]; ring⟩
  · rintro q ⟨-, hq | hq | hq | hq⟩ <;> rw [hq]
    · have := sq _ ma; nlinarith [sq_nonneg (p.y - q.y)]
    · have := sq _ mb; nlinarith [sq_nonneg (p.y - q.y)]
    · have := sq _ mc; nlinarith [sq_nonneg (p.x - q.x)]
    · have := sq _ md; nlinarith [sq_nonneg (p.x - q.x)]

/-- Intersection of two rectangles sharing a vertical line. -/
theorem inter_vertical {x0 x1 x2 y0 y1 : K} (h0 : x0 ≤ x1) (h1 : x1 ≤ x2) (hy : y0 < y1) :
    (AARect.mk x0 y0 x1 y1).pts ∩ (AARect.mk x1 y0 x2 y1).pts = segPts ⟨x1, y0⟩ ⟨x1, y1⟩ := by
  ext p
  constructor
  · rintro ⟨⟨a1, a2, a3, a4⟩, b1, b2, b3, b4⟩
    have hx : p.x = x1 := le_antisymm a2 b1
    have := mem_vert (x := x1) hy a3 a4
    have e : p = ⟨x1, p.y⟩ := by ext <;> simp [hx]
    rw [e]; exact this
  · rintro ⟨t, t0, t1, hx, hy'⟩
    simp only [sub_self, mul_zero, add_zero] at hx hy'
    have := lerp_bounds (a := y0) (b := y1) t0 t1
    rw [min_eq_left hy.le, max_eq_right hy.le, ← hy'] at this
    exact ⟨⟨by simp only; linarith, by simp only; linarith, this.1, this.2⟩,
      ⟨by simp only; linarith, by simp only; linarith, this.1, this.2⟩⟩

/-- Intersection of two rectangles sharing a horizontal line. -/
theorem inter_horizontal {y0 y1 y2 x0 x1 : K} (h0 : y0 ≤ y1) (h1 : y1 ≤ y2) (hx : x0 < x1) :
    (AARect.mk x0 y0 x1 y1).pts ∩ (AARect.mk x0 y1 x1 y2).pts = segPts ⟨x0, y1⟩ ⟨x1, y1⟩ := by
  ext p
  constructor
  · rintro ⟨⟨a1, a2, a3, a4⟩, b1, b2, b3, b4⟩
    have hx' : p.y = y1 := le_antisymm a4 b3
    have := mem_horiz (y := y1) hx a1 a2
    have e : p = ⟨p.x, y1⟩ := by ext <;> simp [hx']
    rw [e]; exact this
  · rintro ⟨t, t0, t1, hx', hy'⟩
    simp only [sub_self, mul_zero, add_zero] at hx' hy'
    have := lerp_bounds (a := x0) (b := x1) t0 t1
    rw [min_eq_left hx.le, max_eq_right hx.le, ← hx'] at this
    exact ⟨⟨this.1, this.2, by simp only; linarith, by simp only; linarith⟩,
      ⟨this.1, this.2, by simp only; linarith, by simp only; linarith⟩⟩

theorem not_seg_of_single {S : Set (Point K)} {c : Point K} (h : ∀ p ∈ S, p = c) :
    ¬ ∃ p q, p ≠ q ∧ S = segPts p q := by
  rintro ⟨p, q, hpq, hS⟩
  have h1 := h p (by rw [hS]; exact segPts_start p q)
  have h2 := h q (by rw [hS]; exact segPts_stop p q)
  exact hpq (h1.trans h2.symm)

theorem shareSide_iff {r : AARect K} (hv : r.Valid) (i j : Fin 4) (hij : i ≠ j) :
    (∃ p q, p ≠ q ∧ (r.quadrants i).pts ∩ (r.quadrants j).pts = segPts p q) ↔
      ((AARect.quadrantNeighborLayout i).1 = j ∨ (AARect.quadrantNeighborLayout i).2 = j) := by
  obtain ⟨h0, h1, h2, h3⟩ := quadrants_eq hv
  obtain ⟨hx, hy⟩ := hv
  set mx := (r.xMin + r.xMax) / 2 with hmx
  set my := (r.yMin + r.yMax) / 2 with hmy
  have x1 : r.xMin < mx := by rw [hmx]; linarith
  have x2 : mx < r.xMax := by rw [hmx]; linarith
  have y1 : r.yMin < my := by rw [hmy]; linarith
  have y2 : my < r.yMax := by rw [hmy]; linarith
  have s01 : ∃ p q, p ≠ q ∧ (r.quadrants 0).pts ∩ (r.quadrants 1).pts = segPts p q :=
    ⟨⟨mx, my⟩, ⟨mx, r.yMax⟩, by simp [Point.ext_iff, y2.ne], by
      rw [h0, h1, Set.inter_comm]; exact inter_vertical x1.le x2.le y2⟩
  have s32 : ∃ p q, p ≠ q ∧ (r.quadrants 3).pts ∩ (r.quadrants 2).pts = segPts p q :=
    ⟨⟨mx, r.yMin⟩, ⟨mx, my⟩, by simp [Point.ext_iff, y1.ne], by
      rw [h2, h3, Set.inter_comm]; exact inter_vertical x1.le x2.le y1⟩
  have s12 : ∃ p q, p ≠ q ∧ (r.quadrants 1).pts ∩ (r.quadrants 2).pts = segPts p q :=
    ⟨⟨r.xMin, my⟩, ⟨mx, my⟩, by simp [Point.ext_iff, x1.ne], by
      rw [h2, h1, Set.inter_comm]; exact inter_horizontal y1.le y2.le x1⟩
  have s03 : ∃ p q, p ≠ q ∧ (r.quadrants 0).pts ∩ (r.quadrants 3).pts = segPts p q :=
    ⟨⟨mx, my⟩, ⟨r.xMax, my⟩, by simp [Point.ext_iff, x2.ne], by
      rw [h0, h3, Set.inter_comm]; exact inter_horizontal y1.le y2.le x2⟩
  have n02 : ¬ ∃ p q, p ≠ q ∧ (r.quadrants 0).pts ∩ (r.quadrants 2).pts = segPts p q := by
    apply not_seg_of_single (c := ⟨mx, my⟩)
    rw [h0, h2]
    rintro p ⟨⟨a1, a2, a3, a4⟩, b1, b2, b3, b4⟩
    ext
    · exact le_antisymm b2 a1
    · exact le_antisymm b4 a3
  have n13 : ¬ ∃ p q, p ≠ q ∧ (r.quadrants 1).pts ∩ (r.quadrants 3).pts = segPts p q := by
    apply not_seg_of_single (c := ⟨mx, my⟩)
    rw [h1, h3]
    rintro p ⟨⟨a1, a2, a3, a4⟩, b1, b2, b3, b4⟩
    ext
    · exact le_antisymm a2 b1
    · exact le_antisymm b4 a3
  have sym : ∀ i j : Fin 4, (∃ p q, p ≠ q ∧ (r.quadrants i).pts ∩ (r.quadrants j).pts = segPts p q) ↔
      (∃ p q, p ≠ q ∧ (r.quadrants j).pts ∩ (r.quadrants i).pts = segPts p q) := by
    intro i j; rw [Set.inter_comm]
  revert hij
  fin_cases i <;> fin_cases j <;> intro hij <;>
    simp only [Fin.zero_eta, Fin.mk_one, Fin.reduceFinMk, ne_eq, not_true_eq_false, AARect.quadrantNeighborLayout] at hij ⊢
  · exact iff_of_true s01 (by simp)
  · exact iff_of_false n02 (by decide)
  · exact iff_of_true s03 (by simp)
  · exact iff_of_true ((sym _ _).1 s01) (by simp)
  · exact iff_of_true s12 (by simp)
  · exact iff_of_false n13 (by decide)
  · exact iff_of_false (fun h => n02 ((sym _ _).1 h)) (by decide)
  · exact iff_of_true ((sym _ _).1 s12) (by simp)
  · exact iff_of_true ((sym _ _).1 s32) (by simp)
  · exact iff_of_true ((sym _ _).1 s03) (by simp)
  · exact iff_of_false (fun h => n13 ((sym _ _).1 h)) (by decide)
  · exact iff_of_true s32 (by simp)

end Jagua
