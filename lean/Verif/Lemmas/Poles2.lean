import Verif.Lemmas.Poles
import Verif.Lemmas.RectPoly

/-!
# Poles: when the search succeeds, and what the surrogate contains
-/

set_option linter.unusedSectionVars false

namespace Jagua

variable {K : Type*} [Field K] [LinearOrder K] [IsStrictOrderedRing K]

open POINode

theorem sqDist_triangle_lt {p q r : Point K} {a b : K} (ha : 0 < a) (hb : 0 < b) (h1 : sqDist p q < a ^ 2) (h2 : sqDist q r < b ^ 2) :
    sqDist p r < (a + b) ^ 2 := by
  unfold sqDist at *
  set u := p.x - q.x
  set v := p.y - q.y
  set w := q.x - r.x
  set z := q.y - r.y
  have e1 : p.x - r.x = u + w := by simp only [u, w]; ring
  have e2 : p.y - r.y = v + z := by simp only [v, z]; ring
  rw [e1, e2]
  have hc : u * w + v * z ≤ a * b := by
    refine abs_le_of_sq_le_sq' ?_ (mul_nonneg ha.le hb.le) |>.2
    calc (u * w + v * z) ^ 2 ≤ (u ^ 2 + v ^ 2) * (w ^ 2 + z ^ 2) := by nlinarith [sq_nonneg (u * z - v * w)]
      _ ≤ a ^ 2 * b ^ 2 := mul_le_mul h1.le h2.le (by positivity) (by positivity)
      _ = (a * b) ^ 2 := by ring
  nlinarith

/-- The signed distance at a point inside the shape and outside of the poles is positive. -/
theorem signedDistance_pos {env : HEnv K} (hs : env.SqrtExact) (hf : env.f = Fpa.exact) (hm : 0 < env.fmax)
    {s : SPoly K} (hw : s.WF) {poles : List (Circle K)} {p : Point K}
    (hi : p ∈ interior s.points) (ho : ∀ c ∈ poles, p ∉ c.pts) : 0 < signedDistance env s poles p := by
  rw [signedDistance_eq]
  have hin : inside env s poles p = true := by
    unfold inside
    rw [Bool.and_eq_true, List.all_eq_true]
    refine ⟨by rw [hf]; exact (SPoly.collidesPoint_iff hw hi.1).2 hi, fun c hc => ?_⟩
    rw [Bool.not_eq_true', Bool.eq_false_iff, Ne, circle_collidesPoint_iff]
    exact ho c hc
  rw [if_pos hin]
  rcases (foldl_min_spec (dists env s poles p) env.fmax).1 with h | h
  · unfold minDist; rw [h]; exact hm
  · unfold minDist
    rcases List.mem_append.1 h with h | h
    · obtain ⟨e, he, heq⟩ := List.mem_map.1 h
      rw [← heq]
      obtain ⟨l0, l1⟩ := hs _ (sqDistance_nonneg e p)
      refine lt_of_le_of_ne l0 fun h0 => ?_
      rw [← h0] at l1
      obtain ⟨-, -, ⟨q, hq, hqd⟩, -⟩ := C31_closest_point e p
      rw [← l1] at hqd
      have e1 : p.x - q.x = 0 := by nlinarith [sq_nonneg (p.x - q.x), sq_nonneg (p.y - q.y)]
      have e2 : p.y - q.y = 0 := by nlinarith [sq_nonneg (p.x - q.x), sq_nonneg (p.y - q.y)]
      have : p = q := Point.ext (by linarith) (by linarith)
      exact hi.1 (mem_bdry_iff.2 ⟨e, he, this ▸ hq⟩)
    · obtain ⟨c, hc, heq⟩ := List.mem_map.1 h
      rw [← heq, distanceFromBorder_snd]
      obtain ⟨l0, l1⟩ := hs _ (sqDist_nonneg p c.center)
      have hlt : c.radius ^ 2 < sqDist p c.center := not_le.1 (ho c hc)
      rw [← l1] at hlt
      have : c.radius < env.sqrt (sqDist p c.center) := lt_of_pow_lt_pow_left₀ 2 l0 hlt
      rw [abs_of_pos (by linarith)]
      linarith

/-- A disc inside the shape and outside of the poles is not larger than the signed distance. -/
theorem signedDistance_ge {env : HEnv K} (hs : env.SqrtExact) (hf : env.f = Fpa.exact)
    {s : SPoly K} (hw : s.WF) {poles : List (Circle K)} (hp : ∀ c ∈ poles, 0 ≤ c.radius) {c : Circle K}
    (h : GoodPole s.points poles c) (hm : c.radius ≤ env.fmax) : c.radius ≤ signedDistance env s poles c.center := by
  rw [signedDistance_eq]
  have hin : inside env s poles c.center = true := by
    unfold inside
    rw [Bool.and_eq_true, List.all_eq_true]
    refine ⟨by rw [hf]; exact (SPoly.collidesPoint_iff hw h.center.1).2 h.center, fun d hd => ?_⟩
    rw [Bool.not_eq_true', Bool.eq_false_iff, Ne, circle_collidesPoint_iff]
    intro hmem
    have h1 : sqDist c.center d.center ≤ d.radius ^ 2 := hmem
    have h2 := h.others d hd
    have := hp d hd
    have := h.pos
    nlinarith
  rw [if_pos hin]
  rcases (foldl_min_spec (dists env s poles c.center) env.fmax).1 with hh | hh
  · unfold minDist; rw [hh]; exact hm
  · unfold minDist
    rcases List.mem_append.1 hh with hh | hh
    · obtain ⟨e, he, heq⟩ := List.mem_map.1 hh
      rw [← heq]
      obtain ⟨l0, l1⟩ := hs _ (sqDistance_nonneg e c.center)
      obtain ⟨-, -, ⟨q, hq, hqd⟩, -⟩ := C31_closest_point e c.center
      refine le_of_sq_le_sq ?_ l0
      rw [l1, ← hqd]
      exact le_trans (h.edges q (mem_bdry_iff.2 ⟨e, he, hq⟩)) (le_of_eq (by unfold sqDist; ring))
    · obtain ⟨d, hd, heq⟩ := List.mem_map.1 hh
      rw [← heq, distanceFromBorder_snd]
      obtain ⟨l0, l1⟩ := hs _ (sqDist_nonneg c.center d.center)
      have h2 := h.others d hd
      rw [← l1] at h2
      have := le_of_sq_le_sq h2 l0
      exact le_trans (by linarith) (le_abs_self _)

theorem InTree.y_bound {r b : AARect K} {l : ℕ} (h : InTree r l b) (hv : r.xMin ≤ r.xMax ∧ r.yMin ≤ r.yMax) :
    r.yMin + (r.yMax - r.yMin) / 2 ^ (l + 1) ≤ b.centroid.y ∧ b.centroid.y ≤ r.yMax - (r.yMax - r.yMin) / 2 ^ (l + 1) := by
  induction h with
  | root r l =>
    have h2 : (r.yMax - r.yMin) / 2 ^ (l + 1) ≤ (r.yMax - r.yMin) / 2 := by
      apply div_le_div_of_nonneg_left (by linarith [hv.2]) (by norm_num)
      calc (2 : K) = 2 ^ 1 := by norm_num
        _ ≤ 2 ^ (l + 1) := pow_le_pow_right₀ (by norm_num) (by omega)
    simp only [AARect.centroid]
    constructor <;> linarith
  | @child r l b i h ih =>
    obtain ⟨h1, h2⟩ := ih (quadrants_sub hv i).1
    have e : (r.yMax - r.yMin) / 2 ^ (l + 1 + 1) = ((r.yMax - r.yMin) / 2) / 2 ^ (l + 1) := by
      rw [pow_succ 2 (l + 1)]; field_simp
    have hp : (0 : K) < 2 ^ (l + 1) := by positivity
    have hh : 0 ≤ (r.yMax - r.yMin) / 2 / 2 ^ (l + 1) := by
      have : 0 ≤ (r.yMax - r.yMin) / 2 := by linarith [hv.2]
      positivity
    have a1 : r.yMin ≤ (r.yMin + r.yMax) / 2 := by linarith [hv.2]
    have a2 : (r.yMin + r.yMax) / 2 ≤ r.yMax := by linarith [hv.2]
    rw [e]
    have e2 : r.yMax - (r.yMin + r.yMax) / 2 = (r.yMax - r.yMin) / 2 := by ring
    have e3 : (r.yMin + r.yMax) / 2 - r.yMin = (r.yMax - r.yMin) / 2 := by ring
    generalize b.centroid.y = y at h1 h2 ⊢
    fin_cases i <;>
    · simp only [AARect.quadrants, Edge.bbox, AARect.centroid, Edge.xMin, Edge.xMax, Edge.yMin, Edge.yMax, a1, a2,
        min_eq_left, min_eq_right, max_eq_left, max_eq_right, e2, e3] at h1 h2
      constructor <;> linarith

/-- Apart from the middle, the centres considered keep away from the horizontal middle line. -/
theorem InTree.mid_bound {r b : AARect K} {l : ℕ} (h : InTree r l b) (hv : r.xMin ≤ r.xMax ∧ r.yMin ≤ r.yMax) :
    b = r ∨ (r.yMax - r.yMin) / 2 ^ (l + 1) ≤ |b.centroid.y - (r.yMin + r.yMax) / 2| := by
  cases h with
  | root => exact .inl rfl
  | @child _ l _ i h =>
    refine .inr ?_
    obtain ⟨h1, h2⟩ := h.y_bound (quadrants_sub hv i).1
    have e : (r.yMax - r.yMin) / 2 ^ (l + 1 + 1) = ((r.yMax - r.yMin) / 2) / 2 ^ (l + 1) := by
      rw [pow_succ 2 (l + 1)]; field_simp
    have a1 : r.yMin ≤ (r.yMin + r.yMax) / 2 := by linarith [hv.2]
    have a2 : (r.yMin + r.yMax) / 2 ≤ r.yMax := by linarith [hv.2]
    have e2 : r.yMax - (r.yMin + r.yMax) / 2 = (r.yMax - r.yMin) / 2 := by ring
    have e3 : (r.yMin + r.yMax) / 2 - r.yMin = (r.yMax - r.yMin) / 2 := by ring
    rw [e, le_abs]
    generalize b.centroid.y = y at h1 h2 ⊢
    fin_cases i <;>
    · simp only [AARect.quadrants, Edge.bbox, AARect.centroid, Edge.xMin, Edge.xMax, Edge.yMin, Edge.yMax, a1, a2,
        min_eq_left, min_eq_right, max_eq_left, max_eq_right, e2, e3] at h1 h2
      first
        | (left; linarith)
        | (right; linarith)

/-- one of the quarters of a rectangle -/
def quarter (r : AARect K) (a b : ℕ) : AARect K :=
  ⟨r.xMin + a * ((r.xMax - r.xMin) / 2), r.yMin + b * ((r.yMax - r.yMin) / 2),
    r.xMin + (a + 1) * ((r.xMax - r.xMin) / 2), r.yMin + (b + 1) * ((r.yMax - r.yMin) / 2)⟩

theorem quadrants_quarter {r : AARect K} (hv : r.xMin ≤ r.xMax ∧ r.yMin ≤ r.yMax) :
    r.quadrants 0 = quarter r 1 1 ∧ r.quadrants 1 = quarter r 0 1 ∧ r.quadrants 2 = quarter r 0 0 ∧ r.quadrants 3 = quarter r 1 0 := by
  have a1 : r.yMin ≤ (r.yMin + r.yMax) / 2 := by linarith [hv.2]
  have a2 : (r.yMin + r.yMax) / 2 ≤ r.yMax := by linarith [hv.2]
  have b1 : r.xMin ≤ (r.xMin + r.xMax) / 2 := by linarith [hv.1]
  have b2 : (r.xMin + r.xMax) / 2 ≤ r.xMax := by linarith [hv.1]
  refine ⟨?_, ?_, ?_, ?_⟩ <;>
  · simp only [AARect.quadrants, Edge.bbox, AARect.centroid, Edge.xMin, Edge.xMax, Edge.yMin, Edge.yMax, a1, a2, b1, b2,
      min_eq_left, min_eq_right, max_eq_left, max_eq_right, quarter, AARect.mk.injEq, Nat.cast_zero, Nat.cast_one]
    refine ⟨?_, ?_, ?_, ?_⟩ <;> ring

theorem centre_quarter (r : AARect K) (a b k i j : ℕ) :
    (⟨(quarter r a b).xMin + (2 * (i : ℕ) + 1) * ((quarter r a b).xMax - (quarter r a b).xMin) / 2 ^ (k + 1),
      (quarter r a b).yMin + (2 * (j : ℕ) + 1) * ((quarter r a b).yMax - (quarter r a b).yMin) / 2 ^ (k + 1)⟩ : Point K) =
    ⟨r.xMin + (2 * ((a * 2 ^ k + i : ℕ) : K) + 1) * (r.xMax - r.xMin) / 2 ^ (k + 1 + 1),
      r.yMin + (2 * ((b * 2 ^ k + j : ℕ) : K) + 1) * (r.yMax - r.yMin) / 2 ^ (k + 1 + 1)⟩ := by
  simp only [quarter, Point.mk.injEq]
  push_cast
  constructor <;> field_simp <;> ring

theorem poiCandidates_quarter {r : AARect K} {l : ℕ} {p : Point K} :
    p ∈ gridCentres r (l + 1) ↔ p = r.centroid ∨ ∃ a ≤ 1, ∃ b ≤ 1, p ∈ gridCentres (quarter r a b) l := by
  constructor
  · rintro ⟨k, hk, i, hi, j, hj, rfl⟩
    cases k with
    | zero =>
      left
      obtain rfl : i = 0 := by simpa using hi
      obtain rfl : j = 0 := by simpa using hj
      simp only [AARect.centroid, Point.mk.injEq]
      constructor <;> · push_cast; ring
    | succ k =>
      right
      have hp : 0 < 2 ^ k := by positivity
      rw [pow_succ] at hi hj
      refine ⟨i / 2 ^ k, ?_, j / 2 ^ k, ?_, k, by omega, i % 2 ^ k, Nat.mod_lt _ hp, j % 2 ^ k, Nat.mod_lt _ hp, ?_⟩
      · exact Nat.lt_succ_iff.1 ((Nat.div_lt_iff_lt_mul hp).2 (by omega))
      · exact Nat.lt_succ_iff.1 ((Nat.div_lt_iff_lt_mul hp).2 (by omega))
      · rw [centre_quarter]
        rw [Nat.div_add_mod', Nat.div_add_mod']
  · rintro (rfl | ⟨a, ha, b, hb, k, hk, i, hi, j, hj, rfl⟩)
    · refine ⟨0, by omega, 0, by simp, 0, by simp, ?_⟩
      simp only [AARect.centroid, Point.mk.injEq]
      constructor <;> · push_cast; ring
    · rw [centre_quarter]
      refine ⟨k + 1, by omega, _, ?_, _, ?_, rfl⟩
      · rw [pow_succ]
        have : a * 2 ^ k ≤ 1 * 2 ^ k := Nat.mul_le_mul_right _ ha
        omega
      · rw [pow_succ]
        have : b * 2 ^ k ≤ 1 * 2 ^ k := Nat.mul_le_mul_right _ hb
        omega

theorem inTree_iff {r : AARect K} (hv : r.xMin ≤ r.xMax ∧ r.yMin ≤ r.yMax) {l : ℕ} {p : Point K} :
    (∃ b, InTree r l b ∧ p = b.centroid) ↔ p ∈ gridCentres r l := by
  induction l generalizing r with
  | zero =>
    constructor
    · rintro ⟨b, hb, rfl⟩
      cases hb
      refine ⟨0, le_rfl, 0, by simp, 0, by simp, ?_⟩
      simp only [AARect.centroid, Point.mk.injEq]
      constructor <;> · push_cast; ring
    · rintro ⟨k, hk, i, hi, j, hj, rfl⟩
      obtain rfl : k = 0 := by omega
      obtain rfl : i = 0 := by simpa using hi
      obtain rfl : j = 0 := by simpa using hj
      refine ⟨r, .root _ _, ?_⟩
      simp only [AARect.centroid, Point.mk.injEq]
      constructor <;> · push_cast; ring
  | succ l ih =>
    rw [poiCandidates_quarter]
    obtain ⟨q0, q1, q2, q3⟩ := quadrants_quarter hv
    have hval := fun i => (quadrants_sub hv i).1
    constructor
    · rintro ⟨b, hb, rfl⟩
      cases hb with
      | root => exact .inl rfl
      | child i h =>
        right
        have h' := (ih (hval i)).1 ⟨b, h, rfl⟩
        fin_cases i
        · exact ⟨1, le_rfl, 1, le_rfl, by rw [← q0]; exact h'⟩
        · exact ⟨0, by omega, 1, le_rfl, by rw [← q1]; exact h'⟩
        · exact ⟨0, by omega, 0, by omega, by rw [← q2]; exact h'⟩
        · exact ⟨1, by omega, 0, by omega, by rw [← q3]; exact h'⟩
    · rintro (rfl | ⟨a, ha, b, hb, h⟩)
      · exact ⟨r, .root _ _, rfl⟩
      · have key : ∃ i, p ∈ gridCentres (r.quadrants i) l := by
          interval_cases a <;> interval_cases b
          · exact ⟨2, q2 ▸ h⟩
          · exact ⟨1, q1 ▸ h⟩
          · exact ⟨3, q3 ▸ h⟩
          · exact ⟨0, q0 ▸ h⟩
        obtain ⟨i, hi⟩ := key
        obtain ⟨b, hb, rfl⟩ := (ih (hval i)).2 hi
        exact ⟨b, .child i hb, rfl⟩

theorem poiCandidates_eq {s : SPoly K} (hw : s.WF) : poiCandidates s = gridCentres s.bbox.inflateToSquare 10 := by
  ext p
  exact inTree_iff (inflateToSquare_valid hw.bbox_valid)

end Jagua
