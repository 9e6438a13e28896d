import Verif.Lemmas.SimpleStep

/-!
# A test for simple polygons

Used in examples. Sufficient, not necessary.
-/

set_option linter.unusedSectionVars false

namespace Jagua

variable {K : Type*} [Field K] [LinearOrder K] [IsStrictOrderedRing K]

/-- The second segment is strictly on one side of the line through the first. -/
def apart (s t : Point K × Point K) : Bool :=
  (0 < hullCross s.1 s.2 t.1 && 0 < hullCross s.1 s.2 t.2) || (hullCross s.1 s.2 t.1 < 0 && hullCross s.1 s.2 t.2 < 0)

/-- The second segment starts where the first ends and does not fold back. -/
def follows (s t : Point K × Point K) : Bool :=
  s.2 = t.1 && (hullCross s.1 s.2 t.2 ≠ 0 || 0 < (s.2.x - s.1.x) * (t.2.x - t.1.x) + (s.2.y - s.1.y) * (t.2.y - t.1.y))

/-- The first segment is below the second. -/
def below (s t : Point K × Point K) : Bool :=
  s.1.y < t.1.y && s.1.y < t.2.y && s.2.y < t.1.y && s.2.y < t.2.y

def simpleCheck (pts : List (Point K)) : Bool :=
  3 ≤ pts.length && pts.Nodup && (sides pts).all fun s => (sides pts).all fun t => s = t || apart s t || apart t s || follows s t || follows t s ||
    below s t || below t s

theorem apart_spec {s t : Point K × Point K} (h : apart s t = true) {w : Point K} (h1 : w ∈ segPts s.1 s.2) (h2 : w ∈ segPts t.1 t.2) : False := by
  have e := hullCross_seg h1
  obtain ⟨u, u0, u1, wx, wy⟩ := h2
  rw [hullCross_lerp wx wy] at e
  unfold apart at h
  simp only [Bool.or_eq_true, Bool.and_eq_true, decide_eq_true_eq] at h
  rcases h with ⟨a, b⟩ | ⟨a, b⟩
  · nlinarith [mul_nonneg u0 b.le, mul_nonneg (sub_nonneg.2 u1) a.le, mul_pos a b]
  · nlinarith [mul_nonneg u0 (neg_pos.2 b).le, mul_nonneg (sub_nonneg.2 u1) (neg_pos.2 a).le, mul_pos (neg_pos.2 a) (neg_pos.2 b)]

theorem follows_spec {s t : Point K × Point K} (h : follows s t = true) {w : Point K} (h1 : w ∈ segPts s.1 s.2) (h2 : w ∈ segPts t.1 t.2) :
    w = s.2 ∧ w = t.1 := by
  unfold follows at h
  simp only [Bool.or_eq_true, Bool.and_eq_true, decide_eq_true_eq] at h
  obtain ⟨hst, h⟩ := h
  have e := hullCross_seg h1
  obtain ⟨u, u0, u1, wx, wy⟩ := h2
  suffices u = 0 ∨ w = s.2 by
    rcases this with k | k
    · have : w = t.1 := Point.ext (by rw [wx, k]; ring) (by rw [wy, k]; ring)
      exact ⟨this.trans hst.symm, this⟩
    · exact ⟨k, k.trans hst⟩
  rcases h with h | h
  · left
    rw [hullCross_lerp wx wy, ← hst, hullCross_self', sub_zero, zero_add] at e
    exact (mul_eq_zero.1 e).resolve_right h
  · rw [segPts_comm] at h1
    obtain ⟨v, v0, v1, vx, vy⟩ := h1
    rw [← hst] at wx wy h
    right
    have k1 : u * ((s.2.x - s.1.x) * (t.2.x - s.2.x) + (s.2.y - s.1.y) * (t.2.y - s.2.y)) = - (v * ((s.2.x - s.1.x) ^ 2 + (s.2.y - s.1.y) ^ 2)) := by
      have ex : u * (t.2.x - s.2.x) = v * (s.1.x - s.2.x) := by linarith
      have ey : u * (t.2.y - s.2.y) = v * (s.1.y - s.2.y) := by linarith
      linear_combination (s.2.x - s.1.x) * ex + (s.2.y - s.1.y) * ey
    have k2 : 0 ≤ v * ((s.2.x - s.1.x) ^ 2 + (s.2.y - s.1.y) ^ 2) := mul_nonneg v0 (by positivity)
    have k3 : u = 0 := by
      rcases eq_or_lt_of_le u0 with k | k
      · exact k.symm
      · have := mul_pos k h
        linarith
    exact Point.ext (by rw [wx, k3]; ring) (by rw [wy, k3]; ring)

theorem below_spec {s t : Point K × Point K} (h : below s t = true) {w : Point K} (h1 : w ∈ segPts s.1 s.2) (h2 : w ∈ segPts t.1 t.2) : False := by
  unfold below at h
  simp only [Bool.and_eq_true, decide_eq_true_eq] at h
  obtain ⟨⟨⟨a, b⟩, c⟩, d⟩ := h
  have k1 : w.y ≤ max s.1.y s.2.y := by
    obtain ⟨u, u0, u1, -, wy⟩ := h1
    have := mul_le_mul_of_nonneg_left (le_max_left s.1.y s.2.y) (sub_nonneg.2 u1)
    have := mul_le_mul_of_nonneg_left (le_max_right s.1.y s.2.y) u0
    rw [wy]; linarith
  have k2 : min t.1.y t.2.y ≤ w.y := by
    obtain ⟨u, u0, u1, -, wy⟩ := h2
    have := mul_le_mul_of_nonneg_left (min_le_left t.1.y t.2.y) (sub_nonneg.2 u1)
    have := mul_le_mul_of_nonneg_left (min_le_right t.1.y t.2.y) u0
    rw [wy]; linarith
  have : max s.1.y s.2.y < min t.1.y t.2.y := max_lt (lt_min a b) (lt_min c d)
  linarith

theorem simple_of_check {pts : List (Point K)} (h : simpleCheck pts = true) : SimplePoly pts := by
  unfold simpleCheck at h
  simp only [Bool.and_eq_true, decide_eq_true_eq, List.all_eq_true, Bool.or_eq_true] at h
  obtain ⟨⟨h1, h2⟩, h3⟩ := h
  refine ⟨h1, h2, ?_⟩
  intro s hs t ht hst w hw hw'
  rcases h3 s hs t ht with (((((k | k) | k) | k) | k) | k) | k
  · exact absurd k hst
  · exact (apart_spec k hw hw').elim
  · exact (apart_spec k hw' hw).elim
  · exact .inl (follows_spec k hw hw')
  · exact .inr (follows_spec k hw' hw)
  · exact (below_spec k hw hw').elim
  · exact (below_spec k hw' hw).elim

end Jagua
