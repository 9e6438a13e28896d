import Verif.Lemmas.SimpleArea

/-!
# Triangles next to simple polygons
-/

set_option linter.unusedSectionVars false

namespace Jagua

variable {K : Type*} [Field K] [LinearOrder K] [IsStrictOrderedRing K]

/-! ### Paths and half planes -/

theorem rho_path {pts : List (Point K)} {x y : Point K} (h : ∀ w ∈ segPts x y, w ∉ bdry pts) : rho pts x = rho pts y := by
  apply zmod2_eq
  rw [rho_add]
  apply List.sum_eq_zero
  intro t ht
  obtain ⟨s, hs, rfl⟩ := List.mem_map.1 ht
  exact disc_avoid fun w hw hw' => h w hw' ⟨s, hs, hw⟩

theorem hullCross_lerp {P Q u v w : Point K} {t : K} (hx : w.x = u.x + t * (v.x - u.x)) (hy : w.y = u.y + t * (v.y - u.y)) :
    hullCross P Q w = hullCross P Q u + t * (hullCross P Q v - hullCross P Q u) := by
  unfold hullCross
  rw [hx, hy]
  ring

theorem hullCross_nonneg_seg {P Q u v w : Point K} (hu : 0 ≤ hullCross P Q u) (hv : 0 ≤ hullCross P Q v) (hw : w ∈ segPts u v) : 0 ≤ hullCross P Q w := by
  obtain ⟨t, t0, t1, hx, hy⟩ := hw
  rw [hullCross_lerp hx hy]
  nlinarith [mul_nonneg t0 hv, mul_nonneg (sub_nonneg.2 t1) hu]

theorem hullCross_bdry {P Q w : Point K} {pts : List (Point K)} (h : ∀ v ∈ pts, 0 ≤ hullCross P Q v) (hw : w ∈ bdry pts) : 0 ≤ hullCross P Q w := by
  obtain ⟨s, hs, hw⟩ := hw
  obtain ⟨h1, h2⟩ := sides_mem hs
  exact hullCross_nonneg_seg (h _ h1) (h _ h2) hw

/-- Outside a half plane that contains all vertices nothing is inside. -/
theorem rho_outside {P Q x : Point K} {pts : List (Point K)} (h : ∀ v ∈ pts, 0 ≤ hullCross P Q v) (hx : hullCross P Q x < 0) : rho pts x = 0 := by
  rcases zmod2_cases (rho pts x) with h0 | h0
  · exact h0
  · exfalso
    rw [rho_odd, ← dirCount_right] at h0
    have hne : P ≠ Q := by
      rintro rfl
      unfold hullCross at hx
      simp at hx
    have hnb : x ∉ bdry pts := fun h' => absurd (hullCross_bdry h h') (not_le.2 hx)
    rw [dirCount_const (d := ⟨1, 0⟩) (e := ⟨Q.y - P.y, P.x - Q.x⟩) (by simp) ?_ hnb] at h0
    · have : dirCount ⟨Q.y - P.y, P.x - Q.x⟩ pts x = 0 := by
        classical
        unfold dirCount
        rw [List.countP_eq_zero]
        intro s hs hc
        obtain ⟨-, c, hc, -, hd⟩ := of_decide_eq_true hc
        have h1 := hullCross_bdry h ⟨s, hs, hc⟩
        have e : hullCross P Q c = hullCross P Q x - ((Q.y - P.y) * (c.x - x.x) + (P.x - Q.x) * (c.y - x.y)) := by unfold hullCross; ring
        simp only at hd
        linarith
      rw [this] at h0
      simp at h0
    · by_contra hcon
      push Not at hcon
      simp only at hcon
      exact hne (Point.ext (by linarith [hcon.2]) (by linarith [hcon.1]))

/-! ### Sides on the hull -/

namespace SimplePoly

variable {pts : List (Point K)}

/-- If a simple polygon lies on one side of the line through a side, that is where its inside is. -/
theorem leftIn_support (h : SimplePoly pts) {s : Point K × Point K} (hs : s ∈ sides pts) {σ : K} (hσ : σ = 1 ∨ σ = -1)
    (hv : ∀ v ∈ pts, 0 ≤ σ * hullCross s.1 s.2 v) : leftIn pts s = ind (σ = 1) := by
  have hne := side_ne (by have := h.1; omega) h.2.1 hs
  have hpos : 0 < (s.2.x - s.1.x) ^ 2 + (s.2.y - s.1.y) ^ 2 := by
    rcases ne_or_eq s.1.x s.2.x with h' | h'
    · have := sq_pos_of_ne_zero (sub_ne_zero.2 h'.symm); have := sq_nonneg (s.2.y - s.1.y); linarith
    · have h'' : s.1.y ≠ s.2.y := fun h'' => hne (Point.ext h' h'')
      have := sq_pos_of_ne_zero (sub_ne_zero.2 h''.symm); have := sq_nonneg (s.2.x - s.1.x); linarith
  set m := midpoint s.1 s.2 with hm
  set q : Point K := ⟨m.x + σ * (s.2.y - s.1.y), m.y - σ * (s.2.x - s.1.x)⟩ with hq
  have hb := midpoint_between s.1 s.2
  rw [← hm] at hb
  have m0 : hullCross s.1 s.2 m = 0 := hullCross_seg hb.seg
  have q0 : hullCross s.1 s.2 q = - (σ * ((s.2.x - s.1.x) ^ 2 + (s.2.y - s.1.y) ^ 2)) := by
    have : hullCross s.1 s.2 q = hullCross s.1 s.2 m - σ * ((s.2.x - s.1.x) ^ 2 + (s.2.y - s.1.y) ^ 2) := by
      rw [hq]; unfold hullCross; simp only; ring
    rw [this, m0, zero_sub]
  have hσ2 : σ * σ = 1 := by rcases hσ with rfl | rfl <;> ring
  have hσ0 : σ ≠ 0 := by rcases hσ with rfl | rfl <;> norm_num
  have qne : hullCross s.1 s.2 q ≠ 0 := by
    rw [q0]
    exact neg_ne_zero.2 (mul_ne_zero hσ0 hpos.ne')
  -- other sides avoid the way from `q` to `m`
  have havoid : ∀ r ∈ sides pts, r ≠ s → ∀ w ∈ segPts r.1 r.2, w ∉ segPts q m := by
    intro r hr hrs w hw hw'
    obtain ⟨h1, h2⟩ := sides_mem hr
    have k1 : 0 ≤ σ * hullCross s.1 s.2 w := by
      obtain ⟨t, t0, t1, wx, wy⟩ := hw
      rw [hullCross_lerp wx wy]
      nlinarith [mul_nonneg t0 (hv _ h2), mul_nonneg (sub_nonneg.2 t1) (hv _ h1)]
    have hw0 := hw'
    obtain ⟨t, t0, t1, wx, wy⟩ := hw'
    rw [hullCross_lerp wx wy, m0, q0] at k1
    have k2 : σ * (-(σ * ((s.2.x - s.1.x) ^ 2 + (s.2.y - s.1.y) ^ 2)) + t * (0 - -(σ * ((s.2.x - s.1.x) ^ 2 + (s.2.y - s.1.y) ^ 2)))) =
        (σ * σ) * ((t - 1) * ((s.2.x - s.1.x) ^ 2 + (s.2.y - s.1.y) ^ 2)) := by ring
    rw [k2, hσ2, one_mul] at k1
    have : t = 1 := by
      by_contra hne
      have : t - 1 < 0 := by have := lt_of_le_of_ne t1 hne; linarith
      exact absurd k1 (not_le.2 (mul_neg_of_neg_of_pos this hpos))
    have hwm : w = m := by
      rw [this] at wx wy
      exact Point.ext (by rw [wx]; ring) (by rw [wy]; ring)
    rw [hwm] at hw
    rcases h.2.2 s hs r hr (Ne.symm hrs) m hb.seg hw with ⟨e, -⟩ | ⟨-, e⟩
    · exact hb.ne_stop hne e
    · exact hb.ne_start hne e
  have key := h.rho_near hs hb qne havoid
  rcases hσ with rfl | rfl
  · have h1 : rho pts q = 0 := rho_outside (P := s.1) (Q := s.2) (fun v hv' => by have := hv v hv'; linarith) (by rw [q0]; linarith)
    rw [h1, ind_pos (show hullCross s.1 s.2 q < 0 by rw [q0]; linarith)] at key
    rw [ind_pos rfl]
    revert key
    generalize leftIn pts s = x
    revert x
    decide
  · have h1 : rho pts q = 0 := rho_outside (P := s.2) (Q := s.1)
      (fun v hv' => by have := hv v hv'; have e : hullCross s.2 s.1 v = - hullCross s.1 s.2 v := by unfold hullCross; ring
                       linarith)
      (by have e : hullCross s.2 s.1 q = - hullCross s.1 s.2 q := by unfold hullCross; ring
          rw [e, q0]; linarith)
    rw [h1, ind_zero (show ¬ hullCross s.1 s.2 q < 0 by rw [q0]; push Not; linarith), add_zero] at key
    rw [ind_zero (by norm_num), ← key]

end SimplePoly

/-! ### Triangles -/

/-- The closed triangle, for corners in counterclockwise order. -/
def InTri (A B C w : Point K) : Prop := 0 ≤ hullCross B C w ∧ 0 ≤ hullCross C A w ∧ 0 ≤ hullCross A B w

/-- The open triangle. -/
def InTriO (A B C w : Point K) : Prop := 0 < hullCross B C w ∧ 0 < hullCross C A w ∧ 0 < hullCross A B w

theorem tri_sum (A B C w : Point K) : hullCross B C w + hullCross C A w + hullCross A B w = hullCross A B C := by unfold hullCross; ring

/-- Points of a triangle on the line through two corners. -/
theorem tri_edge {A B C w : Point K} (hD : 0 < hullCross A B C) (h1 : 0 ≤ hullCross B C w) (h2 : 0 ≤ hullCross C A w) (h3 : hullCross A B w = 0) :
    w ∈ segPts A B := by
  have hs := tri_sum A B C w
  rw [h3, add_zero] at hs
  refine ⟨hullCross C A w / hullCross A B C, div_nonneg h2 hD.le, by rw [div_le_one hD]; linarith, ?_, ?_⟩
  · have : w.x * hullCross A B C = (A.x + hullCross C A w / hullCross A B C * (B.x - A.x)) * hullCross A B C := by
      have e : hullCross C A w / hullCross A B C * hullCross A B C = hullCross C A w := div_mul_cancel₀ _ hD.ne'
      have : (A.x + hullCross C A w / hullCross A B C * (B.x - A.x)) * hullCross A B C = A.x * hullCross A B C + hullCross C A w * (B.x - A.x) := by
        linear_combination (B.x - A.x) * e
      rw [this]
      have k : hullCross A B w * (C.x - A.x) = 0 := by rw [h3, zero_mul]
      unfold hullCross at k ⊢
      linear_combination k
    exact mul_right_cancel₀ hD.ne' this
  · have : w.y * hullCross A B C = (A.y + hullCross C A w / hullCross A B C * (B.y - A.y)) * hullCross A B C := by
      have e : hullCross C A w / hullCross A B C * hullCross A B C = hullCross C A w := div_mul_cancel₀ _ hD.ne'
      have : (A.y + hullCross C A w / hullCross A B C * (B.y - A.y)) * hullCross A B C = A.y * hullCross A B C + hullCross C A w * (B.y - A.y) := by
        linear_combination (B.y - A.y) * e
      rw [this]
      have k : hullCross A B w * (C.y - A.y) = 0 := by rw [h3, zero_mul]
      unfold hullCross at k ⊢
      linear_combination k
    exact mul_right_cancel₀ hD.ne' this

theorem tri_rot {A B C : Point K} (hD : 0 < hullCross A B C) : 0 < hullCross B C A := by rwa [← hullCross_rot]

theorem tri_edge_mem {A B C w : Point K} (hD : 0 < hullCross A B C) (h : w ∈ segPts A B) : InTri A B C w := by
  have e1 : 0 ≤ hullCross B C A := (tri_rot hD).le
  have e2 : 0 ≤ hullCross C A B := (tri_rot (tri_rot hD)).le
  exact ⟨hullCross_nonneg_seg e1 (by rw [hullCross_self]) h, hullCross_nonneg_seg (by rw [hullCross_self']) e2 h, (hullCross_seg h).ge⟩

theorem InTri.rot {A B C w : Point K} (h : InTri A B C w) : InTri B C A w := ⟨h.2.1, h.2.2, h.1⟩

/-- The centroid. -/
def centroid (A B C : Point K) : Point K := ⟨(A.x + B.x + C.x) / 3, (A.y + B.y + C.y) / 3⟩

theorem centroid_cross (A B C : Point K) : hullCross A B (centroid A B C) = hullCross A B C / 3 := by unfold hullCross centroid; simp only; ring

theorem centroid_rot (A B C : Point K) : centroid A B C = centroid B C A := by
  unfold centroid
  ext <;> simp only <;> ring

theorem centroid_in {A B C : Point K} (hD : 0 < hullCross A B C) : InTriO A B C (centroid A B C) := by
  refine ⟨?_, ?_, ?_⟩
  · rw [centroid_rot, centroid_cross]; exact div_pos (tri_rot hD) (by norm_num)
  · rw [centroid_rot, centroid_rot, centroid_cross]; exact div_pos (tri_rot (tri_rot hD)) (by norm_num)
  · rw [centroid_cross]; exact div_pos hD (by norm_num)

/-- From a point with a non-negative value towards one with a positive value. -/
theorem lerp_pos {a b t : K} (ha : 0 ≤ a) (hb : 0 < b) (t0 : 0 < t) (t1 : t ≤ 1) : 0 < a + t * (b - a) := by
  nlinarith [mul_pos t0 hb, mul_nonneg (sub_nonneg.2 t1) ha]

theorem tri_to_centroid {A B C x w : Point K} (hD : 0 < hullCross A B C) (hx : InTri A B C x) (hw : w ∈ segPts x (centroid A B C)) :
    w = x ∨ InTriO A B C w := by
  obtain ⟨t, t0, t1, wx, wy⟩ := hw
  rcases eq_or_lt_of_le t0 with rfl | t0
  · left
    exact Point.ext (by rw [wx]; ring) (by rw [wy]; ring)
  · right
    obtain ⟨g1, g2, g3⟩ := centroid_in hD
    refine ⟨?_, ?_, ?_⟩
    · rw [hullCross_lerp wx wy]; exact lerp_pos hx.1 g1 t0 t1
    · rw [hullCross_lerp wx wy]; exact lerp_pos hx.2.1 g2 t0 t1
    · rw [hullCross_lerp wx wy]; exact lerp_pos hx.2.2 g3 t0 t1

theorem tri_path {A B C x : Point K} {pts : List (Point K)} (hD : 0 < hullCross A B C) (hO : ∀ w, InTriO A B C w → w ∉ bdry pts) (hx : InTri A B C x)
    (hxb : x ∉ bdry pts) : rho pts x = rho pts (centroid A B C) := by
  apply rho_path
  intro w hw
  rcases tri_to_centroid hD hx hw with rfl | h
  · exact hxb
  · exact hO w h

theorem rho_tri {A B C x : Point K} (hD : 0 < hullCross A B C) (hx : ¬ InTri A B C x) : rho [A, B, C] x = 0 := by
  have e1 : 0 ≤ hullCross B C A := (tri_rot hD).le
  have e2 : 0 ≤ hullCross C A B := (tri_rot (tri_rot hD)).le
  unfold InTri at hx
  by_cases h1 : 0 ≤ hullCross B C x
  · by_cases h2 : 0 ≤ hullCross C A x
    · have h3 : hullCross A B x < 0 := by
        by_contra h3
        exact hx ⟨h1, h2, not_lt.1 h3⟩
      refine rho_outside (P := A) (Q := B) ?_ h3
      intro v hv
      simp only [List.mem_cons, List.not_mem_nil, or_false] at hv
      rcases hv with rfl | rfl | rfl
      · rw [hullCross_self]
      · rw [hullCross_self']
      · exact hD.le
    · refine rho_outside (P := C) (Q := A) ?_ (not_le.1 h2)
      intro v hv
      simp only [List.mem_cons, List.not_mem_nil, or_false] at hv
      rcases hv with rfl | rfl | rfl
      · rw [hullCross_self']
      · exact e2
      · rw [hullCross_self]
  · refine rho_outside (P := B) (Q := C) ?_ (not_le.1 h1)
    intro v hv
    simp only [List.mem_cons, List.not_mem_nil, or_false] at hv
    rcases hv with rfl | rfl | rfl
    · exact e1
    · rw [hullCross_self]
    · rw [hullCross_self']

/-- Adding a triangle to a polygon. -/
theorem region_fill {A B C : Point K} {P Q : List (Point K)} (hD : 0 < hullCross A B C) (hrho : ∀ x, rho Q x = rho P x + rho [A, B, C] x)
    (hb : ∀ x ∈ bdry P, x ∈ bdry Q ∨ InTri A B C x) (hO : ∀ w, InTriO A B C w → w ∉ bdry Q) (hg : rho Q (centroid A B C) = 1) : region P ⊆ region Q := by
  intro x hx
  by_cases hxb : x ∈ bdry Q
  · exact .inl hxb
  · right
    refine ⟨hxb, ?_⟩
    rw [← rho_odd]
    by_cases ht : InTri A B C x
    · rw [tri_path hD hO ht hxb, hg]
    · rw [hrho, rho_tri hD ht, add_zero]
      rcases hx with hx | hx
      · rcases hb x hx with h | h
        · exact absurd h hxb
        · exact absurd h ht
      · exact (rho_odd P x).2 hx.2

/-! ### Leaving a triangle -/

theorem exit_two {a0 b0 a1 b1 : K} (ha : 0 < a0) (hb : 0 < b0) (h : a1 ≤ 0 ∨ b1 ≤ 0) :
    ∃ t : K, 0 ≤ t ∧ t ≤ 1 ∧ ((a0 + t * (a1 - a0) = 0 ∧ 0 ≤ b0 + t * (b1 - b0)) ∨ (b0 + t * (b1 - b0) = 0 ∧ 0 ≤ a0 + t * (a1 - a0))) := by
  -- one value first, then the other
  have aux : ∀ a0 b0 a1 b1 : K, 0 < a0 → 0 < b0 → a1 ≤ 0 →
      ∃ t : K, 0 ≤ t ∧ t ≤ 1 ∧ ((a0 + t * (a1 - a0) = 0 ∧ 0 ≤ b0 + t * (b1 - b0)) ∨ (b0 + t * (b1 - b0) = 0 ∧ 0 ≤ a0 + t * (a1 - a0))) := by
    intro a0 b0 a1 b1 ha hb h1
    have hp : 0 < a0 - a1 := by linarith
    set t := a0 / (a0 - a1) with ht
    have e : t * (a0 - a1) = a0 := div_mul_cancel₀ _ hp.ne'
    have t0 : 0 ≤ t := div_nonneg ha.le hp.le
    have t1 : t ≤ 1 := by rw [ht, div_le_one hp]; linarith
    by_cases hk : 0 ≤ b0 + t * (b1 - b0)
    · exact ⟨t, t0, t1, .inl ⟨by linarith, hk⟩⟩
    · push Not at hk
      have hq : 0 < b0 - b1 := by
        by_contra hq
        nlinarith [mul_nonneg t0 (sub_nonneg.2 (not_lt.1 hq))]
      set u := b0 / (b0 - b1) with hu
      have e' : u * (b0 - b1) = b0 := div_mul_cancel₀ _ hq.ne'
      have u0 : 0 ≤ u := div_nonneg hb.le hq.le
      have hut : u ≤ t := by
        by_contra hut
        nlinarith [mul_pos (sub_pos.2 (not_le.1 hut)) hq]
      refine ⟨u, u0, hut.trans t1, .inr ⟨by linarith, ?_⟩⟩
      nlinarith [mul_nonneg (sub_nonneg.2 hut) hp.le]
  rcases h with h | h
  · exact aux a0 b0 a1 b1 ha hb h
  · obtain ⟨t, t0, t1, h⟩ := aux b0 a0 b1 a1 hb ha h
    exact ⟨t, t0, t1, h.symm⟩

/-- Where a segment that starts in the triangle leaves it; the edge `A B` belongs to the triangle, the other two do not. -/
theorem exit_tri {A B C x u : Point K} (hD : 0 < hullCross A B C) (h1 : 0 < hullCross B C x) (h2 : 0 < hullCross C A x) (h3 : 0 ≤ hullCross A B x)
    (hu : ¬ (0 < hullCross B C u ∧ 0 < hullCross C A u ∧ 0 ≤ hullCross A B u)) :
    ∃ y ∈ segPts x u, y ∈ segPts B C ∨ y ∈ segPts C A ∨ (y ∈ segPts A B ∧ hullCross A B u < 0) := by
  -- from a place where the third value is still non-negative
  have aux : ∀ v ∈ segPts x u, 0 ≤ hullCross A B v → (hullCross B C v ≤ 0 ∨ hullCross C A v ≤ 0) →
      ∃ y ∈ segPts x u, y ∈ segPts B C ∨ y ∈ segPts C A ∨ (y ∈ segPts A B ∧ hullCross A B u < 0) := by
    intro v hv hv3 hv12
    obtain ⟨t, t0, t1, ht⟩ := exit_two h1 h2 hv12
    set y : Point K := ⟨x.x + t * (v.x - x.x), x.y + t * (v.y - x.y)⟩ with hy
    have hyv : y ∈ segPts x v := ⟨t, t0, t1, rfl, rfl⟩
    have hyu : y ∈ segPts x u := segPts_subset (segPts_start x u) hv hyv
    have y3 : 0 ≤ hullCross A B y := hullCross_nonneg_seg h3 hv3 hyv
    have e1 : hullCross B C y = hullCross B C x + t * (hullCross B C v - hullCross B C x) := hullCross_lerp rfl rfl
    have e2 : hullCross C A y = hullCross C A x + t * (hullCross C A v - hullCross C A x) := hullCross_lerp rfl rfl
    rw [← e1, ← e2] at ht
    refine ⟨y, hyu, ?_⟩
    rcases ht with ⟨k1, k2⟩ | ⟨k1, k2⟩
    · exact .inl (tri_edge (tri_rot hD) k2 y3 k1)
    · exact .inr (.inl (tri_edge (tri_rot (tri_rot hD)) y3 k2 k1))
  by_cases hu3 : 0 ≤ hullCross A B u
  · apply aux u (segPts_stop x u) hu3
    by_contra hcon
    push Not at hcon
    exact hu ⟨hcon.1, hcon.2, hu3⟩
  · push Not at hu3
    have hp : 0 < hullCross A B x - hullCross A B u := by linarith
    set t := hullCross A B x / (hullCross A B x - hullCross A B u) with ht
    have e : t * (hullCross A B x - hullCross A B u) = hullCross A B x := div_mul_cancel₀ _ hp.ne'
    set v : Point K := ⟨x.x + t * (u.x - x.x), x.y + t * (u.y - x.y)⟩ with hv
    have hvm : v ∈ segPts x u := ⟨t, div_nonneg h3 hp.le, by rw [ht, div_le_one hp]; linarith, rfl, rfl⟩
    have v3 : hullCross A B v = 0 := by
      rw [hullCross_lerp (P := A) (Q := B) (u := x) (v := u) (w := v) (t := t) rfl rfl]
      linarith
    by_cases hv12 : hullCross B C v ≤ 0 ∨ hullCross C A v ≤ 0
    · exact aux v hvm v3.ge hv12
    · push Not at hv12
      exact ⟨v, hvm, .inr (.inr ⟨tri_edge hD hv12.1.le hv12.2.le v3, hu3⟩)⟩

end Jagua
