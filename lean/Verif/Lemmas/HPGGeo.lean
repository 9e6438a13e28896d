import Verif.Spec.HPG
import Verif.Spec.Distance
import Verif.Lemmas.PolyReject
import Verif.Props.Primitives

/-! # Distances to polygons and discs, and the cells of the proximity grid -/

set_option linter.unusedSectionVars false

namespace Jagua

variable {K : Type*} [Field K] [LinearOrder K] [IsStrictOrderedRing K] {n : ℕ}

theorem foldl_min_spec (l : List K) (d : K) : (l.foldl min d = d ∨ l.foldl min d ∈ l) ∧ l.foldl min d ≤ d ∧ ∀ x ∈ l, l.foldl min d ≤ x := by
  induction l generalizing d with
  | nil => simp
  | cons a l ih =>
    obtain ⟨h1, h2, h3⟩ := ih (min d a)
    rw [List.foldl_cons]
    refine ⟨?_, h2.trans (min_le_left _ _), ?_⟩
    · rcases h1 with h1 | h1
      · rw [h1]
        rcases min_choice d a with h | h <;> rw [h]
        · exact .inl rfl
        · exact .inr List.mem_cons_self
      · exact .inr (List.mem_cons_of_mem _ h1)
    · intro x hx
      rcases List.mem_cons.1 hx with rfl | hx
      · exact h2.trans (min_le_right _ _)
      · exact h3 x hx

theorem polyEdges_ne {pts : List (Point K)} (h : pts ≠ []) : polyEdges pts ≠ [] := by
  intro hn
  have := congrArg List.length hn
  unfold polyEdges at this
  simp at this
  exact h this

theorem SPoly.sqDistanceFromBorder_spec {f : Fpa K} {s : SPoly K} (hs : s.points ≠ []) (p : Point K) :
    ∃ d, s.sqDistanceFromBorder f p = some (if s.collidesPoint f p then .interior else .exterior, d) ∧ IsSqDist p (bdry s.points) d := by
  unfold SPoly.sqDistanceFromBorder
  have hne : s.edges ≠ [] := polyEdges_ne hs
  cases he : s.edges with
  | nil => exact absurd he hne
  | cons e es =>
    simp only [List.map_cons]
    refine ⟨_, rfl, ?_, ?_⟩
    · have hm : (es.map fun e => e.sqDistance p).foldl min (e.sqDistance p) ∈ (e :: es).map fun e => e.sqDistance p := by
        rcases (foldl_min_spec (es.map fun e => e.sqDistance p) (e.sqDistance p)).1 with h | h
        · rw [h]; exact List.mem_map.2 ⟨e, List.mem_cons_self, rfl⟩
        · rw [List.map_cons]; exact List.mem_cons_of_mem _ h
      obtain ⟨g, hg, hd⟩ := List.mem_map.1 hm
      rw [← he] at hg
      obtain ⟨-, -, ⟨q, hq, hqd⟩, -⟩ := C31_closest_point g p
      exact ⟨q, mem_bdry_iff.2 ⟨g, hg, hq⟩, by rw [hqd, hd]⟩
    · intro q hq
      obtain ⟨g, hg, hq⟩ := mem_bdry_iff.1 hq
      obtain ⟨-, -, -, h⟩ := C31_closest_point g p
      refine le_trans ?_ (h q hq)
      obtain ⟨-, h1, h2⟩ := foldl_min_spec (es.map fun e => e.sqDistance p) (e.sqDistance p)
      change g ∈ s.edges at hg
      rw [he] at hg
      rcases List.mem_cons.1 hg with rfl | hg
      · exact h1
      · exact h2 _ (List.mem_map.2 ⟨g, hg, rfl⟩)

theorem sqDist_comm (p q : Point K) : sqDist p q = sqDist q p := by unfold sqDist; ring

theorem sqDist_nonneg (p q : Point K) : 0 ≤ sqDist p q := by unfold sqDist; positivity

theorem sqDist_triangle {p q r : Point K} {a b : K} (ha : 0 ≤ a) (hb : 0 ≤ b) (h1 : sqDist p q ≤ a ^ 2) (h2 : sqDist q r ≤ b ^ 2) :
    sqDist p r ≤ (a + b) ^ 2 := by
  unfold sqDist at *
  set u := p.x - q.x
  set v := p.y - q.y
  set w := q.x - r.x
  set z := q.y - r.y
  have e1 : p.x - r.x = u + w := by simp only [u, w]; ring
  have e2 : p.y - r.y = v + z := by simp only [v, z]; ring
  rw [e1, e2]
  have hc : u * w + v * z ≤ a * b := by
    refine abs_le_of_sq_le_sq' ?_ (mul_nonneg ha hb) |>.2
    calc (u * w + v * z) ^ 2 ≤ (u ^ 2 + v ^ 2) * (w ^ 2 + z ^ 2) := by nlinarith [sq_nonneg (u * z - v * w)]
      _ ≤ a ^ 2 * b ^ 2 := mul_le_mul h1 h2 (by positivity) (by positivity)
      _ = (a * b) ^ 2 := by ring
  nlinarith

theorem discProx_eq (env : HEnv K) (p : Point K) (c : Circle K) :
    HPGCell.discProx env p c = if env.sqrt (sqDist p c.center) ≤ c.radius then 0 else env.sqrt (sqDist p c.center) - c.radius := by
  unfold HPGCell.discProx Circle.distanceFromBorder sqDist
  dsimp only
  split_ifs with h
  · rfl
  · simp only [fabs_eq, abs_of_pos (sub_pos.2 (not_le.1 h))]

theorem discProx_nonneg (env : HEnv K) (p : Point K) (c : Circle K) : 0 ≤ HPGCell.discProx env p c := by
  rw [discProx_eq]
  split_ifs with h
  · exact le_rfl
  · exact (sub_pos.2 (not_le.1 h)).le

/-- There is a point of the disc within the reported distance. -/
theorem discProx_upper {env : HEnv K} (hs : env.SqrtUpper) (p : Point K) {c : Circle K} (hc : 0 ≤ c.radius) :
    ∃ x ∈ c.pts, sqDist p x ≤ HPGCell.discProx env p c ^ 2 := by
  obtain ⟨h0, h1⟩ := hs _ (sqDist_nonneg p c.center)
  rw [discProx_eq]
  set d := env.sqrt (sqDist p c.center)
  split_ifs with h
  · refine ⟨p, ?_, by unfold sqDist; simp⟩
    refine h1.trans ?_
    exact pow_le_pow_left₀ h0 h 2
  · have hlt := not_le.1 h
    have hd : 0 < d := hc.trans_lt hlt
    refine ⟨⟨c.center.x + c.radius / d * (p.x - c.center.x), c.center.y + c.radius / d * (p.y - c.center.y)⟩, ?_, ?_⟩
    · show _ ≤ _
      have : (c.center.x + c.radius / d * (p.x - c.center.x) - c.center.x) ^ 2 +
          (c.center.y + c.radius / d * (p.y - c.center.y) - c.center.y) ^ 2 = (c.radius / d) ^ 2 * sqDist p c.center := by
        unfold sqDist; ring
      rw [this]
      calc (c.radius / d) ^ 2 * sqDist p c.center ≤ (c.radius / d) ^ 2 * d ^ 2 := mul_le_mul_of_nonneg_left h1 (sq_nonneg _)
        _ = c.radius ^ 2 := by field_simp
    · have : sqDist p ⟨c.center.x + c.radius / d * (p.x - c.center.x), c.center.y + c.radius / d * (p.y - c.center.y)⟩ =
          (1 - c.radius / d) ^ 2 * sqDist p c.center := by
        unfold sqDist; ring
      rw [this]
      calc (1 - c.radius / d) ^ 2 * sqDist p c.center ≤ (1 - c.radius / d) ^ 2 * d ^ 2 := mul_le_mul_of_nonneg_left h1 (sq_nonneg _)
        _ = (d - c.radius) ^ 2 := by field_simp

theorem staticProx_upper {env : HEnv K} (hs : env.SqrtUpper) (hf : env.f = Fpa.exact) {p : Point K} {h : Hazard K}
    (hw : h.shape.val.WF) : ∃ d, HPGCell.staticProx env p h = some d ∧ 0 ≤ d ∧
      ∃ x ∈ closedHaz h.entity.position h.shape.val.points, sqDist p x ≤ d ^ 2 := by
  obtain ⟨d, h1, ⟨q, hq, hqd⟩, h2⟩ := SPoly.sqDistanceFromBorder_spec (f := env.f) hw.nonempty p
  have hd0 : 0 ≤ d := by rw [← hqd]; positivity
  obtain ⟨k0, k1⟩ := hs d hd0
  unfold HPGCell.staticProx SPoly.distanceFromBorder
  rw [h1, Option.map_some, Option.map_some]
  refine ⟨_, rfl, ?_⟩
  dsimp only
  rw [hf]
  by_cases hpos : (if h.shape.val.collidesPoint Fpa.exact p = true then GeoPosition.interior else GeoPosition.exterior) = h.entity.position
  · rw [if_pos hpos]
    refine ⟨le_rfl, p, ?_, by unfold sqDist; simp⟩
    by_cases hb : p ∈ bdry h.shape.val.points
    · exact .inl hb
    · refine .inr ?_
      have hiff := SPoly.collidesPoint_iff hw hb
      rw [← hpos]
      split_ifs with hc
      · exact hiff.1 hc
      · exact fun hr => hr.elim hb fun hi => hc (hiff.2 hi)
  · rw [if_neg hpos]
    refine ⟨k0, q, .inl hq, ?_⟩
    show (p.x - q.x) ^ 2 + (p.y - q.y) ^ 2 ≤ _
    rw [hqd]
    exact k1

theorem AARect.centroid_dist {env : HEnv K} (hs : env.SqrtUpper) {r : AARect K} {p : Point K} (hp : p ∈ r.pts) :
    0 ≤ r.diameter env / 2 ∧ sqDist p r.centroid ≤ (r.diameter env / 2) ^ 2 := by
  obtain ⟨h0, h1⟩ := hs ((r.xMax - r.xMin) ^ 2 + (r.yMax - r.yMin) ^ 2) (by positivity)
  unfold AARect.diameter
  refine ⟨by positivity, ?_⟩
  obtain ⟨a, b, c, d⟩ := hp
  unfold sqDist AARect.centroid
  dsimp only
  rw [div_pow]
  have : (p.x - (r.xMin + r.xMax) / 2) ^ 2 + (p.y - (r.yMin + r.yMax) / 2) ^ 2 ≤ ((r.xMax - r.xMin) ^ 2 + (r.yMax - r.yMin) ^ 2) / 2 ^ 2 := by
    nlinarith [mul_nonneg (sub_nonneg.2 a) (sub_nonneg.2 b), mul_nonneg (sub_nonneg.2 c) (sub_nonneg.2 d)]
  refine this.trans ?_
  exact div_le_div_of_nonneg_right h1 (by positivity)

end Jagua
