import Verif.Lemmas.Distances
import Verif.Spec.FailFastExamples
import Verif.Spec.HPGExamples

/-! # C62: distances between primitives -/

set_option linter.unusedSectionVars false

namespace Jagua

variable {K : Type*} [Field K] [LinearOrder K] [IsStrictOrderedRing K]

/-! ## Smallest distances -/

/-- C62: the distance of a point to an edge, a rectangle or a disc is the smallest distance to a point of it, and the squared
distance is its square. -/
theorem C62_point_distances {env : HEnv K} (hs : env.SqrtExact) (p : Point K) :
    (∀ e : Edge K, IsDist {p} e.pts (e.distance env p) ∧ e.sqDistance p = e.distance env p ^ 2) ∧
    (∀ r : AARect K, r.Valid → IsDist {p} r.pts (r.distance env p) ∧ r.sqDistance p = r.distance env p ^ 2) ∧
    (∀ c : Circle K, 0 ≤ c.radius → IsDist {p} c.pts (c.distance env p) ∧ c.sqDistance env p = c.distance env p ^ 2) := by
  refine ⟨fun e => ?_, fun r hv => ?_, fun c hr => ⟨?_, rfl⟩⟩
  · have h := (C31_closest_point e p).2.2
    exact ⟨hs.isDist h, (hs _ h.nonneg).2.symm⟩
  · have h := C32_rect_sq_distance r hv p
    exact ⟨hs.isDist h, (hs _ h.nonneg).2.symm⟩
  · obtain ⟨s0, s1⟩ := hs _ (sqDist_nonneg p c.center)
    have h : IsDist {c.center} {p} (env.sqrt (sqDist p c.center)) := by
      rw [isDist_point_iff]
      refine ⟨s0, ⟨p, rfl, by rw [s1]; unfold sqDist; ring⟩, ?_⟩
      rintro q hq
      rw [Set.mem_singleton_iff] at hq
      subst hq
      rw [s1]
      exact le_of_eq (by unfold sqDist; ring)
    have hd := disc_dist hs hr h
    have e : c.distance env p = if env.sqrt (sqDist p c.center) < c.radius then 0 else env.sqrt (sqDist p c.center) - c.radius := by
      unfold Circle.distance
      dsimp only
      have hiff : (p.x - c.center.x) ^ 2 + (p.y - c.center.y) ^ 2 < c.radius ^ 2 ↔ env.sqrt (sqDist p c.center) < c.radius := by
        rw [← sq_lt_sq₀ s0 hr, s1]
        rfl
      by_cases h1 : env.sqrt (sqDist p c.center) < c.radius
      · rw [if_pos (hiff.2 h1), if_pos h1]
      · rw [if_neg (fun h => h1 (hiff.1 h)), if_neg h1]
        rfl
    rw [e]
    exact hd.symm

/-- C62: the distance of a point to a polygon is the smallest distance to a point of the polygon; it is always found. -/
theorem C62_polygon_distance {env : HEnv K} (hs : env.SqrtExact) (hf : env.f = Fpa.exact) {s : SPoly K} (hw : s.WF) (p : Point K) :
    ∃ d, s.distance env p = some d ∧ s.sqDistance env.f p = some (d ^ 2) ∧ IsDist {p} (region s.points) d := by
  obtain ⟨d, h1, h2⟩ := SPoly.sqDistance_spec hw p
  refine ⟨env.sqrt d, ?_, ?_, hs.isDist h2⟩
  · unfold SPoly.distance
    rw [hf, h1, Option.map_some]
  · rw [hf, h1, (hs d h2.nonneg).2]

/-- C62: the distance of two discs is the smallest distance between their points. -/
theorem C62_circle_distance {env : HEnv K} (hs : env.SqrtExact) {a b : Circle K} (ha : 0 ≤ a.radius) (hb : 0 ≤ b.radius) :
    IsDist a.pts b.pts (a.distanceToCircle env b) ∧ a.sqDistanceToCircle env b = a.distanceToCircle env b ^ 2 ∧
    (a.distanceToCircle env b = 0 ↔ a.collidesCircle b = true) := by
  have hd : IsDist a.pts b.pts (a.distanceToCircle env b) := by
    have h1 := ((C62_point_distances hs a.center).2.2 b hb).1
    have h2 := disc_dist hs ha h1
    convert h2 using 1
    obtain ⟨s0, s1⟩ := hs _ (sqDist_nonneg a.center b.center)
    unfold Circle.distanceToCircle Circle.borderToCircle Circle.distance
    dsimp only
    rw [hs.sq (add_nonneg ha hb), show a.center.sqDistance b.center = sqDist a.center b.center from rfl,
      show (a.center.x - b.center.x) ^ 2 + (a.center.y - b.center.y) ^ 2 = sqDist a.center b.center from rfl]
    have i1 : sqDist a.center b.center < (a.radius + b.radius) ^ 2 ↔ env.sqrt (sqDist a.center b.center) < a.radius + b.radius := by
      rw [← sq_lt_sq₀ s0 (add_nonneg ha hb), s1]
    have i2 : sqDist a.center b.center < b.radius ^ 2 ↔ env.sqrt (sqDist a.center b.center) < b.radius := by
      rw [← sq_lt_sq₀ s0 hb, s1]
    simp only [i1, i2]
    generalize env.sqrt (sqDist a.center b.center) = x
    by_cases k1 : x < b.radius
    · rw [if_pos (by linarith), if_pos k1]
      dsimp only
      split_ifs with h
      · rfl
      · linarith
    · rw [if_neg k1]
      by_cases k2 : x < a.radius + b.radius
      · rw [if_pos k2, if_pos (by linarith)]
      · rw [if_neg k2, if_neg (by linarith)]
        dsimp only
        ring
  refine ⟨hd, rfl, ?_⟩
  rw [hd.zero_iff, circle_collidesCircle_iff a b ha hb]

/-- C62: the distance of a disc and an edge is the smallest distance between their points. -/
theorem C62_circle_edge_distance {env : HEnv K} (hs : env.SqrtExact) {c : Circle K} (hr : 0 ≤ c.radius) (e : Edge K) :
    IsDist c.pts e.pts (c.distanceToEdge env e) ∧ c.sqDistanceToEdge env e = c.distanceToEdge env e ^ 2 ∧
    (c.distanceToEdge env e = 0 ↔ c.collidesEdge e = true) := by
  have hd : IsDist c.pts e.pts (c.distanceToEdge env e) := by
    have h2 := disc_dist hs hr ((C62_point_distances hs c.center).1 e).1
    convert h2 using 1
    unfold Circle.distanceToEdge Circle.borderToEdge
    dsimp only
    by_cases k : e.distance env c.center < c.radius
    · rw [if_pos k, if_pos k]
    · rw [if_neg k, if_neg k]
  refine ⟨hd, rfl, ?_⟩
  rw [hd.zero_iff, circle_collidesEdge_iff]
  exact exists_congr fun _ => and_comm

/-! ## Distances to borders -/

theorem mem_disc {c : Circle K} {p : Point K} : p ∈ c.pts ↔ (p.x - c.center.x) ^ 2 + (p.y - c.center.y) ^ 2 ≤ c.radius ^ 2 := Iff.rfl

/-- C62: the distance of a point to the border of a disc, and on which side it is. -/
theorem C62_circle_border {env : HEnv K} (hs : env.SqrtExact) {c : Circle K} (hr : 0 ≤ c.radius) (p : Point K) :
    IsDist {p} c.border (c.distanceFromBorder env p).2 ∧ ((c.distanceFromBorder env p).1 = .interior ↔ p ∈ c.pts) ∧
    c.sqDistanceFromBorder env p = ((c.distanceFromBorder env p).1, (c.distanceFromBorder env p).2 ^ 2) := by
  obtain ⟨s0, s1⟩ := hs _ (sqDist_nonneg p c.center)
  have hiff : p ∈ c.pts ↔ env.sqrt (sqDist p c.center) ≤ c.radius := by
    rw [← sq_le_sq₀ s0 hr, s1]
    rfl
  rw [hiff]
  unfold Circle.distanceFromBorder
  rw [show (p.x - c.center.x) ^ 2 + (p.y - c.center.y) ^ 2 = sqDist p c.center from rfl]
  dsimp only
  split_ifs with h
  · exact ⟨inner_border_dist hs s0 s1.symm h, by simp [h], by
      unfold Circle.sqDistanceFromBorder Circle.distanceFromBorder
      rw [show (p.x - c.center.x) ^ 2 + (p.y - c.center.y) ^ 2 = sqDist p c.center from rfl]
      simp [h]⟩
  · refine ⟨(disc_border_dist hs hr (T := {p}) ?_ (not_le.1 h).le).symm, by simp [h], by
      unfold Circle.sqDistanceFromBorder Circle.distanceFromBorder
      rw [show (p.x - c.center.x) ^ 2 + (p.y - c.center.y) ^ 2 = sqDist p c.center from rfl]
      simp [h]⟩
    rw [isDist_point_iff]
    refine ⟨s0, ⟨p, rfl, by rw [s1]; unfold sqDist; ring⟩, ?_⟩
    rintro q hq
    rw [Set.mem_singleton_iff] at hq
    subst hq
    rw [s1]
    exact le_of_eq (by unfold sqDist; ring)

/-- C62: the distance of a point to the outline of a polygon, and on which side it is. -/
theorem C62_polygon_border {env : HEnv K} (hs : env.SqrtExact) (hf : env.f = Fpa.exact) {s : SPoly K} (hw : s.WF) (p : Point K) :
    ∃ pos d, s.distanceFromBorder env p = some (pos, d) ∧ s.sqDistanceFromBorder env.f p = some (pos, d ^ 2) ∧
      IsDist {p} (bdry s.points) d ∧ (p ∉ bdry s.points → (pos = .interior ↔ p ∈ interior s.points)) := by
  obtain ⟨d, h1, h2⟩ := SPoly.sqDistanceFromBorder_spec (f := env.f) hw.nonempty p
  refine ⟨if s.collidesPoint env.f p then .interior else .exterior, env.sqrt d, ?_, ?_, hs.isDist h2, fun hb => ?_⟩
  · unfold SPoly.distanceFromBorder
    rw [h1]
    rfl
  · rw [h1, (hs d h2.nonneg).2]
  · rw [← SPoly.collidesPoint_iff hw hb, hf]
    split_ifs with h <;> simp [h]

/-- C62: the distance of a point to the border of a rectangle. Missing for the full statement: points in the rectangle. There the
result is not the distance but the square root of the distance (`C62_rect_border_wrong`). -/
theorem C62_rect_border_partial {env : HEnv K} (hs : env.SqrtExact) {r : AARect K} (hv : r.Valid) (p : Point K) :
    ((r.distanceFromBorder env p).1 = .interior ↔ p ∈ r.pts) ∧
    (p ∉ r.pts → IsDist {p} r.border (r.distanceFromBorder env p).2) ∧
    (p ∈ r.pts → IsDist {p} r.border ((r.distanceFromBorder env p).2 ^ 2)) := by
  obtain ⟨h1, h2⟩ := C32_border_distance_partial r hv p
  unfold AARect.distanceFromBorder
  dsimp only
  refine ⟨?_, fun hp => hs.isDist (h1 hp).2, fun hp => ?_⟩
  · by_cases hp : p ∈ r.pts
    · simp [hp, (h2 hp).1]
    · simp [hp, (h1 hp).1]
  · rw [(hs _ (h2 hp).2.1).2, isDist_point_iff]
    exact ⟨(h2 hp).2.1, (h2 hp).2.2⟩

/-- **C62: the distance of a point in a rectangle to its border is wrong.** The centre of an 8 × 8 square is 4 from the border, the
result is 2. -/
theorem C62_rect_border_wrong {env : HEnv ℚ} (hs : env.sqrt 4 = 2) :
    (AARect.mk 0 0 8 8 : AARect ℚ).distanceFromBorder env ⟨4, 4⟩ = (.interior, 2) ∧
    IsDist {(⟨4, 4⟩ : Point ℚ)} (AARect.mk 0 0 8 8).border 4 ∧ ¬ IsDist {(⟨4, 4⟩ : Point ℚ)} (AARect.mk 0 0 8 8).border 2 := by
  have h1 : (AARect.mk 0 0 8 8 : AARect ℚ).sqDistanceFromBorder ⟨4, 4⟩ = (.interior, 4) := by decide +kernel
  have hd : IsDist {(⟨4, 4⟩ : Point ℚ)} (AARect.mk 0 0 8 8).border 4 := by
    obtain ⟨-, h2⟩ := C32_border_distance_partial (AARect.mk 0 0 8 8 : AARect ℚ) ⟨by norm_num, by norm_num⟩ ⟨4, 4⟩
    have h3 := (h2 ⟨by norm_num, by norm_num, by norm_num, by norm_num⟩).2
    rw [h1] at h3
    rw [isDist_point_iff]
    exact h3
  refine ⟨?_, hd, fun h => ?_⟩
  · unfold AARect.distanceFromBorder
    rw [h1, hs]
  · have := hd.unique h
    norm_num at this

/-- C62: the distance of a circle to the border of a circle. Missing for the full statement: circles that overlap, for which the result
is wrong (`C62_circle_border_to_circle_wrong`). -/
theorem C62_circle_border_to_circle_partial {env : HEnv K} (hs : env.SqrtExact) {a b : Circle K} (ha : 0 ≤ a.radius) (hb : 0 ≤ b.radius) :
    ((a.borderToCircle env b).1 = .exterior → IsDist a.border b.pts (a.borderToCircle env b).2 ∧ ∀ p ∈ b.pts, p ∉ a.inner) ∧
    ((a.borderToCircle env b).1 = .interior → ∃ p ∈ a.pts, p ∈ b.pts) := by
  obtain ⟨s0, s1⟩ := hs _ (sqDist_nonneg a.center b.center)
  have i1 : sqDist a.center b.center < (a.radius + b.radius) ^ 2 ↔ env.sqrt (sqDist a.center b.center) < a.radius + b.radius := by
    rw [← sq_lt_sq₀ s0 (add_nonneg ha hb), s1]
  have i2 : sqDist a.center b.center < b.radius ^ 2 ↔ env.sqrt (sqDist a.center b.center) < b.radius := by
    rw [← sq_lt_sq₀ s0 hb, s1]
  have e : a.borderToCircle env b = if env.sqrt (sqDist a.center b.center) < a.radius + b.radius then
      (.interior, a.radius + b.radius - env.sqrt (sqDist a.center b.center)) else
      (.exterior, env.sqrt (sqDist a.center b.center) - (a.radius + b.radius)) := by
    unfold Circle.borderToCircle
    dsimp only
    rw [hs.sq (add_nonneg ha hb), show a.center.sqDistance b.center = sqDist a.center b.center from rfl]
    simp only [i1]
  constructor
  · intro hx
    have hge : ¬ env.sqrt (sqDist a.center b.center) < a.radius + b.radius := by
      intro h
      rw [e, if_pos h] at hx
      cases hx
    rw [e, if_neg hge]
    have h1 := ((C62_point_distances hs a.center).2.2 b hb).1
    have e1 : b.distance env a.center = env.sqrt (sqDist a.center b.center) - b.radius := by
      unfold Circle.distance
      dsimp only
      rw [show (a.center.x - b.center.x) ^ 2 + (a.center.y - b.center.y) ^ 2 = sqDist a.center b.center from rfl, if_neg]
      rw [i2]
      linarith
    rw [e1] at h1
    refine ⟨?_, fun p hp hin => ?_⟩
    · have := disc_border_dist hs ha h1 (by linarith)
      rw [sub_sub, add_comm b.radius] at this
      exact this
    · rw [isDist_point_iff] at h1
      have h2 := h1.2.2 p hp
      have h3 : (p.x - a.center.x) ^ 2 + (p.y - a.center.y) ^ 2 < a.radius ^ 2 := hin
      have h4 : a.radius ^ 2 ≤ (env.sqrt (sqDist a.center b.center) - b.radius) ^ 2 := pow_le_pow_left₀ ha (by linarith) 2
      nlinarith
  · intro hx
    refine (C62_circle_distance hs ha hb).1.zero_iff.1 ?_
    unfold Circle.distanceToCircle
    split
    · rfl
    · rename_i h
      rw [h] at hx
      cases hx

/-- **C62: the distance to the border is wrong for circles that overlap.** A circle of radius 1 in the middle of a circle of radius 10 is
9 from its border, the result is 11. A circle of radius 1 that has its centre on the border touches the border, but the result says that
it is in the interior, at distance 1. -/
theorem C62_circle_border_to_circle_wrong {env : HEnv ℚ} (hs : env.sqrt 121 = 11 ∧ env.sqrt 0 = 0 ∧ env.sqrt 100 = 10) :
    (Circle.mk ⟨0, 0⟩ 10 : Circle ℚ).borderToCircle env ⟨⟨0, 0⟩, 1⟩ = (.interior, 11) ∧
    IsDist (Circle.mk (⟨0, 0⟩ : Point ℚ) 10).border (Circle.mk (⟨0, 0⟩ : Point ℚ) 1).pts 9 ∧
    ¬ IsDist (Circle.mk (⟨0, 0⟩ : Point ℚ) 10).border (Circle.mk (⟨0, 0⟩ : Point ℚ) 1).pts 11 ∧
    (Circle.mk ⟨0, 0⟩ 10 : Circle ℚ).borderToCircle env ⟨⟨10, 0⟩, 1⟩ = (.interior, 1) ∧
    IsDist (Circle.mk (⟨0, 0⟩ : Point ℚ) 10).border (Circle.mk (⟨10, 0⟩ : Point ℚ) 1).pts 0 ∧
    (⟨11, 0⟩ : Point ℚ) ∈ (Circle.mk (⟨10, 0⟩ : Point ℚ) 1).pts ∧ (⟨11, 0⟩ : Point ℚ) ∉ (Circle.mk (⟨0, 0⟩ : Point ℚ) 10).pts := by
  have hd : IsDist (Circle.mk (⟨0, 0⟩ : Point ℚ) 10).border (Circle.mk (⟨0, 0⟩ : Point ℚ) 1).pts 9 := by
    refine ⟨by norm_num, ⟨⟨10, 0⟩, by show _ = _; norm_num, ⟨1, 0⟩, by rw [mem_disc]; norm_num, by norm_num⟩, ?_⟩
    intro p hp q hq
    replace hp : (p.x - 0) ^ 2 + (p.y - 0) ^ 2 = 10 ^ 2 := hp
    replace hq : (q.x - 0) ^ 2 + (q.y - 0) ^ 2 ≤ 1 ^ 2 := hq
    nlinarith [sq_nonneg (p.x - 10 * q.x), sq_nonneg (p.y - 10 * q.y)]
  refine ⟨?_, hd, fun h => ?_, ?_, ?_, ?_, ?_⟩
  · unfold Circle.borderToCircle Point.sqDistance
    norm_num [hs.1, hs.2.1]
  · have := hd.unique h
    norm_num at this
  · unfold Circle.borderToCircle Point.sqDistance
    norm_num [hs.1, hs.2.2]
  · refine ⟨le_rfl, ⟨⟨10, 0⟩, by show _ = _; norm_num, ⟨10, 0⟩, by rw [mem_disc]; norm_num, by norm_num⟩, fun _ _ _ _ => ?_⟩
    rw [zero_pow two_ne_zero]
    positivity
  · rw [mem_disc]; norm_num
  · rw [mem_disc]; norm_num

/-- C62: the distance of an edge to the border of a circle. Missing for the full statement: edges that reach into the circle, for
which the result is wrong (`C62_circle_border_to_edge_wrong`). -/
theorem C62_circle_border_to_edge_partial {env : HEnv K} (hs : env.SqrtExact) {c : Circle K} (hr : 0 ≤ c.radius) (e : Edge K) :
    ((c.borderToEdge env e).1 = .exterior → IsDist c.border e.pts (c.borderToEdge env e).2 ∧ ∀ p ∈ e.pts, p ∉ c.inner) ∧
    ((c.borderToEdge env e).1 = .interior → ∃ p ∈ e.pts, p ∈ c.inner) := by
  have h1 := ((C62_point_distances hs c.center).1 e).1
  unfold Circle.borderToEdge
  dsimp only
  split_ifs with h
  · refine ⟨fun h => absurd h (by simp), fun _ => ?_⟩
    rw [isDist_point_iff] at h1
    obtain ⟨h0, ⟨q, hq, he⟩, -⟩ := h1
    refine ⟨q, hq, ?_⟩
    show (q.x - c.center.x) ^ 2 + (q.y - c.center.y) ^ 2 < c.radius ^ 2
    have := pow_lt_pow_left₀ h h0 two_ne_zero
    linarith
  · refine ⟨fun _ => ⟨disc_border_dist hs hr h1 (not_lt.1 h), fun p hp hin => ?_⟩, fun h => absurd h (by simp)⟩
    rw [isDist_point_iff] at h1
    have h2 := h1.2.2 p hp
    have h3 : (p.x - c.center.x) ^ 2 + (p.y - c.center.y) ^ 2 < c.radius ^ 2 := hin
    have h4 : c.radius ^ 2 ≤ e.distance env c.center ^ 2 := pow_le_pow_left₀ hr (not_lt.1 h) 2
    linarith

/-- **C62: the distance to the border is wrong for edges that reach into the circle.** The edge from (-1, 0) to (5, 0) is 5 from the
border of the circle with radius 10 around the origin, the result is 10. -/
theorem C62_circle_border_to_edge_wrong {env : HEnv ℚ} (hs : env.sqrt 0 = 0) :
    (Circle.mk ⟨0, 0⟩ 10 : Circle ℚ).borderToEdge env ⟨⟨-1, 0⟩, ⟨5, 0⟩⟩ = (.interior, 10) ∧
    IsDist (Circle.mk (⟨0, 0⟩ : Point ℚ) 10).border (Edge.mk (⟨-1, 0⟩ : Point ℚ) ⟨5, 0⟩).pts 5 ∧
    ¬ IsDist (Circle.mk (⟨0, 0⟩ : Point ℚ) 10).border (Edge.mk (⟨-1, 0⟩ : Point ℚ) ⟨5, 0⟩).pts 10 := by
  have hd : IsDist (Circle.mk (⟨0, 0⟩ : Point ℚ) 10).border (Edge.mk (⟨-1, 0⟩ : Point ℚ) ⟨5, 0⟩).pts 5 := by
    refine ⟨by norm_num, ⟨⟨10, 0⟩, by show _ = _; norm_num, ⟨5, 0⟩, ⟨1, by norm_num, by norm_num, by norm_num, by norm_num⟩, by norm_num⟩, ?_⟩
    rintro p hp q ⟨t, t0, t1, qx, qy⟩
    replace hp : (p.x - 0) ^ 2 + (p.y - 0) ^ 2 = 10 ^ 2 := hp
    dsimp only at qx qy
    have qy : q.y = 0 := by rw [qy]; ring
    have hx : p.x ≤ 10 := by nlinarith [sq_nonneg p.y]
    have hx' : -10 ≤ p.x := by nlinarith [sq_nonneg p.y]
    have q1 : -1 ≤ q.x := by rw [qx]; linarith
    have q2 : q.x ≤ 5 := by rw [qx]; linarith
    rw [qy]
    rcases le_total 0 q.x with k | k
    · nlinarith [mul_nonneg k (sub_nonneg.2 hx)]
    · nlinarith [mul_nonneg (neg_nonneg.2 k) (by linarith : (0 : ℚ) ≤ p.x + 10)]
  refine ⟨?_, hd, fun h => ?_⟩
  · have e : (Edge.mk (⟨-1, 0⟩ : Point ℚ) ⟨5, 0⟩).sqDistance ⟨0, 0⟩ = 0 := by decide +kernel
    unfold Circle.borderToEdge Edge.distance
    rw [e, hs]
    norm_num
  · have := hd.unique h
    norm_num at this

/-! ## Diameters -/

/-- C62: diameters of rectangles, edges and discs are the largest distances between two of their points. -/
theorem C62_diameters {env : HEnv K} (hs : env.SqrtExact) :
    (∀ r : AARect K, r.Valid → IsDiameter r.pts (r.diameter env)) ∧ (∀ e : Edge K, IsDiameter e.pts (e.diameter env)) ∧
    (∀ c : Circle K, 0 ≤ c.radius → IsDiameter c.pts c.diameter) := by
  refine ⟨fun r hv => ?_, fun e => ?_, fun c hr => ?_⟩
  · unfold AARect.diameter
    obtain ⟨s0, s1⟩ := hs ((r.xMax - r.xMin) ^ 2 + (r.yMax - r.yMin) ^ 2) (by positivity)
    refine ⟨s0, ⟨⟨r.xMax, r.yMax⟩, ⟨hv.1.le, le_rfl, hv.2.le, le_rfl⟩, ⟨r.xMin, r.yMin⟩, ⟨le_rfl, hv.1.le, le_rfl, hv.2.le⟩, s1.symm⟩, ?_⟩
    rintro p ⟨a1, a2, a3, a4⟩ q ⟨b1, b2, b3, b4⟩
    rw [s1]
    have k1 := sq_le_sq' (a := p.x - q.x) (b := r.xMax - r.xMin) (by linarith) (by linarith)
    have k2 := sq_le_sq' (a := p.y - q.y) (b := r.yMax - r.yMin) (by linarith) (by linarith)
    linarith
  · unfold Edge.diameter
    obtain ⟨s0, s1⟩ := hs _ (sqDist_nonneg e.start e.stop)
    refine ⟨s0, ⟨e.start, ⟨0, le_rfl, zero_le_one, by ring, by ring⟩, e.stop, ⟨1, zero_le_one, le_rfl, by ring, by ring⟩, s1.symm⟩, ?_⟩
    rintro p ⟨t, t0, t1, px, py⟩ q ⟨u, u0, u1, qx, qy⟩
    rw [show e.start.sqDistance e.stop = sqDist e.start e.stop from rfl, s1]
    have : (p.x - q.x) ^ 2 + (p.y - q.y) ^ 2 = (t - u) ^ 2 * sqDist e.start e.stop := by
      rw [px, py, qx, qy]; unfold sqDist; ring
    rw [this]
    have h1 : (t - u) ^ 2 ≤ 1 ^ 2 := sq_le_sq' (by linarith) (by linarith)
    nlinarith [sqDist_nonneg e.start e.stop]
  · unfold Circle.diameter
    refine ⟨by linarith, ⟨⟨c.center.x + c.radius, c.center.y⟩, ?_, ⟨c.center.x - c.radius, c.center.y⟩, ?_, ?_⟩, ?_⟩
    · show (c.center.x + c.radius - c.center.x) ^ 2 + (c.center.y - c.center.y) ^ 2 ≤ c.radius ^ 2
      exact le_of_eq (by ring)
    · show (c.center.x - c.radius - c.center.x) ^ 2 + (c.center.y - c.center.y) ^ 2 ≤ c.radius ^ 2
      exact le_of_eq (by ring)
    · dsimp only; ring
    · intro p hp q hq
      have := sqDist_triangle (p := p) (q := c.center) (r := q) hr hr hp (by rw [sqDist_comm]; exact hq)
      rw [show c.radius * 2 = c.radius + c.radius by ring]
      exact this

/-! ## Examples -/

/-- Over the real numbers, with the polygon of the examples. -/
example : HEnv.real.SqrtExact ∧ HEnv.real.f = Fpa.exact ∧ (⟨0, 0, 8, 8⟩ : AARect ℝ).Valid ∧ (0 : ℝ) ≤ (Circle.mk ⟨3, 4⟩ 2 : Circle ℝ).radius :=
  ⟨HEnv.real_sqrt, rfl, by constructor <;> norm_num, by norm_num⟩

/-- Two discs of radius 2 and 1 whose centres are 5 apart: the distance is 2. -/
example : (Circle.mk ⟨0, 0⟩ 2 : Circle ℝ).distanceToCircle HEnv.real ⟨⟨3, 4⟩, 1⟩ = 2 := by
  unfold Circle.distanceToCircle Circle.borderToCircle Point.sqDistance
  have h1 : HEnv.real.sqrt ((2 + 1) ^ 2) = 3 := by rw [HEnv.real_sqrt.sq (by norm_num)]; norm_num
  have h2 : HEnv.real.sqrt ((0 - 3) ^ 2 + (0 - 4) ^ 2) = 5 := by
    rw [show ((0 - 3) ^ 2 + (0 - 4) ^ 2 : ℝ) = 5 ^ 2 by norm_num, HEnv.real_sqrt.sq (by norm_num)]
  dsimp only
  rw [h1, h2, if_neg (by norm_num)]
  norm_num

/-- The roots used in the counterexamples. -/
example : Ex.lenv.sqrt 4 = 2 ∧ Ex.lenv.sqrt 121 = 11 ∧ Ex.lenv.sqrt 0 = 0 ∧ Ex.lenv.sqrt 100 = 10 := by decide +kernel

example : Ex.tri.WF := ⟨by decide +kernel, by unfold AARect.Valid; decide +kernel, by decide⟩

end Jagua
