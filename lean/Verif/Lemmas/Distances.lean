import Verif.Model.Distances
import Verif.Props.Primitives
import Verif.Lemmas.Poi
import Verif.Lemmas.PolyReject
import Verif.Lemmas.Parity

/-! # Lemmas: distances between primitives -/

set_option linter.unusedSectionVars false

namespace Jagua

variable {K : Type*} [Field K] [LinearOrder K] [IsStrictOrderedRing K]

theorem IsDist.symm {S T : Set (Point K)} {d : K} (h : IsDist S T d) : IsDist T S d := by
  obtain ⟨h0, ⟨p, hp, q, hq, e⟩, h2⟩ := h
  refine ⟨h0, ⟨q, hq, p, hp, by rw [← e]; ring⟩, fun q hq p hp => (h2 p hp q hq).trans_eq (by ring)⟩

theorem IsDist.unique {S T : Set (Point K)} {d d' : K} (h : IsDist S T d) (h' : IsDist S T d') : d = d' := by
  obtain ⟨h0, ⟨p, hp, q, hq, e⟩, h2⟩ := h
  obtain ⟨h0', ⟨p', hp', q', hq', e'⟩, h2'⟩ := h'
  have h3 := h2 p' hp' q' hq'
  have h4 := h2' p hp q hq
  rw [e'] at h3
  rw [e] at h4
  exact le_antisymm (le_of_sq_le_sq h3 h0') (le_of_sq_le_sq h4 h0)
where
  le_of_sq_le_sq {a b : K} (h : a ^ 2 ≤ b ^ 2) (hb : 0 ≤ b) : a ≤ b := (le_abs_self a).trans (abs_le_of_sq_le_sq h hb)

theorem IsDist.zero_iff {S T : Set (Point K)} {d : K} (h : IsDist S T d) : d = 0 ↔ ∃ p ∈ S, p ∈ T := by
  obtain ⟨h0, ⟨p, hp, q, hq, e⟩, h2⟩ := h
  constructor
  · rintro rfl
    have : p = q := by
      have h1 := sq_nonneg (p.x - q.x)
      have h2 := sq_nonneg (p.y - q.y)
      have e1 : (p.x - q.x) ^ 2 = 0 := by linarith
      have e2 : (p.y - q.y) ^ 2 = 0 := by linarith
      exact Point.ext (sub_eq_zero.1 (pow_eq_zero_iff two_ne_zero |>.1 e1)) (sub_eq_zero.1 (pow_eq_zero_iff two_ne_zero |>.1 e2))
    exact ⟨p, hp, this ▸ hq⟩
  · rintro ⟨p, hp, hq⟩
    have := h2 p hp p hq
    simp only [sub_self, ne_eq, OfNat.ofNat_ne_zero, not_false_eq_true, zero_pow, add_zero] at this
    exact pow_eq_zero_iff two_ne_zero |>.1 (le_antisymm this (sq_nonneg d))

theorem isDist_point_iff {p : Point K} {S : Set (Point K)} {d : K} : IsDist {p} S d ↔ 0 ≤ d ∧ IsSqDist p S (d ^ 2) := by
  constructor
  · rintro ⟨h0, ⟨q, hq, r, hr, e⟩, h2⟩
    rw [Set.mem_singleton_iff] at hq
    subst hq
    exact ⟨h0, ⟨r, hr, e⟩, fun r hr => h2 q rfl r hr⟩
  · rintro ⟨h0, ⟨r, hr, e⟩, h2⟩
    refine ⟨h0, ⟨p, rfl, r, hr, e⟩, ?_⟩
    rintro q hq r hr
    rw [Set.mem_singleton_iff] at hq
    subst hq
    exact h2 r hr

theorem IsSqDist.nonneg {p : Point K} {S : Set (Point K)} {d : K} (h : IsSqDist p S d) : 0 ≤ d := by
  obtain ⟨⟨q, -, e⟩, -⟩ := h
  rw [← e]
  positivity

theorem HEnv.SqrtExact.isDist {env : HEnv K} (hs : env.SqrtExact) {p : Point K} {S : Set (Point K)} {d : K} (h : IsSqDist p S d) :
    IsDist {p} S (env.sqrt d) := by
  obtain ⟨h1, h2⟩ := hs d h.nonneg
  rw [isDist_point_iff, h2]
  exact ⟨h1, h⟩

theorem HEnv.SqrtExact.sq {env : HEnv K} (hs : env.SqrtExact) {x : K} (hx : 0 ≤ x) : env.sqrt (x ^ 2) = x := by
  obtain ⟨h1, h2⟩ := hs (x ^ 2) (sq_nonneg x)
  exact pow_left_injective₀ h1 hx h2
where
  pow_left_injective₀ {a b : K} (ha : 0 ≤ a) (hb : 0 ≤ b) (h : a ^ 2 = b ^ 2) : a = b := by
    rcases sq_eq_sq_iff_eq_or_eq_neg.1 h with h | h
    · exact h
    · linarith

/-- The distance of a disc and a set from the distance of its centre and the set. -/
theorem disc_dist {env : HEnv K} (hs : env.SqrtExact) {c : Circle K} (hr : 0 ≤ c.radius) {T : Set (Point K)} {D : K}
    (h : IsDist {c.center} T D) : IsDist c.pts T (if D < c.radius then 0 else D - c.radius) := by
  rw [isDist_point_iff] at h
  obtain ⟨hD, ⟨q, hq, e⟩, h2⟩ := h
  split_ifs with hlt
  · refine ⟨le_rfl, ⟨q, ?_, q, hq, by ring⟩, fun _ _ _ _ => by rw [zero_pow two_ne_zero]; positivity⟩
    show (q.x - c.center.x) ^ 2 + (q.y - c.center.y) ^ 2 ≤ c.radius ^ 2
    have : D ^ 2 ≤ c.radius ^ 2 := pow_le_pow_left₀ hD hlt.le 2
    linarith
  · have hle := not_lt.1 hlt
    refine ⟨sub_nonneg.2 hle, ?_, ?_⟩
    · rcases hD.eq_or_lt with h0 | h0
      · refine ⟨q, ?_, q, hq, ?_⟩
        · show (q.x - c.center.x) ^ 2 + (q.y - c.center.y) ^ 2 ≤ c.radius ^ 2
          have := sq_nonneg c.radius
          rw [← h0] at e
          linarith
        · have : c.radius = 0 := le_antisymm (by linarith) hr
          rw [← h0, this]; ring
      · set t := c.radius / D with ht
        have htD : t * D = c.radius := by rw [ht]; field_simp
        refine ⟨⟨c.center.x + t * (q.x - c.center.x), c.center.y + t * (q.y - c.center.y)⟩, ?_, q, hq, ?_⟩
        · show (c.center.x + t * (q.x - c.center.x) - c.center.x) ^ 2 + (c.center.y + t * (q.y - c.center.y) - c.center.y) ^ 2 ≤ c.radius ^ 2
          rw [← htD]
          exact le_of_eq (by linear_combination t ^ 2 * e)
        · dsimp only
          rw [← htD]
          linear_combination (1 - t) ^ 2 * e
    · intro p hp q' hq'
      by_contra hcon
      push Not at hcon
      obtain ⟨s0, s1⟩ := hs _ (sqDist_nonneg p q')
      have hlt' : env.sqrt (sqDist p q') < D - c.radius := by
        by_contra hge
        push Not at hge
        have := pow_le_pow_left₀ (sub_nonneg.2 hle) hge 2
        rw [s1] at this
        exact absurd hcon (not_lt.2 this)
      have ht := sqDist_triangle (p := c.center) (q := p) (r := q') hr s0 (by rw [sqDist_comm]; exact hp) s1.ge
      have h3 := h2 q' hq'
      have h4 : (c.radius + env.sqrt (sqDist p q')) ^ 2 < D ^ 2 := pow_lt_pow_left₀ (by linarith) (by linarith) two_ne_zero
      have h5 : D ^ 2 ≤ sqDist c.center q' := h3
      linarith

/-- The distance of the border of a disc and a set that does not reach into the disc. -/
theorem disc_border_dist {env : HEnv K} (hs : env.SqrtExact) {c : Circle K} (hr : 0 ≤ c.radius) {T : Set (Point K)} {D : K}
    (h : IsDist {c.center} T D) (hle : c.radius ≤ D) : IsDist c.border T (D - c.radius) := by
  have hd := disc_dist hs hr h
  rw [if_neg (not_lt.2 hle)] at hd
  rw [isDist_point_iff] at h
  obtain ⟨hD, ⟨q, hq, e⟩, h2⟩ := h
  refine ⟨hd.1, ?_, fun p hp q hq => hd.2.2 p (le_of_eq hp) q hq⟩
  rcases hD.eq_or_lt with h0 | h0
  · have hr0 : c.radius = 0 := le_antisymm (by linarith) hr
    refine ⟨q, ?_, q, hq, by rw [← h0, hr0]; ring⟩
    show (q.x - c.center.x) ^ 2 + (q.y - c.center.y) ^ 2 = c.radius ^ 2
    rw [hr0]
    rw [← h0] at e
    linarith
  · set t := c.radius / D with ht
    have htD : t * D = c.radius := by rw [ht]; field_simp
    refine ⟨⟨c.center.x + t * (q.x - c.center.x), c.center.y + t * (q.y - c.center.y)⟩, ?_, q, hq, ?_⟩
    · show (c.center.x + t * (q.x - c.center.x) - c.center.x) ^ 2 + (c.center.y + t * (q.y - c.center.y) - c.center.y) ^ 2 = c.radius ^ 2
      rw [← htD]
      linear_combination t ^ 2 * e
    · dsimp only
      rw [← htD]
      linear_combination (1 - t) ^ 2 * e

/-- The distance of a point in a disc to the border. -/
theorem inner_border_dist {env : HEnv K} (hs : env.SqrtExact) {c : Circle K} {p : Point K} {D : K} (hD : 0 ≤ D)
    (h : sqDist p c.center = D ^ 2) (hle : D ≤ c.radius) : IsDist {p} c.border (c.radius - D) := by
  rw [isDist_point_iff]
  refine ⟨sub_nonneg.2 hle, ?_, ?_⟩
  · rcases hD.eq_or_lt with h0 | h0
    · refine ⟨⟨c.center.x + c.radius, c.center.y⟩, ?_, ?_⟩
      · show (c.center.x + c.radius - c.center.x) ^ 2 + (c.center.y - c.center.y) ^ 2 = c.radius ^ 2
        ring
      · dsimp only
        unfold sqDist at h
        rw [← h0] at h ⊢
        have h1 := sq_nonneg (p.x - c.center.x)
        have h2 := sq_nonneg (p.y - c.center.y)
        have e1 : p.x - c.center.x = 0 := pow_eq_zero_iff two_ne_zero |>.1 (by linarith)
        have e2 : p.y - c.center.y = 0 := pow_eq_zero_iff two_ne_zero |>.1 (by linarith)
        rw [show p.x - (c.center.x + c.radius) = -c.radius by linear_combination e1, e2]
        ring
    · set t := c.radius / D with ht
      have htD : t * D = c.radius := by rw [ht]; field_simp
      unfold sqDist at h
      refine ⟨⟨c.center.x + t * (p.x - c.center.x), c.center.y + t * (p.y - c.center.y)⟩, ?_, ?_⟩
      · show (c.center.x + t * (p.x - c.center.x) - c.center.x) ^ 2 + (c.center.y + t * (p.y - c.center.y) - c.center.y) ^ 2 = c.radius ^ 2
        rw [← htD]
        linear_combination t ^ 2 * h
      · dsimp only
        rw [← htD]
        linear_combination (1 - t) ^ 2 * h
  · intro q hq
    by_contra hcon
    push Not at hcon
    obtain ⟨s0, s1⟩ := hs _ (sqDist_nonneg q p)
    have e : (p.x - q.x) ^ 2 + (p.y - q.y) ^ 2 = sqDist q p := by unfold sqDist; ring
    rw [e] at hcon
    have hlt : env.sqrt (sqDist q p) < c.radius - D := by
      by_contra hge
      push Not at hge
      have := pow_le_pow_left₀ (sub_nonneg.2 hle) hge 2
      rw [s1] at this
      linarith
    have ht := sqDist_triangle (p := q) (q := p) (r := c.center) s0 hD s1.ge h.le
    have h4 : (env.sqrt (sqDist q p) + D) ^ 2 < c.radius ^ 2 := pow_lt_pow_left₀ (by linarith) (by linarith) two_ne_zero
    have h5 : sqDist q c.center = c.radius ^ 2 := hq
    linarith

/-- The segment between a point of a region and a point outside meets the outline. -/
theorem seg_meets_bdry {pts : List (Point K)} {p q : Point K} (hp : p ∉ region pts) (hq : q ∈ region pts) :
    ∃ w ∈ bdry pts, w ∈ segPts p q := by
  by_contra hcon
  push Not at hcon
  have hpar := rayCount_parity pts (p := p) (q := q) fun w hw hb => hcon w hb hw
  rcases hq with hq | hq
  · exact hcon q hq ⟨1, zero_le_one, le_rfl, by ring, by ring⟩
  · exact hp (.inr ⟨fun h => hp (.inl h), hpar.2 hq.2⟩)

theorem seg_sqDist_le {p q w : Point K} (h : w ∈ segPts p q) : sqDist p w ≤ sqDist p q := by
  obtain ⟨t, t0, t1, hx, hy⟩ := h
  unfold sqDist
  have e : (p.x - w.x) ^ 2 + (p.y - w.y) ^ 2 = t ^ 2 * ((p.x - q.x) ^ 2 + (p.y - q.y) ^ 2) := by rw [hx, hy]; ring
  rw [e]
  have : t ^ 2 ≤ 1 := pow_le_one₀ t0 t1
  have h2 : 0 ≤ (p.x - q.x) ^ 2 + (p.y - q.y) ^ 2 := by positivity
  nlinarith

theorem bdry_dist_region {pts : List (Point K)} {p : Point K} (hp : p ∉ region pts) {d : K} (h : IsSqDist p (bdry pts) d) :
    IsSqDist p (region pts) d := by
  obtain ⟨⟨q, hq, e⟩, h2⟩ := h
  refine ⟨⟨q, .inl hq, e⟩, fun q hq => ?_⟩
  obtain ⟨w, hw, hs⟩ := seg_meets_bdry hp hq
  exact (h2 w hw).trans (seg_sqDist_le hs)

theorem SPoly.sqDistance_spec {s : SPoly K} (hs : s.WF) (p : Point K) :
    ∃ d, s.sqDistance Fpa.exact p = some d ∧ IsSqDist p (region s.points) d := by
  by_cases hc : s.collidesPoint Fpa.exact p = true
  · refine ⟨0, by unfold SPoly.sqDistance; rw [if_pos hc], ⟨p, collides_region hs hc, by ring⟩, fun _ _ => by positivity⟩
  · obtain ⟨d, h1, h2⟩ := SPoly.sqDistanceFromBorder_spec (f := Fpa.exact) hs.nonempty p
    have e : s.sqDistance Fpa.exact p = some d := by
      unfold SPoly.sqDistance
      rw [if_neg hc]
      unfold SPoly.sqDistanceFromBorder at h1
      split at h1
      · cases h1
      · rename_i a l hl
        cases h1
        rfl
    refine ⟨d, e, ?_⟩
    by_cases hb : p ∈ bdry s.points
    · have h0 : d = 0 := le_antisymm ((h2.2 p hb).trans_eq (by ring)) h2.nonneg
      rw [h0]
      exact ⟨⟨p, .inl hb, by ring⟩, fun _ _ => by positivity⟩
    · refine bdry_dist_region ?_ h2
      rintro (h | h)
      · exact hb h
      · exact hc ((SPoly.collidesPoint_iff hs hb).2 h)

end Jagua
