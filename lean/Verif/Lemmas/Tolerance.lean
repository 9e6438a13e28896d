import Verif.Spec.Tolerance
import Verif.Lemmas.PolyReject

/-! # The point in polygon test with a tolerance -/

set_option linter.unusedSectionVars false

namespace Jagua

variable {K : Type*} [Field K] [LinearOrder K] [IsStrictOrderedRing K]

theorem Fpa.Tolerant.relative {τ M : K} (hτ : 0 ≤ τ) : (Fpa.relative τ).Tolerant M (τ * M) where
  refl a := by
    unfold Fpa.relative
    simp only [sub_self, abs_zero, decide_eq_true_eq]
    exact mul_nonneg hτ (le_max_of_le_left (abs_nonneg a))
  near a b ha hb h := by
    unfold Fpa.relative at h
    simp only [decide_eq_true_eq] at h
    exact h.trans (mul_le_mul_of_nonneg_left (max_le ha hb) hτ)

theorem Fpa.Tolerant.exact (M : K) {ε : K} (h : 0 ≤ ε) : (Fpa.exact : Fpa K).Tolerant M ε where
  refl a := by simp [Fpa.exact]
  near a b _ _ hab := by
    rw [(exact_eq a b).1 hab, sub_self, abs_zero]; exact h

theorem Fpa.Tolerant.lt_iff {f : Fpa K} {M ε a b : K} (hf : f.Tolerant M ε) (ha : |a| ≤ M) (hb : |b| ≤ M) (h : ε < |a - b|) :
    f.lt a b = true ↔ a < b := by
  unfold Fpa.lt
  have : f.eq a b = false := by
    rw [← Bool.not_eq_true]
    exact fun he => absurd (hf.near a b ha hb he) (not_le.2 h)
  rw [this]
  simp

/-- A segment from the right part of a horizontal band to its left part meets the square in between. -/
theorem band_hit {p a c : Point K} {ε : K} (ha : |a.y - p.y| ≤ ε) (hc : |c.y - p.y| ≤ ε) (hx : p.x < a.x) (hcx : c.x ≤ p.x) :
    ∃ w ∈ segPts a c, w ∈ around p ε := by
  have hpos : 0 < a.x - c.x := by linarith
  have hne := hpos.ne'
  set t := (a.x - p.x) / (a.x - c.x) with ht
  have t0 : 0 ≤ t := div_nonneg (by linarith) hpos.le
  have t1 : t ≤ 1 := by rw [ht, div_le_one hpos]; linarith
  have hxe : a.x + t * (c.x - a.x) = p.x := by
    rw [ht]; field_simp; ring
  refine ⟨⟨a.x + t * (c.x - a.x), a.y + t * (c.y - a.y)⟩, ⟨t, t0, t1, rfl, rfl⟩, ?_, ?_⟩
  · simp only
    rw [hxe, sub_self, abs_zero]
    exact (abs_nonneg _).trans ha
  · simp only
    rw [abs_le] at *
    constructor <;> nlinarith

/-- crossing the level of `p` next to a vertex on the right -/
theorem crosses_right {p a b : Point K} {ε : K} (hav : ∀ w ∈ segPts a b, w ∉ around p ε) (ha : |a.y - p.y| ≤ ε) (hx : p.x < a.x) :
    CrossesRay p (a, b) ↔ ¬ (a.y < p.y ↔ b.y < p.y) := by
  have h0 : 0 ≤ ε := (abs_nonneg _).trans ha
  have right : ∀ c ∈ segPts a b, c.y = p.y → p.x < c.x := by
    intro c hc hy
    by_contra hn
    obtain ⟨w, hw, hw'⟩ := band_hit (c := c) ha (by rw [hy, sub_self, abs_zero]; exact h0) hx (not_lt.1 hn)
    exact hav w (segPts_subset (segPts_start _ _) hc hw) hw'
  rcases lt_or_ge a.y p.y with h1 | h1 <;> rcases lt_or_ge b.y p.y with h2 | h2
  · simp [not_crosses_low h1 h2, h1, h2]
  · obtain ⟨c, hc, hcy, hcu⟩ := level_point h1 h2
    rw [crossesRay_iff h1 h2 hc hcy hcu]
    simp [h1, not_lt.2 h2, right c hc hcy]
  · obtain ⟨c, hc, hcy, hcu⟩ := level_point h2 h1
    rw [crossesRay_comm, crossesRay_iff h2 h1 hc hcy hcu]
    rw [segPts_comm] at hc
    simp [h2, not_lt.2 h1, right c hc hcy]
  · simp [not_crosses_high h1 h2, not_lt.2 h1, not_lt.2 h2]

/-- the vertices that the tolerant test takes to be on the ray although they are below it -/
def Shifted (f : Fpa K) (p v : Point K) : Prop := f.eq v.y p.y = true ∧ p.x < v.x ∧ v.y < p.y

/-- Which edges the tolerant test counts. -/
theorem countsEdge_tolerant {f : Fpa K} {M ε : K} (hf : f.Tolerant M ε) {p : Point K} (hp : |p.x| ≤ M ∧ |p.y| ≤ M) {xOut : K}
    {e : Edge K} (he1 : |e.start.x| ≤ M ∧ |e.start.y| ≤ M) (he2 : |e.stop.x| ≤ M ∧ |e.stop.y| ≤ M)
    (h0 : 0 ≤ ε) (hav : ∀ w ∈ e.pts, w ∉ around p ε) (hout : p.x < xOut) (h1 : e.start.x ≤ xOut) (h2 : e.stop.x ≤ xOut) :
    (SPoly.countsEdge f p xOut e = true ↔ CrossesRay p (e.start, e.stop)) ↔ (Shifted f p e.start ↔ Shifted f p e.stop) := by
  obtain ⟨a, b⟩ := e
  have hpe : p ∉ (Edge.mk a b).pts := fun h => hav p h ⟨by rw [sub_self, abs_zero]; exact h0, by rw [sub_self, abs_zero]; exact h0⟩
  dsimp only at *
  -- a vertex at the height of `p` is clearly left or right of it
  have far : ∀ v ∈ segPts a b, |v.x| ≤ M → |v.y| ≤ M → f.eq v.y p.y = true → |v.y - p.y| ≤ ε ∧ (f.lt p.x v.x = true ↔ p.x < v.x) := by
    intro v hv b1 b2 he
    have hy := hf.near _ _ b2 hp.2 he
    refine ⟨hy, hf.lt_iff hp.1 b1 ?_⟩
    by_contra hn
    exact hav v hv ⟨by rw [abs_sub_comm]; exact not_lt.1 hn, hy⟩
  have fa := far a (segPts_start _ _) he1.1 he1.2
  have fb := far b (segPts_stop _ _) he2.1 he2.2
  have flt : ∀ v : Point K, f.eq v.y p.y = true → f.lt v.y p.y = false := fun v h => by unfold Fpa.lt; rw [h]; rfl
  have fne : ∀ v : Point K, f.eq v.y p.y = false → (f.lt v.y p.y = true ↔ v.y < p.y) := fun v h => by unfold Fpa.lt; rw [h]; simp
  by_cases hA : f.eq a.y p.y = true ∧ p.x < a.x
  · have hcount : SPoly.countsEdge f p xOut ⟨a, b⟩ = (f.lt a.y p.y || f.lt b.y p.y) := by
      unfold SPoly.countsEdge
      rw [if_pos]
      simp only [hA.1, (fa hA.1).2.2 hA.2, Bool.and_self, Bool.true_or]
    rw [hcount, flt a hA.1, Bool.false_or, crosses_right hav (fa hA.1).1 hA.2]
    cases hb : f.eq b.y p.y with
    | false =>
      rw [fne b hb]
      simp only [Shifted, hA.1, hA.2, hb]
      by_cases u : a.y < p.y <;> by_cases v : b.y < p.y <;> simp [u, v]
    | true =>
      have hbx : p.x < b.x := by
        by_contra hn
        obtain ⟨w, hw, hw'⟩ := band_hit (fa hA.1).1 (fb hb).1 hA.2 (not_lt.1 hn)
        exact hav w hw hw'
      rw [flt b hb]
      simp only [Shifted, hA.1, hA.2, hb, hbx]
      simp
  · by_cases hB : f.eq b.y p.y = true ∧ p.x < b.x
    · have hcount : SPoly.countsEdge f p xOut ⟨a, b⟩ = (f.lt a.y p.y || f.lt b.y p.y) := by
        unfold SPoly.countsEdge
        rw [if_pos]
        simp only [hB.1, (fb hB.1).2.2 hB.2, Bool.and_self, Bool.or_true]
      rw [hcount, flt b hB.1, Bool.or_false, crossesRay_comm,
        crosses_right (by rw [segPts_comm]; exact hav) (fb hB.1).1 hB.2]
      have hane : f.eq a.y p.y = false := by
        rw [← Bool.not_eq_true]
        intro ha
        have hax : a.x ≤ p.x := by
          by_contra hn
          exact hA ⟨ha, not_le.1 hn⟩
        obtain ⟨w, hw, hw'⟩ := band_hit (fb hB.1).1 (fa ha).1 hB.2 hax
        exact hav w (by rw [Edge.pts, segPts_comm]; exact hw) hw'
      rw [fne a hane]
      simp only [Shifted, hB.1, hB.2, hane]
      by_cases u : a.y < p.y <;> by_cases v : b.y < p.y <;> simp [u, v]
    · have hsa : ¬ Shifted f p a := fun h => hA ⟨h.1, h.2.1⟩
      have hsb : ¬ Shifted f p b := fun h => hB ⟨h.1, h.2.1⟩
      simp only [hsa, hsb]
      have hcount : SPoly.countsEdge f p xOut ⟨a, b⟩ = SPoly.countsEdge Fpa.exact p xOut ⟨a, b⟩ := by
        unfold SPoly.countsEdge
        rw [if_neg, if_neg]
        · simp only [Bool.or_eq_true, Bool.and_eq_true, exact_lt, exact_eq]
          rintro (⟨h, h'⟩ | ⟨h, h'⟩)
          · exact hA ⟨by rw [h]; exact hf.refl _, h'⟩
          · exact hB ⟨by rw [h]; exact hf.refl _, h'⟩
        · simp only [Bool.or_eq_true, Bool.and_eq_true]
          rintro (⟨h, h'⟩ | ⟨h, h'⟩)
          · exact hA ⟨h, (fa h).2.1 h'⟩
          · exact hB ⟨h, (fb h).2.1 h'⟩
      rw [hcount, countsEdge_iff hpe hout h1 h2]
      simp

theorem around_self (p : Point K) {ε : K} (h : 0 ≤ ε) : p ∈ around p ε :=
  ⟨by rw [sub_self, abs_zero]; exact h, by rw [sub_self, abs_zero]; exact h⟩

theorem Bounded.bbox {pts : List (Point K)} {M : K} (h : Bounded pts M) (hne : pts ≠ []) {p : Point K} (hp : p ∈ (boundingBox pts).pts) :
    |p.x| ≤ M ∧ |p.y| ≤ M := by
  obtain ⟨⟨p1, m1, e1⟩, ⟨p2, m2, e2⟩, ⟨p3, m3, e3⟩, ⟨p4, m4, e4⟩⟩ := boundingBox_attained hne
  have h1 := h p1 m1
  have h2 := h p2 m2
  have h3 := h p3 m3
  have h4 := h p4 m4
  simp only [abs_le] at *
  obtain ⟨q1, q2, q3, q4⟩ := hp
  refine ⟨⟨?_, ?_⟩, ?_, ?_⟩ <;> linarith

/-- Away from the boundary the tolerant test decides membership in the interior. -/
theorem SPoly.collidesPoint_tolerant {f : Fpa K} {M ε : K} (hf : f.Tolerant M ε) (h0 : 0 ≤ ε) {s : SPoly K} (hs : s.WF)
    (hb : Bounded s.points M) {p : Point K} (hp : ∀ w ∈ bdry s.points, w ∉ around p ε) :
    s.collidesPoint f p = true ↔ p ∈ Jagua.interior s.points := by
  classical
  have hpb : p ∉ bdry s.points := fun h => hp p h (around_self p h0)
  rw [← SPoly.collidesPoint_iff hs hpb]
  unfold SPoly.collidesPoint
  by_cases hbox : s.bbox.collidesPoint p = true
  · simp only [hbox, if_true, decide_eq_true_eq]
    have hin := (Jagua.collidesPoint_iff _ _).1 hbox
    have hpM : |p.x| ≤ M ∧ |p.y| ≤ M := by
      refine hb.bbox hs.nonempty ?_
      rw [← hs.bbox_eq]; exact hin
    have hw : 0 < s.bbox.width := by unfold AARect.width; linarith [hs.bbox_valid.1]
    set xOut := s.bbox.xMax + s.bbox.width with hxo
    have hout : p.x < xOut := by have := hin.2.1; linarith
    have hev := (countP_parity (sides s.points) (fun t => SPoly.countsEdge f p xOut ⟨t.1, t.2⟩ = true)
        (fun t => SPoly.countsEdge Fpa.exact p xOut ⟨t.1, t.2⟩ = true) (fun t => Shifted f p t.1) (fun t => Shifted f p t.2) (by
        intro t ht
        have hm := sides_mem ht
        have b1 := (mem_boundingBox hm.1).2.1
        have b2 := (mem_boundingBox hm.2).2.1
        rw [← hs.bbox_eq] at b1 b2
        rw [countsEdge_iff (e := ⟨t.1, t.2⟩) (fun h => hpb ⟨t, ht, h⟩) hout (by simp only; linarith) (by simp only; linarith)]
        exact countsEdge_tolerant hf hpM (e := ⟨t.1, t.2⟩) (hb _ hm.1) (hb _ hm.2) h0 (fun w hw => hp w ⟨t, ht, hw⟩) hout
          (by simp only; linarith) (by simp only; linarith))).2 (strip_count_even s.points (Shifted f p))
    have conv : ∀ g : Fpa K, (s.edges.filter (SPoly.countsEdge g p xOut)).length =
        (sides s.points).countP (fun t => @decide (SPoly.countsEdge g p xOut ⟨t.1, t.2⟩ = true) (Classical.propDecidable _)) := by
      intro g
      rw [← polyEdges_sides, List.countP_map, ← List.countP_eq_length_filter]
      apply List.countP_congr
      intro e _
      simp
    rw [conv f, conv Fpa.exact, ← Nat.odd_iff, ← Nat.odd_iff, ← Nat.not_even_iff_odd, ← Nat.not_even_iff_odd]
    rw [Nat.even_add] at hev
    rw [hev]
  · rw [if_neg hbox, if_neg hbox]

end Jagua
