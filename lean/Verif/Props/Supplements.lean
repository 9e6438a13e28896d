import Verif.Props.Poles
import Verif.Props.Distances
import Verif.Props.ProblemEnum
import Verif.Spec.Tolerance

/-! # Additions to C33, C41, C62, C68 and C74 -/

set_option linter.unusedSectionVars false

namespace Jagua

variable {K : Type*} [Field K] [LinearOrder K] [IsStrictOrderedRing K]

/-! ## Rectangles -/

/-- C33: the bounding rectangle of two rectangles contains both, and every rectangle that contains both contains it. -/
theorem C33_bounding_rectangle {a b : AARect K} (ha : a.Valid) (hb : b.Valid) :
    (a.boundingRectangle b).Valid ∧ a.pts ⊆ (a.boundingRectangle b).pts ∧ b.pts ⊆ (a.boundingRectangle b).pts ∧
    ∀ r : AARect K, a.pts ⊆ r.pts → b.pts ⊆ r.pts → (a.boundingRectangle b).pts ⊆ r.pts := by
  obtain ⟨a1, a2⟩ := ha
  obtain ⟨b1, b2⟩ := hb
  unfold AARect.boundingRectangle
  refine ⟨⟨lt_of_le_of_lt (min_le_left _ _) (lt_of_lt_of_le a1 (le_max_left _ _)), lt_of_le_of_lt (min_le_left _ _) (lt_of_lt_of_le a2 (le_max_left _ _))⟩,
    ?_, ?_, ?_⟩
  · rintro p ⟨h1, h2, h3, h4⟩
    exact ⟨(min_le_left _ _).trans h1, h2.trans (le_max_left _ _), (min_le_left _ _).trans h3, h4.trans (le_max_left _ _)⟩
  · rintro p ⟨h1, h2, h3, h4⟩
    exact ⟨(min_le_right _ _).trans h1, h2.trans (le_max_right _ _), (min_le_right _ _).trans h3, h4.trans (le_max_right _ _)⟩
  · intro r hra hrb p ⟨h1, h2, h3, h4⟩
    obtain ⟨c1, -, c3, -⟩ := hra (a := ⟨a.xMin, a.yMin⟩) ⟨le_rfl, a1.le, le_rfl, a2.le⟩
    obtain ⟨-, c2, -, c4⟩ := hra (a := ⟨a.xMax, a.yMax⟩) ⟨a1.le, le_rfl, a2.le, le_rfl⟩
    obtain ⟨d1, -, d3, -⟩ := hrb (a := ⟨b.xMin, b.yMin⟩) ⟨le_rfl, b1.le, le_rfl, b2.le⟩
    obtain ⟨-, d2, -, d4⟩ := hrb (a := ⟨b.xMax, b.yMax⟩) ⟨b1.le, le_rfl, b2.le, le_rfl⟩
    exact ⟨(le_min c1 d1).trans h1, h2.trans (max_le c2 d2), (le_min c3 d3).trans h3, h4.trans (max_le c4 d4)⟩

example : (⟨0, 0, 2, 3⟩ : AARect ℚ).boundingRectangle ⟨1, -1, 5, 2⟩ = ⟨0, -1, 5, 3⟩ := by decide +kernel

/-- C68: the tolerant test of a point against a rectangle misses no point of the rectangle and reports only points that a point of
the square with half side `ε` around them is in the rectangle; with exact comparisons it is the plain test. -/
theorem C68_almost_in_rectangle {f : Fpa K} {M ε : K} (hf : f.Tolerant M ε) (h0 : 0 ≤ ε) {r : AARect K} (hv : r.Valid) {p : Point K} :
    (p ∈ r.pts → r.almostCollidesPoint f p = true) ∧
    (|r.xMin| ≤ M → |r.xMax| ≤ M → |r.yMin| ≤ M → |r.yMax| ≤ M → |p.x| ≤ M → |p.y| ≤ M →
      r.almostCollidesPoint f p = true → (around p ε ∩ r.pts).Nonempty) ∧
    r.almostCollidesPoint Fpa.exact p = r.collidesPoint p := by
  have hle : ∀ a b : K, a ≤ b → f.le a b = true := by
    intro a b h
    unfold Fpa.le
    rcases h.eq_or_lt with rfl | h
    · simp [hf.refl]
    · simp [h]
  have hge : ∀ a b : K, |a| ≤ M → |b| ≤ M → f.le a b = true → a ≤ b + ε := by
    intro a b h1 h2 h
    unfold Fpa.le at h
    rcases Bool.or_eq_true_iff.1 h with h | h
    · have := (abs_le.1 (hf.near a b h1 h2 h)).2
      linarith
    · have := of_decide_eq_true h
      linarith
  refine ⟨?_, ?_, ?_⟩
  · rintro ⟨h1, h2, h3, h4⟩
    unfold AARect.almostCollidesPoint
    simp [hle _ _ h1, hle _ _ h2, hle _ _ h3, hle _ _ h4]
  · intro m1 m2 m3 m4 m5 m6 h
    unfold AARect.almostCollidesPoint at h
    simp only [Bool.and_eq_true] at h
    obtain ⟨⟨⟨h1, h2⟩, h3⟩, h4⟩ := h
    have h1 := hge _ _ m1 m5 h1
    have h2 := hge _ _ m5 m2 h2
    have h3 := hge _ _ m3 m6 h3
    have h4 := hge _ _ m6 m4 h4
    obtain ⟨v1, v2⟩ := hv
    have clamp : ∀ lo hi x : K, lo < hi → lo ≤ x + ε → x ≤ hi + ε → |max lo (min hi x) - x| ≤ ε ∧ lo ≤ max lo (min hi x) ∧ max lo (min hi x) ≤ hi := by
      intro lo hi x hlt ha hb
      refine ⟨?_, le_max_left _ _, max_le hlt.le (min_le_left _ _)⟩
      rcases le_total hi x with hx | hx
      · rw [min_eq_left hx, max_eq_right hlt.le, abs_le]
        constructor <;> linarith
      · rw [min_eq_right hx]
        rcases le_total lo x with hy | hy
        · rw [max_eq_right hy, sub_self, abs_zero]
          exact h0
        · rw [max_eq_left hy, abs_le]
          constructor <;> linarith
    obtain ⟨x1, x2, x3⟩ := clamp _ _ _ v1 h1 h2
    obtain ⟨y1, y2, y3⟩ := clamp _ _ _ v2 h3 h4
    exact ⟨⟨max r.xMin (min r.xMax p.x), max r.yMin (min r.yMax p.y)⟩, ⟨x1, y1⟩, x2, x3, y2, y3⟩
  · have he : ∀ a b : K, (Fpa.exact : Fpa K).le a b = decide (a ≤ b) := by
      intro a b
      unfold Fpa.le Fpa.exact
      rw [Bool.eq_iff_iff]
      simp [le_iff_eq_or_lt]
    unfold AARect.almostCollidesPoint AARect.collidesPoint
    simp only [he, ge_iff_le]

-- a point that is just outside: found with a tolerance of a tenth, not exactly
example : (⟨0, 0, 2, 3⟩ : AARect ℚ).almostCollidesPoint (Fpa.relative (1 / 10)) ⟨21 / 10, 1⟩ = true ∧
    (⟨0, 0, 2, 3⟩ : AARect ℚ).almostCollidesPoint Fpa.exact ⟨21 / 10, 1⟩ = false ∧
    (⟨0, 0, 2, 3⟩ : AARect ℚ).almostCollidesPoint (Fpa.relative (1 / 10)) ⟨5 / 2, 1⟩ = false := by decide +kernel

/-! ## Distances of edges -/

/-- C62: an edge has no inside, so every point is outside of it and the distance to its border is the distance to the edge. -/
theorem C62_edge_border {env : HEnv K} (hs : env.SqrtExact) (e : Edge K) (p : Point K) :
    ∃ d, e.distanceFromBorder env p = (.exterior, d) ∧ e.sqDistanceFromBorder p = (.exterior, d ^ 2) ∧ IsDist {p} e.pts d := by
  obtain ⟨h1, h2⟩ := (C62_point_distances hs p).1 e
  refine ⟨_, rfl, ?_, h1⟩
  unfold Edge.sqDistanceFromBorder
  rw [h2]

example : ∃ d : ℝ, Edge.distanceFromBorder HEnv.real ⟨⟨0, 0⟩, ⟨4, 0⟩⟩ ⟨1, 3⟩ = (.exterior, d) ∧ d = 3 := by
  obtain ⟨d, h1, h2, h3⟩ := C62_edge_border HEnv.real_sqrt (⟨⟨0, 0⟩, ⟨4, 0⟩⟩ : Edge ℝ) ⟨1, 3⟩
  refine ⟨d, h1, ?_⟩
  obtain ⟨h4, ⟨p, hp, q, hq, h5⟩, h6⟩ := h3
  have h7 := h6 ⟨1, 3⟩ rfl ⟨1, 0⟩ ⟨1 / 4, by norm_num, by norm_num, by norm_num, by norm_num⟩
  obtain rfl := hp
  obtain ⟨t, t1, t2, t3, t4⟩ := hq
  norm_num at h5 h7 t4
  nlinarith [sq_nonneg (1 - q.x)]

/-! ## Surrogates -/

/-- C41: generating the surrogate of a polygon changes nothing else, and the discs of the surrogate lie in its bounding circle. -/
theorem C41_generate_surrogate {env : HEnv K} (hs : env.SqrtExact) (hf : env.f = Fpa.exact) (hm : 0 ≤ env.fmax)
    {pts : List (Point K)} {s : SPoly K} (hb : SPoly.build env pts = some s) {pi : K} {piers : SPoly K → ℕ → Option (List (Edge K))}
    {cfg : SurrogateConfig K} {s' : SPoly K} (h : s.generateSurrogate env pi piers cfg = some s') :
    s'.points = s.points ∧ s'.area = s.area ∧ s'.bbox = s.bbox ∧ s'.poi = s.poi ∧
    ∃ sur, s'.surrogate = some sur ∧ s.poi ∈ sur.poles ∧ ∀ c ∈ sur.poles, c.pts ⊆ sur.polesBoundingCircle.pts := by
  obtain ⟨sur, h1, rfl⟩ := Option.map_eq_some_iff.1 h
  obtain ⟨extra, h2, h3, -⟩ := Surrogate.new_poles h1
  refine ⟨rfl, rfl, rfl, rfl, sur, rfl, ?_, C41_surrogate_bounding_circle hs hf hm hb h1⟩
  rw [h3]
  exact List.mem_cons_self

-- the 4 × 4 square
example : ∃ s s', SPoly.build HEnv.real (rectPoly (0 : ℝ) 0 4 4) = some s ∧ s.surrogate = none ∧
    s.generateSurrogate HEnv.real 3 (fun _ _ => some []) ⟨1, 2, 2, 0⟩ = some s' ∧ s'.surrogate ≠ none := by
  obtain ⟨s, sur, h1, h2, -⟩ := Ex.real_surrogate
  refine ⟨s, _, h1, (SPoly.build_spec h1).2.2.1, by unfold SPoly.generateSurrogate; rw [h2]; rfl, by simp⟩

/-! ## Usage -/

/-- C74: the usage of a problem of either kind is the total area of the items over the total area of the bins, and a restored
problem has the usage that the problem had when the solution was made. -/
theorem C74_usage {env : StripEnv K} {st st₁ st₂ : ProblemState K n} (hr : st.Reachable env) (ha : ∀ l ∈ st.p.layouts, l.bin.area ≠ 0) :
    st.p.usage = (st.p.layouts.map fun l => (l.placed.values.map (·.shape.val.area)).sum).sum / (st.p.layouts.map (·.bin.area)).sum ∧
    ∀ {s : Solution K n}, st.p.createSolution none = some (s, st₁.p) → st₁.sols = st.sols ++ [s] → ProblemState.Leads env st₁ st₂ →
      (env.overflowChecks = true → ∀ (i : ℕ) (x : Item K × ℕ) (c : ℕ), st.p.items[i]? = some x → st.p.placedItemQtys[i]? = some c → c ≤ x.2) →
      ∃ p₃, st₂.p.restore env.toEnv s = some p₃ ∧ p₃.usage = st.p.usage := by
  constructor
  · unfold Problem.usage problemUsage
    rw [fsum_eq, fsum_eq]
    congr 2
    refine List.map_congr_left fun l hl => ?_
    unfold Layout.usage
    rw [fsum_eq]
    field_simp [ha l hl]
  · intro s hs h₁ hl hoc
    obtain ⟨p₃, h1, h2, -⟩ := C74_restore hr hs h₁ hl hoc
    refine ⟨p₃, h1, ?_⟩
    unfold Problem.usage problemUsage
    simp only [fsum_eq]
    have e1 := (h2.map fun v => v.2.1.area * (fsum (v.2.2.values.map (·.shape.val.area)) / v.2.1.area)).sum_eq
    have e2 := (h2.map fun v => v.2.1.area).sum_eq
    rw [List.map_map, List.map_map] at e1 e2
    exact congrArg₂ _ e1 e2

-- a bin with two items that cover a part of it
example : ∃ st : BPState ℚ 2, (ProblemState.bp st).Reachable Ex.senv ∧ (∀ l ∈ (Problem.bp st.p).layouts, l.bin.area ≠ 0) ∧
    0 < (Problem.bp st.p).usage ∧ (Problem.bp st.p).usage < 1 := by
  obtain ⟨st, hst⟩ : ∃ st, Ex.bpAfter Ex.bpOps2 = some st := Option.isSome_iff_exists.1 (by decide +kernel)
  have h : (Ex.bpAfter Ex.bpOps2).map (fun st : BPState ℚ 2 => decide ((∀ l ∈ (Problem.bp st.p).layouts, l.bin.area ≠ 0) ∧ 0 < (Problem.bp st.p).usage ∧
      (Problem.bp st.p).usage < 1)) = some true := by decide +kernel
  rw [hst] at h
  exact ⟨st, Ex.bpAfter_reachable hst, of_decide_eq_true (Option.some.inj h)⟩

end Jagua
