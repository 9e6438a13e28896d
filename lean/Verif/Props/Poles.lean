import Verif.Lemmas.Poles2
import Verif.Lemmas.StripGeo
import Verif.Spec.FailFastExamples

/-! # C41, C47: bounding circles, poles and surrogates -/

set_option linter.unusedSectionVars false

namespace Jagua

variable {K : Type*} [Field K] [LinearOrder K] [IsStrictOrderedRing K]

/-! ## C41 The bounding circle contains all circles -/

theorem foldlM_boundStep {env : HEnv K} (hs : env.SqrtExact) {cs : List (Circle K)} {b : Circle K} (hb : 0 ≤ b.radius)
    (h : ∀ c ∈ cs, 0 ≤ c.radius ∧ c.radius ≤ b.radius) :
    ∃ b', cs.foldlM (Circle.boundStep env) b = some b' ∧ b.pts ⊆ b'.pts ∧ ∀ c ∈ cs, c.pts ⊆ b'.pts := by
  induction cs generalizing b with
  | nil => exact ⟨b, rfl, subset_rfl, by simp⟩
  | cons c cs ih =>
    obtain ⟨c0, c1⟩ := h c List.mem_cons_self
    have hd := (hs (b.center.sqDistance c.center) (sqDist_nonneg _ _)).1
    obtain ⟨b1, h1, h2, h3, h4⟩ := Circle.boundStep_spec hs hb c0 (by linarith)
    obtain ⟨b', i1, i2, i3⟩ := ih (hb.trans h4) fun d hd =>
      ⟨(h d (List.mem_cons_of_mem _ hd)).1, (h d (List.mem_cons_of_mem _ hd)).2.trans h4⟩
    refine ⟨b', ?_, h2.trans i2, ?_⟩
    · rw [List.foldlM_cons, h1]
      exact i1
    · intro d hd
      rcases List.mem_cons.1 hd with rfl | hd
      · exact h3.trans i2
      · exact i3 d hd

/-- The bounding circle exists and contains every circle of the list, provided that the first
circle is not smaller than the others. Missing for the full statement: lists where a later circle
is larger (`C41_bound_can_be_too_small`, `C41_bound_can_panic`: the statement is false for those). -/
theorem C41_bounding_circle_partial {env : HEnv K} (hs : env.SqrtExact) {c : Circle K} {cs : List (Circle K)} (hc : 0 ≤ c.radius)
    (h : ∀ d ∈ cs, 0 ≤ d.radius ∧ d.radius ≤ c.radius) :
    ∃ b, Circle.boundingCircle env (c :: cs) = some b ∧ ∀ d ∈ c :: cs, d.pts ⊆ b.pts := by
  obtain ⟨b, h1, h2, h3⟩ := foldlM_boundStep hs hc h
  refine ⟨b, h1, ?_⟩
  intro d hd
  rcases List.mem_cons.1 hd with rfl | hd
  · exact h2
  · exact h3 d hd

/-- three circles, the first being the largest -/
example : HEnv.real.SqrtExact ∧ (0 : ℝ) ≤ 5 ∧
    ∀ d ∈ [(⟨⟨4, 0⟩, 3⟩ : Circle ℝ), ⟨⟨0, 9⟩, 5⟩], 0 ≤ d.radius ∧ d.radius ≤ 5 := by
  refine ⟨HEnv.real_sqrt, by norm_num, ?_⟩
  simp only [List.mem_cons, List.not_mem_nil, or_false, forall_eq_or_imp, forall_eq]
  norm_num

/-- **The code can return a circle that is too small**: two circles, the second larger and
containing the centre of the first. The result is even smaller than the second circle. -/
theorem C41_bound_can_be_too_small :
    ∃ b : Circle ℝ, Circle.boundingCircle HEnv.real [⟨⟨0, 0⟩, 1⟩, ⟨⟨1, 0⟩, 5⟩] = some b ∧
      ∃ p ∈ (⟨⟨1, 0⟩, 5⟩ : Circle ℝ).pts, p ∉ b.pts := by
  have s1 : HEnv.real.sqrt ((⟨0, 0⟩ : Point ℝ).sqDistance ⟨1, 0⟩) = 1 :=
    HEnv.real_sqrt.eq (by norm_num) (by unfold Point.sqDistance; norm_num)
  have s2 : HEnv.real.sqrt ((⟨-1, 0⟩ : Point ℝ).sqDistance ⟨1, 0⟩) = 2 :=
    HEnv.real_sqrt.eq (by norm_num) (by unfold Point.sqDistance; norm_num)
  have s3 : HEnv.real.sqrt ((⟨-1, 0⟩ : Point ℝ).sqDistance ⟨6, 0⟩) = 7 :=
    HEnv.real_sqrt.eq (by norm_num) (by unfold Point.sqDistance; norm_num)
  have e : Circle.boundingCircle HEnv.real [⟨⟨0, 0⟩, 1⟩, ⟨⟨1, 0⟩, 5⟩] = some ⟨⟨5 / 2, 0⟩, 7 / 2⟩ := by
    have hne : (⟨0, 0⟩ : Point ℝ) ≠ ⟨1, 0⟩ := by simp
    have f1 : (Edge.mk (⟨0, 0⟩ : Point ℝ) ⟨1, 0⟩).extendAtFront HEnv.real 1 = ⟨⟨-1, 0⟩, ⟨1, 0⟩⟩ := by
      unfold Edge.extendAtFront Edge.diameter
      rw [s1]
      norm_num
    have f2 : (Edge.mk (⟨-1, 0⟩ : Point ℝ) ⟨1, 0⟩).extendAtBack HEnv.real 5 = ⟨⟨-1, 0⟩, ⟨6, 0⟩⟩ := by
      unfold Edge.extendAtBack Edge.diameter
      rw [s2]
      norm_num
    show List.foldlM (Circle.boundStep HEnv.real) _ [_] = _
    rw [List.foldlM_cons]
    unfold Circle.boundStep
    rw [s1, if_pos (by norm_num)]
    unfold Edge.mk?
    rw [if_neg hne]
    simp only [Option.map_some, f1, f2]
    unfold Edge.diameter Edge.centroid
    rw [s3]
    simp only [Option.bind_eq_bind, Option.bind_some, List.foldlM_nil]
    show some _ = some _
    norm_num
  refine ⟨_, e, ⟨-4, 0⟩, ?_, ?_⟩
  · show ((-4 : ℝ) - 1) ^ 2 + (0 - 0) ^ 2 ≤ 5 ^ 2
    norm_num
  · show ¬ ((-4 : ℝ) - 5 / 2) ^ 2 + (0 - 0) ^ 2 ≤ (7 / 2) ^ 2
    norm_num

/-- **The code can panic**: a later circle with the centre of the first and larger. -/
theorem C41_bound_can_panic {env : HEnv K} (hs : env.SqrtExact) {c d : Circle K} (h : c.center = d.center)
    (hr : c.radius < d.radius) (cs : List (Circle K)) : Circle.boundingCircle env (c :: d :: cs) = none := by
  have hd := (hs (c.center.sqDistance d.center) (sqDist_nonneg _ _)).1
  show List.foldlM (Circle.boundStep env) c (d :: cs) = none
  rw [List.foldlM_cons]
  unfold Circle.boundStep Edge.mk?
  rw [if_pos (by linarith), if_pos h]
  rfl

example : HEnv.real.SqrtExact ∧ (1 : ℝ) < 2 := ⟨HEnv.real_sqrt, by norm_num⟩

/-! ## C47 Poles -/

/-- A generated pole has a positive radius and its centre inside the polygon; the disc lies in the
polygon, no edge enters the open disc, and the open disc is disjoint from the open discs of the
poles given. Square roots are rounded down (or exact). -/
theorem C47_pole_is_inner_circle {env : HEnv K} {Rep : K → Prop} (hs : env.SqrtDown Rep) (hf : env.f = Fpa.exact) (hm : 0 ≤ env.fmax)
    {s : SPoly K} (hw : s.WF) {poles : List (Circle K)} (hp : ∀ c ∈ poles, Rep c.radius ∧ 0 < c.radius) {c : Circle K}
    (h : generateNextPole env s poles = some c) :
    0 < c.radius ∧ c.center ∈ interior s.points ∧ c.pts ⊆ region s.points ∧
      (∀ w ∈ bdry s.points, ¬ sqDist w c.center < c.radius ^ 2) ∧
      ∀ d ∈ poles, ∀ x, sqDist x c.center < c.radius ^ 2 → ¬ sqDist x d.center < d.radius ^ 2 := by
  obtain ⟨g, -⟩ := generateNextPole_good hs hf hm hw (fun c hc => ⟨(hp c hc).1, (hp c hc).2.le⟩) h
  refine ⟨g.pos, g.center, disc_subset_region g.pos g.center g.edges, ?_, ?_⟩
  · intro w hwb
    rw [sqDist_comm]
    exact not_lt.2 (g.edges w hwb)
  · intro d hd x h1 h2
    have := sqDist_triangle_lt g.pos (hp d hd).2 (p := c.center) (q := x) (r := d.center) (by rw [sqDist_comm]; exact h1) h2
    exact absurd (g.others d hd) (not_le.2 this)

/-- The search terminates: the number of rounds never exceeds the number of nodes of the tree, so
that the result is the best circle of the loop (or the panic without one). -/
theorem C47_search_terminates (env : HEnv K) (s : SPoly K) (poles : List (Circle K)) :
    ∃ b, poiLoop env s poles (poiTreeSize maxPoiTreeDepth) [POINode.new env s.bbox.inflateToSquare maxPoiTreeDepth s poles] none = some b ∧
      generateNextPole env s poles = b :=
  let ⟨b, h1, h2, _⟩ := generateNextPole_loop env s poles
  ⟨b, h1, h2⟩

/-- **The pole is the best of all candidates**: no disc around a centre of the ten times quartered
square that fits into the polygon and beside the given poles is larger. In particular cutting off
branches loses nothing. -/
theorem C47_pole_is_largest {env : HEnv K} (hs : env.SqrtExact) (hf : env.f = Fpa.exact) (hm : 0 ≤ env.fmax)
    {s : SPoly K} (hw : s.WF) {poles : List (Circle K)} (hp : ∀ c ∈ poles, 0 ≤ c.radius) {c : Circle K}
    (h : generateNextPole env s poles = some c) {d : Circle K} (hd : GoodPole s.points poles d)
    (hc : d.center ∈ gridCentres s.bbox.inflateToSquare 10) (hmax : d.radius ≤ env.fmax) : d.radius ≤ c.radius := by
  rw [← poiCandidates_eq hw] at hc
  have := generateNextPole_best hs hf hm hw hp hc
  rw [h] at this
  exact (signedDistance_ge hs hf hw hp hd hmax).trans this

/-- **The search fails exactly when no centre of the ten times quartered square lies inside the
polygon and outside of the given poles.** -/
theorem C47_no_pole_iff {env : HEnv K} (hs : env.SqrtExact) (hf : env.f = Fpa.exact) (hm : 0 < env.fmax)
    {s : SPoly K} (hw : s.WF) {poles : List (Circle K)} (hp : ∀ c ∈ poles, 0 ≤ c.radius) :
    generateNextPole env s poles = none ↔
      ∀ p ∈ gridCentres s.bbox.inflateToSquare 10, p ∉ interior s.points ∨ ∃ c ∈ poles, p ∈ c.pts := by
  rw [← poiCandidates_eq hw]
  constructor
  · intro h p hpc
    by_contra hcon
    push Not at hcon
    have h1 := generateNextPole_best hs hf hm.le hw hp hpc
    rw [h] at h1
    have h2 := signedDistance_pos hs hf hm hw hcon.1 hcon.2
    exact absurd h2 (not_lt.2 h1)
  · intro h
    by_contra hcon
    obtain ⟨c, hc⟩ := Option.ne_none_iff_exists'.1 hcon
    obtain ⟨h1, -, -⟩ := generateNextPole_center hw hc
    obtain ⟨g, -⟩ := generateNextPole_good hs.down hf hm.le hw (fun c hc => ⟨trivial, hp c hc⟩) hc
    rcases h _ h1 with h2 | ⟨d, hd, h2⟩
    · exact h2 g.center
    · have h3 : sqDist c.center d.center ≤ d.radius ^ 2 := h2
      have h4 := g.others d hd
      have := g.pos
      have := hp d hd
      nlinarith

/-- **Thin shapes panic**: the search finds no pole in a right triangle that is more than a
thousand times as wide as high, so that `SimplePolygon::new` panics. -/
theorem C47_thin_triangle_panics {env : HEnv K} {Rep : K → Prop} (hs : env.SqrtDown Rep) (hf : env.f = Fpa.exact) (hm : 0 ≤ env.fmax)
    {w h : K} (h0 : 0 < h) (hwh : 1024 * h < w) : SPoly.build env [⟨0, 0⟩, ⟨w, 0⟩, ⟨0, h⟩] = none := by
  by_contra hcon
  obtain ⟨s, hb⟩ := Option.ne_none_iff_exists'.1 hcon
  obtain ⟨hw, hgen, -, s0, hs0, hs1⟩ := SPoly.build_spec hb
  have hwpos : 0 < w := by linarith
  have hpts : s.points = [⟨0, 0⟩, ⟨w, 0⟩, ⟨0, h⟩] := by
    have hp0 : s.points = s0.points := by rw [hs1]
    rw [hp0, (SPoly.new_spec hs0).2.2.2.2.1]
    have e : signedArea [(⟨0, 0⟩ : Point K), ⟨w, 0⟩, ⟨0, h⟩] = w * h / 2 := by
      unfold signedArea sides
      simp
      ring
    rw [e, if_neg (by push Not; positivity)]
  have hbox : s.bbox = ⟨0, 0, w, h⟩ := by
    rw [hw.bbox_eq, hpts]
    simp [boundingBox, hwpos.le, h0.le]
  obtain ⟨hcand, -, -⟩ := generateNextPole_center hw hgen
  obtain ⟨g, -⟩ := generateNextPole_good hs hf hm hw (by simp) hgen
  obtain ⟨b, hb1, hb2⟩ := hcand
  have hin := interior_subset_inner g.center
  rw [← hw.bbox_eq, hbox] at hin
  rcases hb1.mid_bound (inflateToSquare_valid hw.bbox_valid) with rfl | hmid
  · -- the middle lies on the long side
    refine g.center.1 ?_
    rw [hpts]
    refine ⟨(⟨w, 0⟩, ⟨0, h⟩), by simp [sides], 1 / 2, by norm_num, by norm_num, ?_, ?_⟩ <;>
    · rw [hb2, hbox]
      simp only [AARect.centroid, AARect.inflateToSquare]
      ring
  · rw [← hb2, hbox] at hmid
    obtain ⟨-, -, hy1, hy2⟩ := hin
    have hsq : AARect.inflateToSquare (⟨0, 0, w, h⟩ : AARect K) = ⟨0, 0 - (w - h) / 2, w, h + (w - h) / 2⟩ := by
      unfold AARect.inflateToSquare
      simp only [sub_zero]
      have : h < w := by linarith
      simp [this]
    rw [hsq] at hmid
    dsimp only at hy1 hy2 hmid
    have e : h + (w - h) / 2 - (0 - (w - h) / 2) = w := by ring
    have e2 : (0 - (w - h) / 2 + (h + (w - h) / 2)) / 2 = h / 2 := by ring
    rw [e, e2, le_abs] at hmid
    have hp : (2 : K) ^ (maxPoiTreeDepth + 1) = 2048 := by unfold maxPoiTreeDepth; norm_num
    rw [hp] at hmid
    rcases hmid with hmid | hmid <;> linarith

example : Ex.lenv.SqrtDown Ex.Hundredth ∧ (0 : ℚ) < 1 / 1000 ∧ (1024 * (1 / 1000) : ℚ) < 2 := ⟨Ex.lenv_sqrt, by norm_num, by norm_num⟩

/-! ### Rectangles -/

theorem gridCentres_root (r : AARect K) (d : ℕ) : r.centroid ∈ gridCentres r d := by
  refine ⟨0, by omega, 0, by simp, 0, by simp, ?_⟩
  simp only [AARect.centroid, Point.mk.injEq]
  constructor <;> · push_cast; ring

theorem inflateToSquare_centroid (r : AARect K) : r.inflateToSquare.centroid = r.centroid := by
  unfold AARect.inflateToSquare AARect.centroid
  simp only [Point.mk.injEq]
  constructor <;> ring

theorem rectShape_wf (poi : List (Point K) → Circle K) {r : AARect K} (hv : r.Valid) : (rectShape poi r).WF :=
  SPoly.new_wf (SPoly.ofRect_eq poi hv)

/-- A rectangle always has a pole: the middle is a candidate. -/
theorem C47_rectangles_have_poles {env : HEnv K} (hs : env.SqrtExact) (hf : env.f = Fpa.exact) (hm : 0 < env.fmax)
    {r : AARect K} (hv : r.Valid) (poi : List (Point K) → Circle K) :
    ∃ c, generateNextPole env (rectShape poi r) [] = some c ∧ c.center ∈ interior (rectPoly r.xMin r.yMin r.xMax r.yMax) := by
  have hw := rectShape_wf poi hv
  have hne : generateNextPole env (rectShape poi r) [] ≠ none := by
    rw [Ne, C47_no_pole_iff hs hf hm hw (by simp)]
    push Not
    refine ⟨r.centroid, ?_, ?_, by simp⟩
    · show _ ∈ gridCentres r.inflateToSquare 10
      rw [← inflateToSquare_centroid]
      exact gridCentres_root _ _
    · show _ ∈ interior (rectPoly r.xMin r.yMin r.xMax r.yMax)
      rw [interior_rectPoly hv.1 hv.2]
      obtain ⟨hx, hy⟩ := hv
      simp only [AARect.centroid]
      refine ⟨?_, ?_, ?_, ?_⟩ <;> linarith
  obtain ⟨c, hc⟩ := Option.ne_none_iff_exists'.1 hne
  exact ⟨c, hc, (C47_pole_is_inner_circle hs.down hf hm.le hw (by simp) hc).2.1⟩

/-- a 9 × 8 rectangle with a pole in one corner: the search finds another pole -/
example : ∃ c : Circle ℝ, ∃ s : SPoly ℝ, s.WF ∧ HEnv.real.SqrtExact ∧ (0 : ℝ) < HEnv.real.fmax ∧
    (∀ c ∈ [(⟨⟨7, 6⟩, 2⟩ : Circle ℝ)], True ∧ 0 < c.radius) ∧ generateNextPole HEnv.real s [⟨⟨7, 6⟩, 2⟩] = some c := by
  have hv : (⟨0, 0, 9, 8⟩ : AARect ℝ).Valid := by constructor <;> norm_num
  have hw := rectShape_wf (fun _ => ⟨⟨0, 0⟩, 0⟩) hv
  have hm : (0 : ℝ) < HEnv.real.fmax := by show (0 : ℝ) < 1000000; norm_num
  have hne : generateNextPole HEnv.real (rectShape (fun _ => ⟨⟨0, 0⟩, 0⟩) ⟨0, 0, 9, 8⟩) [⟨⟨7, 6⟩, 2⟩] ≠ none := by
    rw [Ne, C47_no_pole_iff HEnv.real_sqrt rfl hm hw (by simp)]
    push Not
    refine ⟨(⟨0, 0, 9, 8⟩ : AARect ℝ).centroid, ?_, ?_, ?_⟩
    · show _ ∈ gridCentres (⟨0, 0, 9, 8⟩ : AARect ℝ).inflateToSquare 10
      rw [← inflateToSquare_centroid]
      exact gridCentres_root _ _
    · show _ ∈ interior (rectPoly (0 : ℝ) 0 9 8)
      rw [interior_rectPoly (by norm_num) (by norm_num)]
      simp only [AARect.centroid]
      norm_num
    · intro c hc
      rw [List.mem_singleton.1 hc]
      show ¬ ((0 + 9 : ℝ) / 2 - 7) ^ 2 + ((0 + 8 : ℝ) / 2 - 6) ^ 2 ≤ 2 ^ 2
      norm_num
  obtain ⟨c, hc⟩ := Option.ne_none_iff_exists'.1 hne
  exact ⟨c, _, hw, HEnv.real_sqrt, hm, by simp, hc⟩

/-- a disc that meets the requirements of `C47_pole_is_largest` -/
example : GoodPole (rectPoly (0 : ℝ) 0 4 4) [] ⟨⟨2, 2⟩, 1⟩ ∧ (⟨2, 2⟩ : Point ℝ) ∈ gridCentres (⟨0, 0, 4, 4⟩ : AARect ℝ) 10 := by
  refine ⟨⟨by norm_num, ?_, ?_, by simp⟩, ?_⟩
  · rw [interior_rectPoly (by norm_num) (by norm_num)]
    norm_num
  · intro w hw
    rw [bdry_rectPoly (by norm_num) (by norm_num)] at hw
    unfold sqDist
    dsimp only
    rcases hw.2 with h | h | h | h <;> rw [h] <;> nlinarith [sq_nonneg (2 - w.x), sq_nonneg (2 - w.y)]
  · have := gridCentres_root (⟨0, 0, 4, 4⟩ : AARect ℝ) 10
    simp only [AARect.centroid] at this
    norm_num at this
    exact this

/-! ### The poles of a surrogate -/

theorem Surrogate.new_poles {env : HEnv K} {pi : K} {piers : SPoly K → ℕ → Option (List (Edge K))} {s : SPoly K} {cfg : SurrogateConfig K}
    {sur : Surrogate K} (h : Surrogate.new env pi piers s cfg = some sur) :
    ∃ extra, additionalPoles env pi s (cfg.maxPoles - 1) cfg.coverageGoal = some extra ∧ sur.poles = s.poi :: extra ∧
      Circle.boundingCircle env (s.poi :: extra) = some sur.polesBoundingCircle ∧ sur.nFfPoles = min cfg.nFfPoles (s.poi :: extra).length ∧
      piers s cfg.nFfPiers = some sur.piers := by
  unfold Surrogate.new at h
  obtain ⟨idx, -, h⟩ := Option.bind_eq_some_iff.1 h
  obtain ⟨hull, -, h⟩ := Option.bind_eq_some_iff.1 h
  obtain ⟨hs, -, h⟩ := Option.bind_eq_some_iff.1 h
  obtain ⟨extra, h1, h⟩ := Option.bind_eq_some_iff.1 h
  obtain ⟨bc, h2, h⟩ := Option.bind_eq_some_iff.1 h
  obtain ⟨ps, h3, rfl⟩ := Option.map_eq_some_iff.1 h
  exact ⟨extra, h1, rfl, h2, rfl, h3⟩

/-- **The poles of the surrogate of a polygon** begin with its pole of inaccessibility; each lies in
the polygon, the open discs are pairwise disjoint, and there are at most as many as configured. -/
theorem C47_surrogate_poles {env : HEnv K} {Rep : K → Prop} (hs : env.SqrtDown Rep) (hf : env.f = Fpa.exact) (hm : 0 ≤ env.fmax)
    {pts : List (Point K)} {s : SPoly K} (hb : SPoly.build env pts = some s) {pi : K} {piers : SPoly K → ℕ → Option (List (Edge K))}
    {cfg : SurrogateConfig K} {sur : Surrogate K} (h : Surrogate.new env pi piers s cfg = some sur) :
    sur.poles.head? = some s.poi ∧ (∀ c ∈ sur.poles, 0 < c.radius ∧ c.center ∈ interior s.points ∧ c.pts ⊆ region s.points) ∧
      (sur.poles.Pairwise fun a b => ∀ x, sqDist x a.center < a.radius ^ 2 → ¬ sqDist x b.center < b.radius ^ 2) ∧
      sur.poles.length ≤ max 1 cfg.maxPoles ∧ sur.nFfPoles ≤ sur.poles.length := by
  obtain ⟨extra, h1, h2, -, h4, -⟩ := Surrogate.new_poles h
  obtain ⟨hw, hgen, -⟩ := SPoly.build_spec hb
  obtain ⟨g, gr⟩ := generateNextPole_good hs hf hm hw (by simp) hgen
  obtain ⟨e1, -, e3, -⟩ := additionalPoles_spec hs hf hm hw (by
    refine ⟨?_, List.pairwise_singleton _ _⟩
    intro c hc
    rw [List.mem_singleton.1 hc]
    exact ⟨g.pos, g.center, g.edges⟩) gr h1
  rw [h2]
  refine ⟨rfl, ?_, ?_, ?_, ?_⟩
  · intro c hc
    obtain ⟨c1, c2, c3⟩ := e1.1 c hc
    exact ⟨c1, c2, disc_subset_region c1 c2 c3⟩
  · refine e1.2.imp_of_mem ?_
    intro a b ha hb hab x hx1 hx2
    have := sqDist_triangle_lt (e1.1 a ha).1 (e1.1 b hb).1 (p := a.center) (q := x) (r := b.center) (by rw [sqDist_comm]; exact hx1) hx2
    exact absurd hab (not_le.2 this)
  · simp only [List.length_cons]
    omega
  · rw [h4]
    exact min_le_right _ _

/-- **The bounding circle of the poles of a surrogate contains all of them**, because the pole of
inaccessibility comes first and is the largest. -/
theorem C41_surrogate_bounding_circle {env : HEnv K} (hs : env.SqrtExact) (hf : env.f = Fpa.exact) (hm : 0 ≤ env.fmax)
    {pts : List (Point K)} {s : SPoly K} (hb : SPoly.build env pts = some s) {pi : K} {piers : SPoly K → ℕ → Option (List (Edge K))}
    {cfg : SurrogateConfig K} {sur : Surrogate K} (h : Surrogate.new env pi piers s cfg = some sur) :
    ∀ c ∈ sur.poles, c.pts ⊆ sur.polesBoundingCircle.pts := by
  obtain ⟨extra, h1, h2, h3, -, -⟩ := Surrogate.new_poles h
  obtain ⟨hw, hgen, -⟩ := SPoly.build_spec hb
  obtain ⟨g, gr⟩ := generateNextPole_good hs.down hf hm hw (by simp) hgen
  obtain ⟨e1, -, -, e4⟩ := additionalPoles_spec hs.down hf hm hw (by
    refine ⟨?_, List.pairwise_singleton _ _⟩
    intro c hc
    rw [List.mem_singleton.1 hc]
    exact ⟨g.pos, g.center, g.edges⟩) trivial h1
  obtain ⟨b, k1, k2⟩ := C41_bounding_circle_partial hs g.pos.le (cs := extra) (by
    intro d hd
    obtain ⟨ps, -, hps⟩ := e4 d hd
    exact ⟨(e1.1 d (List.mem_cons_of_mem _ hd)).1.le, generateNextPole_le hs hf hm hw hps hgen⟩)
  rw [h3] at k1
  cases k1
  rw [h2]
  exact k2

/-! ### A surrogate with two poles -/

theorem convexHull_rect {x0 y0 x1 y1 : K} (hx : x0 < x1) (hy : y0 < y1) :
    convexHull (rectPoly x0 y0 x1 y1) = rectPoly x0 y0 x1 y1 := by
  have hs : sortByX (rectPoly x0 y0 x1 y1) = [⟨x0, y0⟩, ⟨x0, y1⟩, ⟨x1, y0⟩, ⟨x1, y1⟩] := by
    unfold sortByX rectPoly
    simp [List.insertionSort, List.orderedInsert, hx.not_ge]
  have hp : 0 < (x1 - x0) * (y1 - y0) := mul_pos (sub_pos.2 hx) (sub_pos.2 hy)
  have c1 : hullCross (⟨x0, y0⟩ : Point K) ⟨x0, y1⟩ ⟨x1, y0⟩ ≤ 0 := by unfold hullCross; dsimp only; nlinarith
  have c2 : ¬ hullCross (⟨x0, y0⟩ : Point K) ⟨x1, y0⟩ ⟨x1, y1⟩ ≤ 0 := by unfold hullCross; dsimp only; push Not; nlinarith
  have c3 : hullCross (⟨x1, y1⟩ : Point K) ⟨x1, y0⟩ ⟨x0, y1⟩ ≤ 0 := by unfold hullCross; dsimp only; nlinarith
  have c4 : ¬ hullCross (⟨x1, y1⟩ : Point K) ⟨x0, y1⟩ ⟨x0, y0⟩ ≤ 0 := by unfold hullCross; dsimp only; push Not; nlinarith
  unfold convexHull hullChain
  rw [hs]
  simp [growHull, c1, c2, c3, c4, rectPoly]

theorem SPoly.build_rect {env : HEnv K} (hs : env.SqrtExact) (hf : env.f = Fpa.exact) (hm : 0 < env.fmax)
    {r : AARect K} (hv : r.Valid) : ∃ s, SPoly.build env (rectPoly r.xMin r.yMin r.xMax r.yMax) = some s ∧
      s.points = rectPoly r.xMin r.yMin r.xMax r.yMax ∧ s.bbox = r := by
  obtain ⟨c, hc, -⟩ := C47_rectangles_have_poles hs hf hm hv (fun _ => ⟨⟨env.fmax, env.fmax⟩, env.fmax⟩)
  have hn := SPoly.ofRect_eq (fun _ => ⟨⟨env.fmax, env.fmax⟩, env.fmax⟩) hv
  have hd : ∃ d, sqDiameter (rectPoly r.xMin r.yMin r.xMax r.yMax) = some d := by
    unfold sqDiameter
    dsimp only
    rw [convexHull_rect hv.1 hv.2]
    exact ⟨_, rfl⟩
  obtain ⟨d, hd⟩ := hd
  unfold SPoly.ofRect at hn
  unfold SPoly.build
  change SPoly.new _ (rectPoly r.xMin r.yMin r.xMax r.yMax) = _ at hn
  rw [hn, Option.bind_some]
  have hp : (rectShape (fun _ => (⟨⟨env.fmax, env.fmax⟩, env.fmax⟩ : Circle K)) r).points = rectPoly r.xMin r.yMin r.xMax r.yMax := rfl
  rw [hp, hd, Option.bind_some]
  have hcp : calculatePoi env (rectPoly r.xMin r.yMin r.xMax r.yMax) = some c := by
    rw [← hc]
    unfold calculatePoi
    apply generateNextPole_congr
    · rfl
    · exact boundingBox_rectPoly hv.1 hv.2
  rw [hcp]
  exact ⟨_, rfl, rfl, rfl⟩

/-- the 4 × 4 square and its surrogate with two poles, over the real numbers -/
theorem Ex.real_surrogate : ∃ s sur, SPoly.build HEnv.real (rectPoly (0 : ℝ) 0 4 4) = some s ∧
    Surrogate.new HEnv.real 3 (fun _ _ => some []) s ⟨1, 2, 2, 0⟩ = some sur ∧ sur.poles.length = 2 := by
  have hv : (⟨0, 0, 4, 4⟩ : AARect ℝ).Valid := by constructor <;> norm_num
  have hm : (0 : ℝ) < HEnv.real.fmax := by show (0 : ℝ) < 1000000; norm_num
  obtain ⟨s, hs, hp, hbox⟩ := SPoly.build_rect HEnv.real_sqrt rfl hm hv
  obtain ⟨hw, hgen, -⟩ := SPoly.build_spec hs
  obtain ⟨g, -⟩ := generateNextPole_good HEnv.real_sqrt.down rfl hm.le hw (by simp) hgen
  rw [hp] at g
  have hsq : (⟨0, 0, 4, 4⟩ : AARect ℝ).inflateToSquare = ⟨0, 0, 4, 4⟩ := by unfold AARect.inflateToSquare; simp
  -- the pole is the inscribed circle
  have hge : (2 : ℝ) ≤ s.poi.radius := by
    refine C47_pole_is_largest HEnv.real_sqrt rfl hm.le hw (by simp) hgen (d := ⟨⟨2, 2⟩, 2⟩) ?_ ?_ (by show (2 : ℝ) ≤ 1000000; norm_num)
    · rw [hp]
      refine ⟨by norm_num, ?_, ?_, by simp⟩
      · rw [interior_rectPoly (by norm_num) (by norm_num)]
        norm_num
      · intro w hw
        rw [bdry_rectPoly (by norm_num) (by norm_num)] at hw
        unfold sqDist
        dsimp only
        rcases hw.2 with h | h | h | h <;> rw [h] <;> nlinarith [sq_nonneg (2 - w.x), sq_nonneg (2 - w.y)]
    · rw [hbox, hsq]
      have := gridCentres_root (⟨0, 0, 4, 4⟩ : AARect ℝ) 10
      simp only [AARect.centroid] at this
      norm_num at this
      exact this
  have hi := (interior_rectPoly (by norm_num) (by norm_num) _).1 g.center
  have e1 := g.edges ⟨s.poi.center.x, 0⟩ ((bdry_rectPoly (by norm_num) (by norm_num) _).2 ⟨⟨hi.1.le, hi.2.1.le, by norm_num, by norm_num⟩, by simp⟩)
  have e2 := g.edges ⟨s.poi.center.x, 4⟩ ((bdry_rectPoly (by norm_num) (by norm_num) _).2 ⟨⟨hi.1.le, hi.2.1.le, by norm_num, by norm_num⟩, by simp⟩)
  have e3 := g.edges ⟨0, s.poi.center.y⟩ ((bdry_rectPoly (by norm_num) (by norm_num) _).2 ⟨⟨by norm_num, by norm_num, hi.2.2.1.le, hi.2.2.2.le⟩, by simp⟩)
  have e4 := g.edges ⟨4, s.poi.center.y⟩ ((bdry_rectPoly (by norm_num) (by norm_num) _).2 ⟨⟨by norm_num, by norm_num, hi.2.2.1.le, hi.2.2.2.le⟩, by simp⟩)
  simp only [sqDist, sub_self] at e1 e2 e3 e4
  have f1 := abs_le_of_sq_le_sq' (a := s.poi.radius) (b := s.poi.center.y) (by linarith) hi.2.2.1.le
  have f2 := abs_le_of_sq_le_sq' (a := s.poi.radius) (b := 4 - s.poi.center.y) (by linarith [sq_nonneg (s.poi.center.y - 4)]) (by linarith [hi.2.2.2])
  have f3 := abs_le_of_sq_le_sq' (a := s.poi.radius) (b := s.poi.center.x) (by linarith) hi.1.le
  have f4 := abs_le_of_sq_le_sq' (a := s.poi.radius) (b := 4 - s.poi.center.x) (by linarith [sq_nonneg (s.poi.center.x - 4)]) (by linarith [hi.2.1])
  have hr : s.poi.radius = 2 := by linarith [f1.2, f2.2]
  have hcx : s.poi.center.x = 2 := by linarith [f3.2, f4.2]
  have hcy : s.poi.center.y = 2 := by linarith [f1.2, f2.2]
  -- a candidate in the corner
  have hne : generateNextPole HEnv.real s [s.poi] ≠ none := by
    rw [Ne, C47_no_pole_iff HEnv.real_sqrt rfl hm hw (by simp [hr])]
    push Not
    refine ⟨⟨1 / 4, 1 / 4⟩, ?_, ?_, ?_⟩
    · rw [hbox, hsq]
      exact ⟨3, by norm_num, 0, by norm_num, 0, by norm_num, by norm_num⟩
    · rw [hp, interior_rectPoly (by norm_num) (by norm_num)]
      norm_num
    · intro c hc
      rw [List.mem_singleton.1 hc]
      show ¬ ((1 / 4 : ℝ) - _) ^ 2 + ((1 / 4 : ℝ) - _) ^ 2 ≤ _
      rw [hr, hcx, hcy]
      norm_num
  obtain ⟨c, hc⟩ := Option.ne_none_iff_exists'.1 hne
  have hextra : additionalPoles HEnv.real 3 s 1 1 = some [c] := by
    unfold additionalPoles
    simp only [polesLoop]
    rw [hc, Option.bind_some]
    simp [sortPoles, lastMax]
  obtain ⟨e1, -, -, e4⟩ := additionalPoles_spec HEnv.real_sqrt.down rfl hm.le hw (by
    refine ⟨?_, List.pairwise_singleton _ _⟩
    intro c hc
    rw [List.mem_singleton.1 hc, hp]
    exact ⟨g.pos, g.center, g.edges⟩) trivial hextra
  obtain ⟨b, k1, -⟩ := C41_bounding_circle_partial HEnv.real_sqrt g.pos.le (cs := [c]) (by
    intro d hd
    obtain ⟨ps, -, hps⟩ := e4 d hd
    exact ⟨(e1.1 d (List.mem_cons_of_mem _ hd)).1.le, generateNextPole_le HEnv.real_sqrt rfl hm.le hw hps hgen⟩)
  have hidx : Jagua.convexHullIndices (rectPoly (0 : ℝ) 0 4 4) = some [0, 1, 2, 3] := by
    unfold Jagua.convexHullIndices
    rw [convexHull_rect (by norm_num) (by norm_num)]
    simp [rectPoly, List.findIdx?_cons]
  refine ⟨s, ⟨[0, 1, 2, 3], [s.poi, c], b, [], 2, s.area⟩, hs, ?_⟩
  · unfold Surrogate.new
    rw [hp, hidx, Option.bind_some]
    have : ([0, 1, 2, 3] : List ℕ).mapM (fun (i : ℕ) => (rectPoly (0 : ℝ) 0 4 4)[i]?) = some (rectPoly (0 : ℝ) 0 4 4) := by
      simp [rectPoly]
    rw [this, Option.bind_some]
    change (SPoly.build HEnv.real (rectPoly (0 : ℝ) 0 4 4)).bind _ = _ ∧ _
    rw [hs, Option.bind_some]
    dsimp only
    rw [hextra, Option.bind_some, k1]
    exact ⟨rfl, rfl⟩

example : ∃ s sur, SPoly.build HEnv.real (rectPoly (0 : ℝ) 0 4 4) = some s ∧
    Surrogate.new HEnv.real 3 (fun _ _ => some []) s ⟨1, 2, 2, 0⟩ = some sur ∧ HEnv.real.SqrtExact ∧
    HEnv.real.SqrtDown (fun _ => True) ∧ (0 : ℝ) ≤ HEnv.real.fmax := by
  obtain ⟨s, sur, h1, h2, -⟩ := Ex.real_surrogate
  exact ⟨s, sur, h1, h2, HEnv.real_sqrt, HEnv.real_sqrt.down, by show (0 : ℝ) ≤ 1000000; norm_num⟩

end Jagua
