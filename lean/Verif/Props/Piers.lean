import Verif.Lemmas.PierChoice
import Verif.Props.Poles
import Verif.Lemmas.PolyReject
import Verif.Spec.Examples
import Verif.Lemmas.RectPoly
import Verif.Lemmas.SimpleCheck
import Verif.Spec.Json
import Verif.Spec.FailFastExamples
import Verif.Lemmas.StripGeo

/-! # C61: piers -/

set_option linter.unusedSectionVars false

namespace Jagua

variable {K : Type*} [Field K] [LinearOrder K] [IsStrictOrderedRing K]

/-! ## Piers lie in their shape -/

/-- The lines along which piers are sought. -/
theorem scan_of_generate {env : HEnv K} {tr : Trig K} {pi : K} {pick : List (Edge K) → List (Edge K) → ℕ} {r m : ℕ}
    {shape : SPoly K} {n : ℕ} {ps : List (Edge K)} (hc : shape.centroid = ⟨0, 0⟩)
    (h : generatePiers env tr pi pick r m shape n = some ps) {e : Edge K} (he : e ∈ ps) :
    ∃ a i, a < m ∧ i < r ∧ ∃ es, clip env shape (scanRay (tr.cos (pi / m * (a : K))) (tr.sin (pi / m * (a : K)))
      (shape.bbox.inflateToSquare.xMin + shape.bbox.inflateToSquare.width / r * (i : K))
      (-(2 * shape.bbox.inflateToSquare.height)) (2 * shape.bbox.inflateToSquare.height)) = some es ∧ e ∈ es := by
  obtain ⟨rays, hr, ray, hray, es, hes, hee⟩ := (generatePiers_mem h).2 e he
  obtain ⟨a, i, ha, hi, rfl⟩ := pierRays_mem hr hray
  unfold scanPos at hes
  rw [hc, zero_add, zero_sub, zero_add] at hes
  exact ⟨a, i, ha, hi, es, hes, hee⟩

/-- The outline crosses every scan line in the middle of its sides only: the lines at `r` distances from the origin (from the left
side of the box on), turned by `m` angles. -/
def CleanScan (tr : Trig K) (pi : K) (r m : ℕ) (box : AARect K) (pts : List (Point K)) : Prop :=
  ∀ a < m, ∀ i < r,
    CrossesCleanly (rotPt (tr.cos (pi / m * (a : K))) (tr.sin (pi / m * (a : K))) ⟨box.xMin + box.width / r * (i : K), 0⟩)
      (rotPt (tr.cos (pi / m * (a : K))) (tr.sin (pi / m * (a : K))) ⟨box.xMin + box.width / r * (i : K), 1⟩) pts

/-- C61: the piers of a shape around the origin lie in the shape, if the outline of the shape crosses the scan lines in the middle of
its sides only. Missing for the full statement: shapes with a vertex at which the outline crosses a scan line; the statement is
false for these (`C61_pier_outside`). -/
theorem C61_inside_partial {env : HEnv K} {tr : Trig K} (hu : tr.Unit) {pi : K} {r m nPoints : ℕ} {poles : List (Circle K)}
    {shape : SPoly K} (hs : shape.WF) (hc : shape.centroid = ⟨0, 0⟩) (h0 : (⟨0, 0⟩ : Point K) ∈ shape.bbox.pts)
    (hclean : CleanScan tr pi r m shape.bbox.inflateToSquare shape.points)
    {n : ℕ} {ps : List (Edge K)} (h : piersGenerate env tr pi r m nPoints poles shape n = some ps) :
    ps.length = n ∧ ∀ e ∈ ps, e.pts ⊆ region shape.points := by
  refine ⟨(generatePiers_mem h).1, fun e he => ?_⟩
  obtain ⟨a, i, ha, hi, es, hes, hee⟩ := scan_of_generate hc h he
  have hS := inflate_pos hs.bbox_valid
  exact clip_region (scanRay_clean (hu _) zero_lt_one (by linarith) (hclean a ha i hi)) (centred_spans hs h0 (hu _)) hes hee

/-- C61: the piers of a convex shape lie in the shape, wherever the shape is. -/
theorem C61_inside_convex {env : HEnv K} {tr : Trig K} {pi : K} {r m nPoints : ℕ} {poles : List (Circle K)}
    {shape : SPoly K} (hc : ConvexSet (region shape.points))
    {n : ℕ} {ps : List (Edge K)} (h : piersGenerate env tr pi r m nPoints poles shape n = some ps) :
    ps.length = n ∧ ∀ e ∈ ps, e.pts ⊆ region shape.points := by
  refine ⟨(generatePiers_mem h).1, fun e he => ?_⟩
  obtain ⟨rays, hr, ray, hray, es, hes, hee⟩ := (generatePiers_mem h).2 e he
  exact clip_convex hc hes hee

/-- C61: the surrogate of a polygon lies in the polygon, if the polygon is convex, or if it is around the origin and the scan lines
cross its outline in the middle of sides only. So the fail-fast test rejects no placement without a collision. -/
theorem C61_surrogate_inside_partial {env : HEnv K} {Rep : K → Prop} (hsq : env.SqrtDown Rep) (hf : env.f = Fpa.exact) (hm : 0 ≤ env.fmax)
    {tr : Trig K} (hu : tr.Unit) {pi : K} {r m nPoints : ℕ} {pts : List (Point K)} {s : SPoly K} (hb : SPoly.build env pts = some s)
    {cfg : SurrogateConfig K} {sur : Surrogate K} (h : Surrogate.generate env tr pi r m nPoints s cfg = some sur)
    (hcase : ConvexSet (region s.points) ∨
      (s.centroid = ⟨0, 0⟩ ∧ (⟨0, 0⟩ : Point K) ∈ s.bbox.pts ∧ CleanScan tr pi r m s.bbox.inflateToSquare s.points)) :
    SurrogateInside sur.ffPoles sur.piers s.points ∧ sur.piers.length = cfg.nFfPiers := by
  obtain ⟨-, h2, -⟩ := C47_surrogate_poles hsq hf hm hb h
  obtain ⟨extra, h3, -, -, -, h4⟩ := Surrogate.new_poles h
  rw [h3, Option.bind_some] at h4
  have h5 : sur.piers.length = cfg.nFfPiers ∧ ∀ e ∈ sur.piers, e.pts ⊆ region s.points := by
    rcases hcase with hc | ⟨hc, h0, hcl⟩
    · exact C61_inside_convex hc h4
    · exact C61_inside_partial hu (SPoly.build_spec hb).1 hc h0 hcl h4
  exact ⟨⟨fun c hc => (h2 c (List.mem_of_mem_take hc)).2.2, h5.2⟩, h5.1⟩

/-! ## Generation -/

theorem pickByLoss_lt (env : HEnv K) (shape : SPoly K) (poles : List (Circle K)) (nPoints : ℕ) {rays : List (Edge K)} (h : rays ≠ [])
    (sel : List (Edge K)) : pickByLoss env shape poles nPoints rays sel < rays.length := by
  unfold pickByLoss
  dsimp only
  have := argmin_lt (l := rays.map fun r => lossFunction env r (unrepresentedGrid env.f shape.bbox.inflateToSquare shape poles nPoints)
    (minDistancesToRays env (unrepresentedGrid env.f shape.bbox.inflateToSquare shape poles nPoints) sel
      (env.sqrt (shape.bbox.width ^ 2 * shape.bbox.height ^ 2)))
    (minDistancesToPoles env (unrepresentedGrid env.f shape.bbox.inflateToSquare shape poles nPoints) poles
      (env.sqrt (shape.bbox.width ^ 2 * shape.bbox.height ^ 2)))
    (actionRadiusRatio * shape.bbox.inflateToSquare.width)) (by simpa using h)
  simpa using this

/-- C61: for a simple polygon around the origin the generation of piers succeeds, if one of the scan lines separates vertices of the
polygon and avoids all of them. -/
theorem C61_generation_succeeds {env : HEnv K} {tr : Trig K} (hu : tr.Unit) {pi : K} {r m nPoints : ℕ} {poles : List (Circle K)}
    {shape : SPoly K} (hs : shape.WF) (hsim : SimplePoly shape.points) (hc : shape.centroid = ⟨0, 0⟩)
    (h0 : (⟨0, 0⟩ : Point K) ∈ shape.bbox.pts) {a i : ℕ} (ha : a < m) (hi : i < r)
    (hv : ∀ v ∈ shape.points, tr.cos (pi / m * (a : K)) * v.x + tr.sin (pi / m * (a : K)) * v.y ≠
      shape.bbox.inflateToSquare.xMin + shape.bbox.inflateToSquare.width / r * (i : K))
    (h1 : ∃ v ∈ shape.points, tr.cos (pi / m * (a : K)) * v.x + tr.sin (pi / m * (a : K)) * v.y <
      shape.bbox.inflateToSquare.xMin + shape.bbox.inflateToSquare.width / r * (i : K))
    (h2 : ∃ v ∈ shape.points, shape.bbox.inflateToSquare.xMin + shape.bbox.inflateToSquare.width / r * (i : K) <
      tr.cos (pi / m * (a : K)) * v.x + tr.sin (pi / m * (a : K)) * v.y) (n : ℕ) :
    ∃ ps, piersGenerate env tr pi r m nPoints poles shape n = some ps ∧ ps.length = n := by
  suffices h : ∃ ps, piersGenerate env tr pi r m nPoints poles shape n = some ps from
    h.imp fun ps hps => ⟨hps, (generatePiers_mem hps).1⟩
  unfold piersGenerate generatePiers
  split
  · exact ⟨[], rfl⟩
  · obtain ⟨rays, hr⟩ := pierRays_isSome tr pi hs r m
    have hcl : ∀ ray ∈ rays, clip env shape ray = some (clipPairs (sortedHits shape ray)) := by
      intro ray hray
      obtain ⟨a, i, ha, hi, rfl⟩ := pierRays_mem hr hray
      rw [hc, zero_sub, zero_add]
      exact centred_clip env hs h0 (hu _)
    rw [hr, Option.bind_some, mapM_eq_map hcl, Option.bind_some]
    have hS := inflate_pos hs.bbox_valid
    apply pickPiers_some
    intro sel
    apply pickByLoss_lt
    have hmem := pierRays_of hr ha hi
    unfold scanPos at hmem
    rw [hc, zero_add, zero_sub, zero_add] at hmem
    have hlt : -(2 * shape.bbox.inflateToSquare.height) < 2 * shape.bbox.inflateToSquare.height := by linarith
    have hcand := candidate (shape := shape) hsim (centred_spans hs h0 (hu (pi / m * (a : K)))
      (x := shape.bbox.inflateToSquare.xMin + shape.bbox.inflateToSquare.width / r * (i : K)))
      (fun v hvm => by rw [scanRay_onLine (hu _) hlt]; exact hv v hvm)
      (by obtain ⟨v, hvm, hv1⟩ := h1; exact ⟨v, hvm, (scanRay_leftOf (hu _) hlt).2 hv1⟩)
      (by obtain ⟨v, hvm, hv1⟩ := h2; exact ⟨v, hvm, fun h => absurd ((scanRay_leftOf (hu _) hlt).1 h) (not_lt.2 hv1.le)⟩)
    intro hnil
    obtain ⟨e, l, he⟩ := List.exists_cons_of_ne_nil hcand
    have : e ∈ (rays.map fun ray => clipPairs (sortedHits shape ray)).flatten :=
      List.mem_flatten.2 ⟨_, List.mem_map.2 ⟨_, hmem, rfl⟩, by rw [he]; simp⟩
    rw [hnil] at this
    simp at this

theorem norm_bdry {pts : List (Point K)} {R : K} (h : ∀ v ∈ pts, v.x ^ 2 + v.y ^ 2 < R) {w : Point K} (hw : w ∈ bdry pts) :
    w.x ^ 2 + w.y ^ 2 < R := by
  obtain ⟨s, hs, t, t0, t1, hx, hy⟩ := hw
  have h1 := h _ (sides_mem hs).1
  have h2 := h _ (sides_mem hs).2
  have e : w.x ^ 2 + w.y ^ 2 = (1 - t) * (s.1.x ^ 2 + s.1.y ^ 2) + t * (s.2.x ^ 2 + s.2.y ^ 2) -
      t * (1 - t) * ((s.1.x - s.2.x) ^ 2 + (s.1.y - s.2.y) ^ 2) := by rw [hx, hy]; ring
  have h3 : 0 ≤ t * (1 - t) * ((s.1.x - s.2.x) ^ 2 + (s.1.y - s.2.y) ^ 2) :=
    mul_nonneg (mul_nonneg t0 (by linarith)) (by positivity)
  have h4 : (1 - t) * (s.1.x ^ 2 + s.1.y ^ 2) ≤ (1 - t) * R := mul_le_mul_of_nonneg_left h1.le (by linarith)
  have h5 : t * (s.2.x ^ 2 + s.2.y ^ 2) ≤ t * R := mul_le_mul_of_nonneg_left h2.le t0
  rcases t0.eq_or_lt with rfl | h6
  · simp only [sub_zero, one_mul, zero_mul, add_zero] at e; linarith
  · have : t * (s.2.x ^ 2 + s.2.y ^ 2) < t * R := mul_lt_mul_of_pos_left h2 h6
    have : (1 - t) * R + t * R = R := by ring
    linarith

/-- **C61: the generation of piers panics for shapes away from the origin.** The rays are shifted by the position of the shape
twice (once with the centroid, once with the bounding box) and turned about the origin, so that none of them meets the shape. -/
theorem C61_far_shapes_panic {env : HEnv K} {tr : Trig K} (hu : tr.Unit) {pi : K} {r m nPoints : ℕ} {poles : List (Circle K)}
    {shape : SPoly K} (hs : shape.WF) {X : K} (hX : 0 < X) (hc : X ≤ shape.centroid.x + shape.bbox.inflateToSquare.xMin)
    (hnear : ∀ v ∈ shape.points, v.x ^ 2 + v.y ^ 2 < X ^ 2) {n : ℕ} (hn : 0 < n) :
    piersGenerate env tr pi r m nPoints poles shape n = none := by
  cases hg : piersGenerate env tr pi r m nPoints poles shape n with
  | none => rfl
  | some ps =>
    exfalso
    obtain ⟨hl, hm⟩ := generatePiers_mem hg
    obtain ⟨e, l, rfl⟩ := List.exists_cons_of_length_pos (by omega : 0 < ps.length)
    obtain ⟨rays, hr, ray, hray, es, hes, hee⟩ := hm e (by simp)
    obtain ⟨a, i, -, -, rfl⟩ := pierRays_mem hr hray
    obtain ⟨l1, p, q, l2, hl', -⟩ := clip_pier hes hee
    have hp := sortedHits_mem (shape := shape) (p := p) (by rw [hl']; simp)
    have h1 := norm_bdry hnear hp.1
    have hS := inflate_pos hs.bbox_valid
    have h2 := (scanRay_onLine (hu _) (by linarith)).1 (onLine_of_mem hp.2)
    set c := tr.cos (pi / m * (a : K))
    set s := tr.sin (pi / m * (a : K))
    have hcs : c ^ 2 + s ^ 2 = 1 := hu _
    have hpos : X ≤ scanPos shape r i := by
      unfold scanPos
      have hw : 0 ≤ shape.bbox.inflateToSquare.width := by
        have := hs.bbox_valid.1
        unfold AARect.width AARect.inflateToSquare
        dsimp only
        split
        · linarith
        · split <;> linarith
      have : 0 ≤ shape.bbox.inflateToSquare.width / r * (i : K) := mul_nonneg (div_nonneg hw (Nat.cast_nonneg _)) (Nat.cast_nonneg _)
      linarith
    have h3 : (c * p.x + s * p.y) ^ 2 ≤ p.x ^ 2 + p.y ^ 2 := by
      have : p.x ^ 2 + p.y ^ 2 - (c * p.x + s * p.y) ^ 2 = (c * p.y - s * p.x) ^ 2 := by
        linear_combination -(p.x ^ 2 + p.y ^ 2) * hcs
      have := sq_nonneg (c * p.y - s * p.x)
      linarith
    rw [h2] at h3
    have h4 : X ^ 2 ≤ scanPos shape r i ^ 2 := pow_le_pow_left₀ hX.le hpos 2
    linarith

/-! ## The choice -/

/-- C61: every pier is the candidate that, together with the piers before it, covers the points of the shape best: none of the
candidates gives a smaller loss. -/
theorem C61_greedy_choice {env : HEnv K} {tr : Trig K} {pi : K} {r m nPoints : ℕ} {poles : List (Circle K)}
    {shape : SPoly K} {n : ℕ} {ps : List (Edge K)} (h : piersGenerate env tr pi r m nPoints poles shape n = some ps) (hn : 0 < n) :
    ∃ rays cands, pierRays tr pi shape r m = some rays ∧ rays.mapM (clip env shape) = some cands ∧ ∀ k < n, ∃ e, ps[k]? = some e ∧
      e ∈ cands.flatten ∧ ∀ e' ∈ cands.flatten,
        let loss := coverLoss (Circle.distance env) (Edge.distance env) (env.sqrt (shape.bbox.width ^ 2 * shape.bbox.height ^ 2))
          (shape.bbox.inflateToSquare.width / 10) (unrepresentedGrid env.f shape.bbox.inflateToSquare shape poles nPoints) poles
        loss (ps.take k ++ [e]) ≤ loss (ps.take k ++ [e']) := by
  unfold piersGenerate generatePiers at h
  rw [if_neg hn.ne'] at h
  obtain ⟨rays, hr, h⟩ := Option.bind_eq_some_iff.1 h
  obtain ⟨cl, hc, h⟩ := Option.bind_eq_some_iff.1 h
  refine ⟨rays, cl, hr, hc, fun k hk => ?_⟩
  obtain ⟨-, h2⟩ := pickPiers_steps h
  obtain ⟨e, he, he'⟩ := h2 k hk
  rw [List.length_nil, zero_add] at he he'
  refine ⟨e, he, List.mem_of_getElem? he', fun e' hm => ?_⟩
  dsimp only
  have hne : cl.flatten ≠ [] := List.ne_nil_of_mem hm
  unfold pickByLoss at he'
  dsimp only at he'
  obtain ⟨v, hv1, hv2, -⟩ := argmin_spec (cl.flatten.map fun r => lossFunction env r
    (unrepresentedGrid env.f shape.bbox.inflateToSquare shape poles nPoints)
    (minDistancesToRays env (unrepresentedGrid env.f shape.bbox.inflateToSquare shape poles nPoints) (ps.take k)
      (env.sqrt (shape.bbox.width ^ 2 * shape.bbox.height ^ 2)))
    (minDistancesToPoles env (unrepresentedGrid env.f shape.bbox.inflateToSquare shape poles nPoints) poles
      (env.sqrt (shape.bbox.width ^ 2 * shape.bbox.height ^ 2)))
    (actionRadiusRatio * shape.bbox.inflateToSquare.width)) (by simpa using hne)
  rw [List.getElem?_map, he', Option.map_some, Option.some.injEq] at hv1
  have hrad : (actionRadiusRatio * shape.bbox.inflateToSquare.width : K) = shape.bbox.inflateToSquare.width / 10 := by
    unfold actionRadiusRatio; ring
  rw [lossFunction_eq, hrad] at hv1
  rw [hv1]
  have := hv2 _ (List.mem_map.2 ⟨e', hm, rfl⟩)
  rw [lossFunction_eq, hrad] at this
  exact this

/-! ## A pier outside -/

namespace Ex

/-- a shape like the letter C, with its centroid at the origin; there is a vertex at the bottom, below the centroid -/
def cPts : List (Point ℚ) :=
  [⟨-2, -2311 / 2328⟩, ⟨0, -4639 / 2328⟩, ⟨2, -9 / 8 - 2311 / 2328⟩, ⟨2, 17 / 2328⟩, ⟨-1, 17 / 2328⟩, ⟨-1, 2345 / 2328⟩,
    ⟨2, 2345 / 2328⟩, ⟨2, 4673 / 2328⟩, ⟨-2, 4673 / 2328⟩]

def cShape : SPoly ℚ :=
  { points := cPts, bbox := ⟨-2, -9 / 8 - 2311 / 2328, 2, 4673 / 2328⟩, area := 97 / 8, poi := ⟨⟨-3 / 2, 1 / 2⟩, 1 / 2⟩ }

/-- from one arm of the letter to the other -/
def cPier : Edge ℚ := (Edge.mk ⟨0, 17 / 2328⟩ ⟨0, 2345 / 2328⟩).scale (999 / 1000)

theorem cShape_wf : cShape.WF := ⟨by decide +kernel, by unfold AARect.Valid; decide +kernel, by decide⟩

theorem cShape_centroid : cShape.centroid = ⟨0, 0⟩ := by decide +kernel

theorem cShape_box : (⟨0, 0⟩ : Point ℚ) ∈ cShape.bbox.pts := by
  show _ ∧ _ ∧ _ ∧ _
  decide +kernel

theorem cShape_hits : sortedHits cShape (scanRay 1 0 0 (-(2 * cShape.bbox.inflateToSquare.height)) (2 * cShape.bbox.inflateToSquare.height)) =
    [⟨0, -4639 / 2328⟩, ⟨0, -4639 / 2328⟩, ⟨0, 17 / 2328⟩, ⟨0, 2345 / 2328⟩, ⟨0, 4673 / 2328⟩] := by decide +kernel

theorem cShape_simple : SimplePoly cShape.points := simple_of_check (by decide +kernel)

/-- the pier lies in the gap of the letter -/
theorem cPier_gap {p : Point ℚ} (h : p ∈ cPier.pts) : p.x = 0 ∧ 17 / 2328 < p.y ∧ p.y < 2345 / 2328 := by
  obtain ⟨t, t0, t1, hx, hy⟩ := h
  have e : cPier = ⟨⟨0, 4541 / 582000⟩, ⟨0, 585959 / 582000⟩⟩ := by decide +kernel
  rw [e] at hx hy
  dsimp only at hx hy
  refine ⟨by rw [hx]; ring, ?_, ?_⟩ <;> rw [hy] <;> linarith

theorem gap_free {w : Point ℚ} (h0 : 0 ≤ w.x) (h1 : 17 / 2328 < w.y) (h2 : w.y < 2345 / 2328) : w ∉ bdry cPts := by
  rintro ⟨s, hs, t, t0, t1, hx, hy⟩
  have e : sides cPts = [(⟨-2, -2311 / 2328⟩, ⟨0, -4639 / 2328⟩), (⟨0, -4639 / 2328⟩, ⟨2, -9 / 8 - 2311 / 2328⟩),
      (⟨2, -9 / 8 - 2311 / 2328⟩, ⟨2, 17 / 2328⟩), (⟨2, 17 / 2328⟩, ⟨-1, 17 / 2328⟩), (⟨-1, 17 / 2328⟩, ⟨-1, 2345 / 2328⟩),
      (⟨-1, 2345 / 2328⟩, ⟨2, 2345 / 2328⟩), (⟨2, 2345 / 2328⟩, ⟨2, 4673 / 2328⟩), (⟨2, 4673 / 2328⟩, ⟨-2, 4673 / 2328⟩),
      (⟨-2, 4673 / 2328⟩, ⟨-2, -2311 / 2328⟩)] := rfl
  rw [e] at hs
  simp only [List.mem_cons, List.not_mem_nil, or_false] at hs
  rcases hs with rfl | rfl | rfl | rfl | rfl | rfl | rfl | rfl | rfl <;> dsimp only at hx hy <;> linarith

theorem cPier_outside {p : Point ℚ} (h : p ∈ cPier.pts) : p ∉ region cPts := by
  obtain ⟨hx, h1, h2⟩ := cPier_gap h
  have hout : (⟨3, p.y⟩ : Point ℚ) ∉ region cPts := fun hr => by
    have hb := region_subset_bbox hr
    have e : boundingBox cPts = ⟨-2, -9 / 8 - 2311 / 2328, 2, 4673 / 2328⟩ := by decide +kernel
    rw [e] at hb
    have := hb.2.1
    norm_num at this
  rintro (hb | ⟨-, ho⟩)
  · exact gap_free hx.ge h1 h2 hb
  · refine hout (.inr ⟨gap_free (by norm_num) h1 h2, (rayCount_parity cPts fun w hw => ?_).1 ho⟩)
    obtain ⟨t, t0, t1, wx, wy⟩ := hw
    dsimp only at wx wy
    have wy : w.y = p.y := by rw [wy]; ring
    exact gap_free (by rw [wx, hx]; linarith) (by rw [wy]; exact h1) (by rw [wy]; exact h2)

end Ex

/-- **C61: piers outside.** For any even number of scan lines per direction (10 in debug builds, 200 in release builds) one of the candidates
of the simple polygon `Ex.cShape` lies outside of the polygon: the middle scan line passes through the vertex at the bottom, which counts
twice, so that the gap of the letter is taken for the shape. The centroid of the polygon is the origin, as the code requires. -/
theorem C61_pier_outside {env : HEnv ℚ} {tr : Trig ℚ} (hu : tr.Unit) (hz : tr.AtZero) (pi : ℚ) {k m : ℕ} (hk : 0 < k) (hm : 0 < m) :
    Ex.cShape.WF ∧ SimplePoly Ex.cShape.points ∧ Ex.cShape.centroid = ⟨0, 0⟩ ∧ (⟨0, 0⟩ : Point ℚ) ∈ Ex.cShape.bbox.pts ∧
    (∃ rays cands, pierRays tr pi Ex.cShape (2 * k) m = some rays ∧ rays.mapM (clip env Ex.cShape) = some cands ∧ Ex.cPier ∈ cands.flatten) ∧
    (∃ pick, generatePiers env tr pi pick (2 * k) m Ex.cShape 1 = some [Ex.cPier]) ∧
    ∀ p ∈ Ex.cPier.pts, p ∉ region Ex.cShape.points := by
  have hcand : ∃ rays cands, pierRays tr pi Ex.cShape (2 * k) m = some rays ∧ rays.mapM (clip env Ex.cShape) = some cands ∧
      Ex.cPier ∈ cands.flatten := by
    obtain ⟨rays, hr⟩ := pierRays_isSome tr pi Ex.cShape_wf (2 * k) m
    have hcl : ∀ ray ∈ rays, clip env Ex.cShape ray = some (clipPairs (sortedHits Ex.cShape ray)) := by
      intro ray hray
      obtain ⟨a, i, ha, hi, rfl⟩ := pierRays_mem hr hray
      rw [Ex.cShape_centroid, zero_sub, zero_add]
      exact centred_clip env Ex.cShape_wf Ex.cShape_box (hu _)
    refine ⟨rays, _, hr, mapM_eq_map hcl, ?_⟩
    have hmem := pierRays_of hr hm (by omega : k < 2 * k)
    have hpos : scanPos Ex.cShape (2 * k) k = 0 := by
      unfold scanPos
      have e : Ex.cShape.bbox.inflateToSquare.xMin = -33 / 16 ∧ Ex.cShape.bbox.inflateToSquare.width = 33 / 8 := by decide +kernel
      rw [Ex.cShape_centroid, e.1, e.2]
      have : (k : ℚ) ≠ 0 := by exact_mod_cast hk.ne'
      push_cast
      field_simp
      norm_num
    rw [hpos, Ex.cShape_centroid, zero_sub, zero_add, Nat.cast_zero, mul_zero, hz.1, hz.2] at hmem
    refine List.mem_flatten.2 ⟨_, List.mem_map.2 ⟨_, hmem, rfl⟩, ?_⟩
    rw [Ex.cShape_hits]
    decide +kernel
  refine ⟨Ex.cShape_wf, Ex.cShape_simple, Ex.cShape_centroid, Ex.cShape_box, hcand, ?_, fun p hp => Ex.cPier_outside hp⟩
  obtain ⟨rays, cands, h1, h2, h3⟩ := hcand
  obtain ⟨j, hj⟩ := List.getElem?_of_mem h3
  refine ⟨fun _ _ => j, ?_⟩
  unfold generatePiers
  rw [if_neg one_ne_zero, h1, Option.bind_some, h2, Option.bind_some]
  simp only [pickPiers]
  rw [hj]
  rfl

example : ∃ tr : Trig ℚ, tr.Unit ∧ tr.AtZero ∧ tr.cos 1 = 3 / 5 :=
  ⟨⟨fun a => if a = 0 then 0 else 4 / 5, fun a => if a = 0 then 1 else 3 / 5, fun _ _ => 0⟩,
    fun a => by by_cases h : a = 0 <;> simp [h]; norm_num, by simp [Trig.AtZero], by simp⟩

/-- six circles inside the letter -/
def Ex.cPoles : List (Circle ℚ) :=
  [⟨⟨-3 / 2, 1 / 2⟩, 1 / 2⟩, ⟨⟨1, 3 / 2⟩, 49 / 100⟩, ⟨⟨-1, -1⟩, 11 / 25⟩, ⟨⟨1, -1⟩, 1 / 2⟩, ⟨⟨-1, 3 / 2⟩, 49 / 100⟩, ⟨⟨0, -3 / 2⟩, 1 / 4⟩]

/-- The loss does not keep such a candidate from being chosen: with vertical scan lines only, 10 lines and 10 × 10 points as in debug
builds, and these six poles, the pier outside is the best candidate. -/
theorem C61_pier_outside_chosen : piersGenerate Ex.lenv ⟨fun _ => 0, fun _ => 1, fun _ _ => 0⟩ 3 10 1 10 Ex.cPoles Ex.cShape 1 = some [Ex.cPier] := by
  decide +kernel

/-- the letter in the middle of the bin -/
def Ex.cMoved : SPoly ℚ := Ex.cShape.transform (Transf.fromTranslation 4 4)

/-- a square item that fits in the gap -/
def Ex.hGap : Hazard ℚ := ⟨.placedItem 0 Ex.dt, ⟨1, SPoly.mk [⟨15 / 4, 17 / 4⟩, ⟨17 / 4, 17 / 4⟩, ⟨17 / 4, 19 / 4⟩, ⟨15 / 4, 19 / 4⟩]
  ⟨15 / 4, 17 / 4, 17 / 4, 19 / 4⟩ (1 / 4) ⟨⟨4, 9 / 2⟩, 1 / 4⟩ none⟩, true⟩

/-- **C61: false alarms.** With the pier of `C61_pier_outside` the fail-fast test, and with it the whole query, reports a collision of a
placement that collides with nothing. -/
theorem C61_false_alarm : ∃ c : CDE ℚ 2, c.Reachable Fpa.exact SearchOracle.first ∧ c.statics = [Ex.hBin] ∧ c.dynamics = [Ex.hGap] ∧
    c.surrogateOrPolyCollides Fpa.exact [] [Ex.cPier.transform (Transf.fromTranslation 4 4)] Ex.cMoved [] = some true ∧
    c.polyCollides Fpa.exact Ex.cMoved [] = some false := by
  obtain ⟨c, hc⟩ : ∃ c, Ex.start.bind (Ex.runChecked [.register Ex.hGap]) = some c := Option.isSome_iff_exists.1 (by decide +kernel)
  have h := (show (Ex.start.bind (Ex.runChecked [.register Ex.hGap])).map (fun c => (c.statics, c.dynamics,
      c.surrogateOrPolyCollides Fpa.exact [] [Ex.cPier.transform (Transf.fromTranslation 4 4)] Ex.cMoved [],
      c.polyCollides Fpa.exact Ex.cMoved [])) = some ([Ex.hBin], [Ex.hGap], some true, some false) from by decide +kernel)
  rw [hc, Option.map_some, Option.some.injEq, Prod.mk.injEq, Prod.mk.injEq, Prod.mk.injEq] at h
  exact ⟨c, Ex.reachable (by decide) hc, h⟩

/-! ## Examples -/

theorem CleanScan.of_vertices {tr : Trig K} {pi : K} {r m : ℕ} {box : AARect K} {pts : List (Point K)}
    (h : ∀ a < m, ∀ i < r, ∀ v ∈ pts,
      ¬ OnLine (rotPt (tr.cos (pi / m * (a : K))) (tr.sin (pi / m * (a : K))) ⟨box.xMin + box.width / r * (i : K), 0⟩)
      (rotPt (tr.cos (pi / m * (a : K))) (tr.sin (pi / m * (a : K))) ⟨box.xMin + box.width / r * (i : K), 1⟩) v) :
    CleanScan tr pi r m box pts := fun a ha i hi =>
  ⟨fun _ => False, fun s hs => ⟨fun k => absurd k (h a ha i hi _ (sides_mem hs).1), fun _ k => absurd k (h a ha i hi _ (sides_mem hs).2), fun _ _ => Iff.rfl⟩⟩

/-- two directions -/
def Ex.twoTurns : Trig ℚ := ⟨fun a => if a = 0 then 0 else 4 / 5, fun a => if a = 0 then 1 else 3 / 5, fun _ _ => 0⟩

theorem Ex.twoTurns_unit : Ex.twoTurns.Unit := fun a => by
  show (if a = 0 then (1 : ℚ) else 3 / 5) ^ 2 + (if a = 0 then (0 : ℚ) else 4 / 5) ^ 2 = 1
  split_ifs <;> norm_num

/-- The hypotheses of `C61_inside_partial` and of `C61_generation_succeeds`: a non-convex shape, two directions, three scan lines for each. -/
example : Ex.cShape.WF ∧ SimplePoly Ex.cShape.points ∧ Ex.cShape.centroid = ⟨0, 0⟩ ∧ (⟨0, 0⟩ : Point ℚ) ∈ Ex.cShape.bbox.pts ∧
    CleanScan Ex.twoTurns 3 3 2 Ex.cShape.bbox.inflateToSquare Ex.cShape.points ∧
    ∃ ps, piersGenerate Ex.lenv Ex.twoTurns 3 3 2 10 Ex.cPoles Ex.cShape 4 = some ps ∧ ps.length = 4 := by
  refine ⟨Ex.cShape_wf, Ex.cShape_simple, Ex.cShape_centroid, Ex.cShape_box, .of_vertices (by unfold OnLine; decide +kernel), ?_⟩
  exact C61_generation_succeeds Ex.twoTurns_unit Ex.cShape_wf Ex.cShape_simple Ex.cShape_centroid Ex.cShape_box
    (a := 0) (i := 1) (by norm_num) (by norm_num) (by decide +kernel) (by decide +kernel) (by decide +kernel) 4

theorem region_rectPoly {x0 y0 x1 y1 : K} (hx : x0 < x1) (hy : y0 < y1) (p : Point K) :
    p ∈ region (rectPoly x0 y0 x1 y1) ↔ x0 ≤ p.x ∧ p.x ≤ x1 ∧ y0 ≤ p.y ∧ p.y ≤ y1 := by
  show p ∈ bdry _ ∨ p ∈ interior _ ↔ _
  rw [bdry_rectPoly hx hy, interior_rectPoly hx hy]
  constructor
  · rintro (h | h)
    · exact h.1
    · exact ⟨h.1.le, h.2.1.le, h.2.2.1.le, h.2.2.2.le⟩
  · rintro ⟨h1, h2, h3, h4⟩
    rcases h1.eq_or_lt with k1 | k1
    · exact .inl ⟨⟨h1, h2, h3, h4⟩, .inl k1.symm⟩
    rcases h2.eq_or_lt with k2 | k2
    · exact .inl ⟨⟨h1, h2, h3, h4⟩, .inr (.inl k2)⟩
    rcases h3.eq_or_lt with k3 | k3
    · exact .inl ⟨⟨h1, h2, h3, h4⟩, .inr (.inr (.inl k3.symm))⟩
    rcases h4.eq_or_lt with k4 | k4
    · exact .inl ⟨⟨h1, h2, h3, h4⟩, .inr (.inr (.inr k4))⟩
    exact .inr ⟨k1, k2, k3, k4⟩

theorem convex_rectPoly {x0 y0 x1 y1 : K} (hx : x0 < x1) (hy : y0 < y1) : ConvexSet (region (rectPoly x0 y0 x1 y1)) := by
  intro a ha b hb p hp
  rw [region_rectPoly hx hy] at ha hb ⊢
  obtain ⟨t, t0, t1, px, py⟩ := hp
  have t1 : 0 ≤ 1 - t := by linarith
  rw [px, py]
  obtain ⟨a1, a2, a3, a4⟩ := ha
  obtain ⟨b1, b2, b3, b4⟩ := hb
  refine ⟨?_, ?_, ?_, ?_⟩
  · nlinarith [mul_le_mul_of_nonneg_left a1 t1, mul_le_mul_of_nonneg_left b1 t0]
  · nlinarith [mul_le_mul_of_nonneg_left a2 t1, mul_le_mul_of_nonneg_left b2 t0]
  · nlinarith [mul_le_mul_of_nonneg_left a3 t1, mul_le_mul_of_nonneg_left b3 t0]
  · nlinarith [mul_le_mul_of_nonneg_left a4 t1, mul_le_mul_of_nonneg_left b4 t0]

/-- a square around the origin -/
def Ex.pSquare : SPoly ℚ := { points := rectPoly (-2) (-2) 2 2, bbox := ⟨-2, -2, 2, 2⟩, area := 16, poi := ⟨⟨0, 0⟩, 2⟩ }

/-- The hypotheses of `C61_inside_convex` and of `C61_greedy_choice`; a scan line follows a side of the square. -/
example : ConvexSet (region Ex.pSquare.points) ∧
    ∃ ps, piersGenerate Ex.lenv Ex.twoTurns 3 4 2 5 [⟨⟨0, 0⟩, 2⟩] Ex.pSquare 3 = some ps ∧ ps.length = 3 ∧ ps.Nodup :=
  ⟨convex_rectPoly (by norm_num) (by norm_num), Option.isSome_iff_exists.1 (by decide +kernel) |>.imp fun ps h => ⟨h, by
    have : (piersGenerate Ex.lenv Ex.twoTurns 3 4 2 5 [⟨⟨0, 0⟩, 2⟩] Ex.pSquare 3).map (fun ps => decide (ps.length = 3 ∧ ps.Nodup)) = some true := by
      decide +kernel
    rw [h] at this
    simpa using this⟩⟩

/-- The hypotheses of `C61_far_shapes_panic`: a square of size 10 at (100, 100). -/
example : ∃ shape : SPoly ℚ, shape.WF ∧ shape.points = rectPoly 100 100 110 110 ∧ 0 < (200 : ℚ) ∧
    200 ≤ shape.centroid.x + shape.bbox.inflateToSquare.xMin ∧ ∀ v ∈ shape.points, v.x ^ 2 + v.y ^ 2 < (200 : ℚ) ^ 2 := by
  refine ⟨{ points := rectPoly 100 100 110 110, bbox := ⟨100, 100, 110, 110⟩, area := 100, poi := ⟨⟨105, 105⟩, 5⟩ },
    ⟨by decide +kernel, by unfold AARect.Valid; decide +kernel, by decide⟩, rfl, by norm_num, by decide +kernel, by decide +kernel⟩

/-- The hypotheses of `C61_surrogate_inside_partial`: the square of size 4 around the origin, over the real numbers, with one pole and two
piers. -/
example : ∃ s sur, SPoly.build HEnv.real (rectPoly (-2 : ℝ) (-2) 2 2) = some s ∧
    Surrogate.generate HEnv.real Trig.real Real.pi 3 2 10 s ⟨1, 1, 1, 2⟩ = some sur ∧ ConvexSet (region s.points) ∧
    sur.poles.length = 1 ∧ sur.piers.length = 2 := by
  have hv : (⟨-2, -2, 2, 2⟩ : AARect ℝ).Valid := by constructor <;> norm_num
  have hm : (0 : ℝ) < HEnv.real.fmax := by show (0 : ℝ) < 1000000; norm_num
  obtain ⟨s, hs, hp, hbox⟩ := SPoly.build_rect HEnv.real_sqrt rfl hm hv
  dsimp only at hs hp
  obtain ⟨hw, hgen, -⟩ := SPoly.build_spec hs
  obtain ⟨g, -⟩ := generateNextPole_good HEnv.real_sqrt.down rfl hm.le hw (by simp) hgen
  have hextra : additionalPoles HEnv.real Real.pi s 0 1 = some [] := by
    unfold additionalPoles
    simp [polesLoop, sortPoles]
  obtain ⟨b, k1, -⟩ := C41_bounding_circle_partial HEnv.real_sqrt g.pos.le (cs := []) (by simp)
  have hidx : Jagua.convexHullIndices (rectPoly (-2 : ℝ) (-2) 2 2) = some [0, 1, 2, 3] := by
    unfold Jagua.convexHullIndices
    rw [convexHull_rect (by norm_num) (by norm_num)]
    simp [rectPoly, List.findIdx?_cons]
    norm_num
  have hsq : (⟨-2, -2, 2, 2⟩ : AARect ℝ).inflateToSquare = ⟨-2, -2, 2, 2⟩ := by unfold AARect.inflateToSquare; norm_num
  have hc : s.centroid = ⟨0, 0⟩ := by
    unfold SPoly.centroid
    have he : s.edges = [⟨⟨-2, -2⟩, ⟨2, -2⟩⟩, ⟨⟨2, -2⟩, ⟨2, 2⟩⟩, ⟨⟨2, 2⟩, ⟨-2, 2⟩⟩, ⟨⟨-2, 2⟩, ⟨-2, -2⟩⟩] := by
      unfold SPoly.edges; rw [hp]; rfl
    rw [he]
    norm_num
  obtain ⟨ps, hps, hl⟩ := C61_generation_succeeds (env := HEnv.real) Trig.real_unit (pi := Real.pi) (r := 3) (m := 2) (nPoints := 10)
    (poles := [s.poi]) hw (by rw [hp]; apply simple_of_check; unfold simpleCheck; rw [sides_rectPoly]; norm_num [rectPoly, apart, follows, below, hullCross]) hc (by rw [hbox]; show _ ∧ _ ∧ _ ∧ _; norm_num)
    (a := 0) (i := 1) (by norm_num) (by norm_num) (by rw [hp, hbox, hsq]; norm_num [rectPoly, AARect.width, Trig.real]) (by rw [hp, hbox, hsq]; norm_num [rectPoly, AARect.width, Trig.real])
    (by rw [hp, hbox, hsq]; norm_num [rectPoly, AARect.width, Trig.real]) 2
  refine ⟨s, ⟨[0, 1, 2, 3], [s.poi], b, ps, 1, s.area⟩, hs, ?_, by rw [hp]; exact convex_rectPoly (by norm_num) (by norm_num), rfl, hl⟩
  unfold Surrogate.generate Surrogate.new
  rw [hp, hidx, Option.bind_some]
  have : ([0, 1, 2, 3] : List ℕ).mapM (fun (i : ℕ) => (rectPoly (-2 : ℝ) (-2) 2 2)[i]?) = some (rectPoly (-2 : ℝ) (-2) 2 2) := by
    simp [rectPoly]
  rw [this, Option.bind_some]
  change (SPoly.build HEnv.real (rectPoly (-2 : ℝ) (-2) 2 2)).bind _ = _
  rw [hs, Option.bind_some]
  dsimp only
  rw [hextra, Option.bind_some, k1, Option.bind_some, Option.bind_some]
  exact congrArg _ hps

end Jagua
