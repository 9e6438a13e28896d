import Verif.Lemmas.GridTall
import Verif.Lemmas.Layout
import Verif.Lemmas.PierRays
import Verif.Lemmas.StripGeo
import Verif.Lemmas.Measured

/-! # C67: the engine of a bin is built, unless the bin is very flat -/

set_option linter.unusedSectionVars false

namespace Jagua

open MeasureTheory Set

variable {n : ℕ}

/-- what is left of a bin without outlines -/
theorem remainder_inner (outer : List (Point ℝ)) (holes : List (List (Point ℝ))) :
    planeArea (remainder outer holes) = planeArea {v | v ∈ Jagua.interior outer ∧ ∀ h ∈ holes, v ∉ region h} := by
  rw [planeArea_chart, planeArea_chart]
  refine measure_congr ?_
  filter_upwards [bdry_null outer] with q hq
  apply propext
  constructor
  · rintro ⟨k | k, h⟩
    · exact absurd k hq.2
    · exact ⟨k, h⟩
  · rintro ⟨k, h⟩
    exact ⟨.inr k, h⟩

/-- C67, as far as it holds: with exact arithmetic, the collision detection engine of a bin
is built, with a grid if cells are requested, whenever the bin without its holes has at least
1/400 of the area of the square around it. (In full, it would be built for every bin;
`C67_flat_bins_fail` shows that it is not.) -/
theorem C67_engine_is_built_partial {env : HEnv ℝ} (hs : env.SqrtWithin 0) (hf : env.f = Fpa.exact) (hce : env.CeilExact) (o : SearchOracle ℝ)
    {outer : Arc (SPoly ℝ)} {holes : List (Arc (SPoly ℝ))} {zones : List (QualityZone ℝ)}
    (hwo : outer.val.WF) (hwh : ∀ s ∈ holes, s.val.WF) (hwz : ∀ z ∈ zones, ∀ s ∈ z.zones, s.val.WF)
    (hn : (zones.map (·.quality)).Nodup) (hq : ∀ z ∈ zones, z.quality < nQualities)
    (hmo : outer.val.Measured) (hmh : ∀ s ∈ holes, s.val.Measured) (hfit : HolesFit outer.val.points (holes.map (·.val.points)))
    (hroom : max outer.val.bbox.width outer.val.bbox.height ^ 2 ≤ 400 * (outer.val.area - (holes.map (·.val.area)).sum)) (nCells : ℕ) :
    ∃ c : HCDE ℝ n, HCDE.new env o n outer.val.bbox.inflateToSquare (generateBinHazards outer holes (zoneTable zones)) nCells = some c ∧
      (nCells ≠ 0 → ∃ g, c.hpg = some g) := by
  obtain ⟨cde, hc, -⟩ := CDE.new_inv (n := n) (f := env.f) (o := o) (r := outer.val.bbox.inflateToSquare)
    (generateBinHazards_nodup (outer := outer) (holes := holes) hn)
  unfold HCDE.new
  by_cases hn0 : nCells = 0
  · rw [if_pos hn0, Option.bind_some, hc]
    exact ⟨_, rfl, fun h => absurd hn0 h⟩
  rw [if_neg hn0]
  have hmem := fun h => mem_generateBinHazards (outer := outer) (holes := holes) hn hq (h := h)
  obtain ⟨g, hg⟩ : ∃ g, HPG.new env outer.val.bbox.inflateToSquare (generateBinHazards outer holes (zoneTable zones)) nCells = some g := by
    refine HPG.new_isSome hs hf hce (inflate_valid hwo.bbox_valid) ⟨_, (hmem _).2 (.inl rfl), rfl⟩ ?_ ?_ hn0
      (free := {v | v ∈ Jagua.interior outer.val.points ∧ ∀ h ∈ holes.map (·.val.points), v ∉ region h}) ?_ ?_ ?_
    · intro h hh
      rcases (hmem h).1 hh with rfl | ⟨i, s, hs, rfl⟩ | ⟨z, hz, i, s, hs, rfl⟩
      · exact hwo
      · exact hwh s (List.mem_of_getElem? hs)
      · exact hwz z hz s (List.mem_of_getElem? hs)
    · intro h hh
      rcases (hmem h).1 hh with rfl | ⟨i, s, hs, rfl⟩ | ⟨z, hz, i, s, hs, rfl⟩
      · trivial
      · trivial
      · exact hq z hz
    · rintro p ⟨hp, -⟩
      refine inflate_contains _ ?_
      rw [hwo.bbox_eq]
      exact region_subset_bbox (.inr hp)
    · rintro p ⟨hp, hp'⟩ h hh hu
      rcases (hmem h).1 hh with rfl | ⟨i, s, hs, rfl⟩ | ⟨z, hz, i, s, hs, rfl⟩
      · rintro (hb | hb)
        · exact hp.1 hb
        · exact hb (.inr hp)
      · exact hp' _ (List.mem_map.2 ⟨s, List.mem_of_getElem? hs, rfl⟩)
      · cases hu
    · have e : holes.map (fun s => s.val.points) = (holes.map (·.val)).map (·.points) := by rw [List.map_map]; rfl
      have e' : holes.map (fun s => s.val.area) = (holes.map (·.val)).map (·.area) := by rw [List.map_map]; rfl
      rw [← remainder_inner, e, (remainder_area hmo (holes := holes.map (·.val)) (by
        intro s hs
        obtain ⟨t, ht, rfl⟩ := List.mem_map.1 hs
        exact hmh t ht) (by rw [← e]; exact hfit)).1, ← e']
      refine ENNReal.ofReal_le_ofReal ?_
      have ha : outer.val.bbox.inflateToSquare.area = max outer.val.bbox.width outer.val.bbox.height ^ 2 := by
        have : outer.val.bbox.inflateToSquare.area = outer.val.bbox.inflateToSquare.width * outer.val.bbox.inflateToSquare.height := rfl
        rw [this, inflate_square, inflate_height]
        ring
      rw [ha]
      linarith
  rw [hg, Option.map_some, Option.bind_some, hc]
  exact ⟨_, rfl, fun _ => ⟨g, rfl⟩⟩

/-- C67 is violated: for every bin whose bounding box is at least `35 √N` times as wide as it
is high, and every requested number of cells `N` from 1700 on (the default is 2000), the
engine is not built. -/
theorem C67_flat_bins_fail {env : HEnv ℝ} (hs : env.SqrtWithin 0) (hce : env.CeilExact) (o : SearchOracle ℝ)
    {outer : Arc (SPoly ℝ)} (hwo : outer.val.WF) (holes : List (Arc (SPoly ℝ))) (zones : List (Option (QualityZone ℝ)))
    {nCells : ℕ} (hn : 1700 ≤ nCells) (hflat : 1225 * nCells * outer.val.bbox.height ^ 2 ≤ outer.val.bbox.width ^ 2) :
    HCDE.new env o n outer.val.bbox.inflateToSquare (generateBinHazards outer holes zones) nCells = none := by
  unfold HCDE.new
  rw [if_neg (by omega), HPG.new_flat hs hce hwo (a := true) (by
    unfold generateBinHazards
    exact List.mem_append.2 (.inl (List.mem_append.2 (.inl (List.mem_singleton.2 rfl))))) hn hflat]
  rfl

/-- C67 is violated also for bins that are much higher than wide. -/
theorem C67_narrow_bins_fail {env : HEnv ℝ} (hs : env.SqrtWithin 0) (hce : env.CeilExact) (o : SearchOracle ℝ)
    {outer : Arc (SPoly ℝ)} (hwo : outer.val.WF) (holes : List (Arc (SPoly ℝ))) (zones : List (Option (QualityZone ℝ)))
    {nCells : ℕ} (hn : 1700 ≤ nCells) (hflat : 1225 * nCells * outer.val.bbox.width ^ 2 ≤ outer.val.bbox.height ^ 2) :
    HCDE.new env o n outer.val.bbox.inflateToSquare (generateBinHazards outer holes zones) nCells = none := by
  unfold HCDE.new
  rw [if_neg (by omega), HPG.new_tall hs hce hwo (a := true) (by
    unfold generateBinHazards
    exact List.mem_append.2 (.inl (List.mem_append.2 (.inl (List.mem_singleton.2 rfl))))) hn hflat]
  rfl

namespace Ex

/-- exact arithmetic -/
noncomputable def realEnv : HEnv ℝ := ⟨Fpa.exact, Real.sqrt, fun x => ⌈x⌉₊, 1000000, -1000000⟩

theorem realEnv_sqrt : realEnv.SqrtWithin 0 where
  eps := le_rfl
  nonneg := fun x _ => Real.sqrt_nonneg x
  low := fun x hx => by rw [add_zero]; exact (Real.sq_sqrt hx).ge
  high := fun x a _ ha h => by rw [add_zero]; exact Real.sqrt_le_iff.2 ⟨ha, h⟩

theorem realEnv_ceil : realEnv.CeilExact := fun _ _ => Nat.ceil_le

/-- a rectangle -/
noncomputable def gridRect (x0 y0 x1 y1 : ℝ) : SPoly ℝ :=
  { points := rectPoly x0 y0 x1 y1, bbox := ⟨x0, y0, x1, y1⟩, area := (x1 - x0) * (y1 - y0), poi := ⟨⟨0, 0⟩, 0⟩ }

theorem gridRect_wf {x0 y0 x1 y1 : ℝ} (hx : x0 < x1) (hy : y0 < y1) : (gridRect x0 y0 x1 y1).WF where
  bbox_eq := (boundingBox_rectPoly hx hy).symm
  bbox_valid := ⟨hx, hy⟩
  nonempty := by simp [gridRect, rectPoly]

theorem gridRect_measured {x0 y0 x1 y1 : ℝ} (hx : x0 < x1) (hy : y0 < y1) : (gridRect x0 y0 x1 y1).Measured where
  simple := rect_simple hx hy
  pos := mul_pos (by linarith) (by linarith)
  area := by
    show _ = signedArea (rectPoly x0 y0 x1 y1)
    unfold signedArea
    rw [sides_rectPoly]
    simp only [List.map_cons, List.map_nil, List.sum_cons, List.sum_nil, gridRect]
    ring

end Ex

-- a bin that is a hundred times as wide as high, with a hole and a quality zone
example (o : SearchOracle ℝ) : ∃ c : HCDE ℝ 4, HCDE.new Ex.realEnv o 4 (Ex.gridRect 0 0 100 1).bbox.inflateToSquare
    (generateBinHazards ⟨0, Ex.gridRect 0 0 100 1⟩ [⟨1, Ex.gridRect 10 0 30 1⟩] (zoneTable [⟨3, [⟨2, Ex.gridRect 50 0 60 1⟩]⟩])) 2000 = some c ∧
    ((2000 : ℕ) ≠ 0 → ∃ g, c.hpg = some g) := by
  have hfit : HolesFit (rectPoly (0 : ℝ) 0 100 1) [rectPoly 10 0 30 1] := by
    refine ⟨?_, List.pairwise_singleton _ _⟩
    intro h hh v hv
    obtain rfl := List.mem_singleton.1 hh
    have hb : v ∈ (boundingBox (rectPoly (10 : ℝ) 0 30 1)).pts := region_subset_bbox hv
    rw [boundingBox_rectPoly (by norm_num) (by norm_num)] at hb
    obtain ⟨h1, h2, h3, h4⟩ := hb
    dsimp only at h1 h2 h3 h4
    by_cases hi : 0 < v.y ∧ v.y < 1
    · exact .inr ((interior_rectPoly (by norm_num) (by norm_num) v).2 ⟨by linarith, by linarith, hi.1, hi.2⟩)
    · refine .inl ((bdry_rectPoly (by norm_num) (by norm_num) v).2 ⟨⟨by linarith, by linarith, h3, h4⟩, ?_⟩)
      rcases h3.eq_or_lt with h | h
      · exact .inr (.inr (.inl h.symm))
      · exact .inr (.inr (.inr (le_antisymm h4 (not_lt.1 fun hc => hi ⟨h, hc⟩))))
  refine C67_engine_is_built_partial Ex.realEnv_sqrt rfl Ex.realEnv_ceil o (outer := ⟨0, Ex.gridRect 0 0 100 1⟩)
    (holes := [⟨1, Ex.gridRect 10 0 30 1⟩]) (zones := [⟨3, [⟨2, Ex.gridRect 50 0 60 1⟩]⟩])
    (Ex.gridRect_wf (by norm_num) (by norm_num)) ?_ ?_ (by simp) (by simp [nQualities]) (Ex.gridRect_measured (by norm_num) (by norm_num)) ?_ hfit ?_ 2000
  · intro s hs
    obtain rfl := List.mem_singleton.1 hs
    exact Ex.gridRect_wf (by norm_num) (by norm_num)
  · intro z hz s hs
    obtain rfl := List.mem_singleton.1 hz
    obtain rfl := List.mem_singleton.1 hs
    exact Ex.gridRect_wf (by norm_num) (by norm_num)
  · intro s hs
    obtain rfl := List.mem_singleton.1 hs
    exact Ex.gridRect_measured (by norm_num) (by norm_num)
  · simp only [Ex.gridRect, AARect.width, AARect.height, List.map_cons, List.map_nil, List.sum_cons, List.sum_nil]
    norm_num

-- the same number of cells in a bin of 1600 by 1
example (o : SearchOracle ℝ) : HCDE.new (n := 4) Ex.realEnv o (Ex.gridRect 0 0 1600 1).bbox.inflateToSquare
    (generateBinHazards ⟨0, Ex.gridRect 0 0 1600 1⟩ [] (zoneTable [])) 2000 = none :=
  C67_flat_bins_fail Ex.realEnv_sqrt Ex.realEnv_ceil o (outer := ⟨0, Ex.gridRect 0 0 1600 1⟩) (Ex.gridRect_wf (by norm_num) (by norm_num)) [] (zoneTable [])
    (by norm_num) (by simp only [Ex.gridRect, AARect.width, AARect.height]; norm_num)

-- and in a bin of 1 by 1600
example (o : SearchOracle ℝ) : HCDE.new (n := 4) Ex.realEnv o (Ex.gridRect 0 0 1 1600).bbox.inflateToSquare
    (generateBinHazards ⟨0, Ex.gridRect 0 0 1 1600⟩ [] (zoneTable [])) 2000 = none :=
  C67_narrow_bins_fail Ex.realEnv_sqrt Ex.realEnv_ceil o (outer := ⟨0, Ex.gridRect 0 0 1 1600⟩) (Ex.gridRect_wf (by norm_num) (by norm_num)) [] (zoneTable [])
    (by norm_num) (by simp only [Ex.gridRect, AARect.width, AARect.height]; norm_num)

end Jagua
