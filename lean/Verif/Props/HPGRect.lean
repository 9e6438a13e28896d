import Verif.Lemmas.HPGRect
import Verif.Props.HPG
import Verif.Props.HPGExact
import Verif.Props.HPGTotal
import Verif.Props.GridGen

/-! # C14 in rectangular bins -/

set_option linter.unusedSectionVars false

namespace Jagua

variable {n : ℕ}

/-- C14 (partial, rectangular bins): with exact arithmetic, let a rectangular bin without
holes have a grid of at least 98 times as many cells as the square of the ratio of its sides, and let
the poles of items lie in the bin. As long as items are removed instantly only while the grid can be read, the
value of every cell is exactly the least of the distance from its centre to the boundary of the bin (0 outside)
and the distances to the poles of the items that are there now (0 inside). Missing: bins of other shapes or with
holes (`C14_gap_fails`) and removals in mixed order (`C14_mixed_removal_fails`). -/
theorem C14_rectangular_bins_partial {env : HEnv ℝ} (hs : env.SqrtWithin 0) (hf : env.f = Fpa.exact) (hce : env.CeilExact)
    {o : SearchOracle ℝ} {outer : Arc (SPoly ℝ)} (hw : outer.val.WF) {x0 y0 x1 y1 : ℝ} (hx : x0 < x1) (hy : y0 < y1)
    (ho : outer.val.points = rectPoly x0 y0 x1 y1) (hmax : x1 - x0 ≤ env.fmax) {zones : List (QualityZone ℝ)} (hn : (zones.map (·.quality)).Nodup)
    (hq : ∀ z ∈ zones, z.quality < nQualities) {nCells : ℕ}
    (hcells : 98 * max (x1 - x0) (y1 - y0) ^ 2 ≤ nCells * min (x1 - x0) (y1 - y0) ^ 2)
    {φ : HazardEntity ℝ → Hazard ℝ} (hact : ∀ e, (φ e).active = true)
    (hfit : ∀ e s, (φ e).shape.val.surrogate = some s → s.FitsIn ⟨x0, y0, x1, y1⟩) {c : HCDE ℝ n}
    (hr : HTidy env o outer.val.bbox.inflateToSquare (generateBinHazards outer [] (zoneTable zones)) nCells φ (.inl c))
    {g : HPG ℝ} (hg : c.hazProxGrid = some (some g)) {x : HPGCell ℝ} (hxc : some x ∈ g.grid.cells) :
    IsLeast (insert (max 0 (min (min (x.bbox.centroid.x - x0) (x1 - x.bbox.centroid.x)) (min (x.bbox.centroid.y - y0) (y1 - x.bbox.centroid.y))))
      {d | ∃ h ∈ c.cde.dynamics, ∃ s, h.shape.val.surrogate = some s ∧ ∃ pole ∈ s.poles,
        d = max 0 (Real.sqrt (sqDist x.bbox.centroid pole.center) - pole.radius)}) x.uni.1 := by
  have hst := generateBinHazards_nodup (outer := outer) (holes := []) hn
  have hmem := fun h => mem_generateBinHazards (outer := outer) (holes := []) hn hq (h := h)
  have hstat : c.cde.statics = generateBinHazards outer [] (zoneTable zones) := (hr.reach.inv hst).stat
  have huni : ∀ h ∈ generateBinHazards outer [] (zoneTable zones), h.entity.isUniversal = true → h = ⟨.binExterior, outer, true⟩ := by
    intro h hh hu
    rcases (hmem h).1 hh with rfl | ⟨i, s, hs, rfl⟩ | ⟨z, hz, i, s, hs, rfl⟩
    · rfl
    · simp at hs
    · cases hu
  have hmax0 : 0 ≤ env.fmax := by linarith
  obtain ⟨-, h2, h3⟩ := C14_smallest_partial hs hf hmax0 (fun h hh hu => by rw [huni h hh hu]; exact hw) hst ⟨hx, hy⟩
    (fun g hg => HPG.new_rect hs hf hce hw hx hy ho hn hq hcells hg) hact hfit hr hg hxc
  have h4 := C14_never_too_small_partial hst hr.reach hg hxc
  have hbin : x.uni.1 ≤ max 0 (min (min (x.bbox.centroid.x - x0) (x1 - x.bbox.centroid.x)) (min (x.bbox.centroid.y - y0) (y1 - x.bbox.centroid.y))) := by
    obtain ⟨d, e1, e2⟩ := h2 ⟨.binExterior, outer, true⟩ (by rw [hstat]; exact (hmem _).2 (.inl rfl)) rfl
    rw [staticProx_rect hs hf hw hx hy ho] at e1
    rw [Option.some.inj e1]
    exact e2
  constructor
  · rcases h4 with h4 | ⟨h, hh, -, hu, hp⟩ | ⟨h, hh, -, s, hs', pole, hp, e⟩
    · left
      refine le_antisymm hbin ?_
      rw [h4]
      refine max_le hmax0 ?_
      have := min_le_left (min (x.bbox.centroid.x - x0) (x1 - x.bbox.centroid.x)) (min (x.bbox.centroid.y - y0) (y1 - x.bbox.centroid.y))
      have := min_le_left (x.bbox.centroid.x - x0) (x1 - x.bbox.centroid.x)
      have := min_le_right (x.bbox.centroid.x - x0) (x1 - x.bbox.centroid.x)
      linarith
    · left
      rw [hstat] at hh
      rw [huni h hh hu, staticProx_rect hs hf hw hx hy ho] at hp
      exact (Option.some.inj hp).symm
    · right
      exact ⟨h, hh, s, hs', pole, hp, by rw [e, discProx_sqrt hs]⟩
  · rintro d (rfl | ⟨h, hh, s, hs', pole, hp, rfl⟩)
    · exact hbin
    · have := h3 h hh s hs' pole hp
      rw [discProx_sqrt hs] at this
      simpa using this

namespace Ex

/-- a square of side 2 with its inscribed circle as only pole -/
noncomputable def rectItem : Hazard ℝ :=
  ⟨.placedItem 0 ⟨0, 0, 0⟩, ⟨1, { gridRect 2 2 4 4 with surrogate := some ⟨[], [⟨⟨3, 3⟩, 1⟩], ⟨⟨3, 3⟩, 1⟩, [], 1, 0⟩ }⟩, true⟩

theorem rectItem_registrable : rectItem.erase.Registrable where
  inside := rfl
  surrogate := ⟨_, rfl, by simp, by simp⟩
  width := by show (2 : ℝ) ≤ 4; norm_num
  height := by show (2 : ℝ) ≤ 4; norm_num

end Ex

-- an 8 × 8 bin with a grid for 100 cells, in which a square is placed
example (o : SearchOracle ℝ) : ∃ (c : HCDE ℝ 4) (g : HPG ℝ) (x : HPGCell ℝ),
    HTidy Ex.realEnv o (Ex.gridRect 0 0 8 8).bbox.inflateToSquare (generateBinHazards ⟨0, Ex.gridRect 0 0 8 8⟩ [] (zoneTable [])) 100 (fun _ => Ex.rectItem.erase) (.inl c) ∧
    98 * max ((8 : ℝ) - 0) (8 - 0) ^ 2 ≤ (100 : ℕ) * min ((8 : ℝ) - 0) (8 - 0) ^ 2 ∧ (8 : ℝ) - 0 ≤ Ex.realEnv.fmax ∧
    (∀ s, Ex.rectItem.erase.shape.val.surrogate = some s → s.FitsIn ⟨0, 0, 8, 8⟩) ∧
    c.hazProxGrid = some (some g) ∧ some x ∈ g.grid.cells ∧ c.cde.dynamics = [Ex.rectItem] := by
  have hn : (([] : List (QualityZone ℝ)).map (·.quality)).Nodup := List.nodup_nil
  have hst := generateBinHazards_nodup (outer := (⟨0, Ex.gridRect 0 0 8 8⟩ : Arc (SPoly ℝ))) (holes := []) hn
  have hmem := fun h => mem_generateBinHazards (outer := (⟨0, Ex.gridRect 0 0 8 8⟩ : Arc (SPoly ℝ))) (holes := []) hn (by simp) (h := h)
  have hw : (Ex.gridRect 0 0 8 8).WF := Ex.gridRect_wf (by norm_num) (by norm_num)
  have hcells : 98 * max ((8 : ℝ) - 0) (8 - 0) ^ 2 ≤ (100 : ℕ) * min ((8 : ℝ) - 0) (8 - 0) ^ 2 := by norm_num
  obtain ⟨c0, h0, hg0⟩ := C67_engine_is_built_partial (n := 4) Ex.realEnv_sqrt rfl Ex.realEnv_ceil o (outer := ⟨0, Ex.gridRect 0 0 8 8⟩)
    (holes := []) (zones := []) hw (by simp) (by simp) hn (by simp)
    (Ex.gridRect_measured (by norm_num) (by norm_num)) (by simp) ⟨by simp, by simp⟩ (by
      simp only [Ex.gridRect, AARect.width, AARect.height, List.map_nil, List.sum_nil]
      norm_num) 100
  obtain ⟨g0, hg0⟩ := hg0 (by norm_num)
  have r0 : HTidy Ex.realEnv o (Ex.gridRect 0 0 8 8).bbox.inflateToSquare (generateBinHazards ⟨0, Ex.gridRect 0 0 8 8⟩ [] (zoneTable [])) 100
    (fun _ => Ex.rectItem.erase) (.inl c0) := .new h0
  unfold HCDE.new at h0
  rw [if_neg (by norm_num)] at h0
  obtain ⟨o0, e1, h0⟩ := Option.bind_eq_some_iff.1 h0
  obtain ⟨g1, e2, rfl⟩ := Option.map_eq_some_iff.1 e1
  obtain ⟨cde, e3, rfl⟩ := Option.map_eq_some_iff.1 h0
  obtain rfl : g1 = g0 := Option.some.inj hg0
  obtain ⟨cde', k1, k2, k3, k4, k5, -⟩ := CDE.new_inv (n := 4) (f := Ex.realEnv.f) (o := o) (r := (Ex.gridRect 0 0 8 8).bbox.inflateToSquare) hst
  rw [e3] at k1
  obtain rfl := Option.some.inj k1
  have hpre : (CDEOp.register Ex.rectItem).Pre cde := by
    intro h hh
    unfold CDE.allHazards at hh
    rw [k3, k4, List.append_nil] at hh
    rcases (hmem h).1 hh with rfl | ⟨i, s, hs, rfl⟩ | ⟨z, hz, i, s, hs, rfl⟩ <;> intro e <;> cases e
  obtain ⟨hreg, -⟩ := C71_operations_never_fail (fun x _ => Real.sqrt_nonneg x) hst (fun _ => Ex.rectItem_registrable) r0.reach
  obtain ⟨c1, hc1⟩ := hreg Ex.rectItem hpre rfl
  have r1 := HTidy.register r0 hpre rfl hc1
  unfold HCDE.register at hc1
  obtain ⟨cde1, f1, hc1⟩ := Option.bind_eq_some_iff.1 hc1
  obtain ⟨hpg1, f2, rfl⟩ := Option.map_eq_some_iff.1 hc1
  unfold HCDE.onGrid at f2
  obtain ⟨g, f3, rfl⟩ := Option.map_eq_some_iff.1 f2
  -- a cell
  obtain ⟨x0, hx0, -⟩ := (HPG.new_rect Ex.realEnv_sqrt rfl Ex.realEnv_ceil (outer := ⟨0, Ex.gridRect 0 0 8 8⟩) hw (by norm_num) (by norm_num) rfl hn (by simp)
    hcells e2).1 ⟨1, 1⟩ ⟨by norm_num, by norm_num, by norm_num, by norm_num⟩
  obtain ⟨g2, e4, hrel⟩ := r1.reach.rel g rfl
  rw [e2] at e4
  obtain rfl := Option.some.inj e4
  obtain ⟨x, hx, -⟩ := hrel.right hx0
  refine ⟨_, g, x, r1, hcells, by show (8 : ℝ) - 0 ≤ 1000000; norm_num, ?_, ?_, hx, ?_⟩
  · intro s hs
    obtain rfl := Option.some.inj hs
    refine ⟨?_, ?_, ?_, ?_, ?_⟩
    · simp
    · intro pole hp; rw [List.mem_singleton.1 hp]; norm_num
    · intro pole hp; rw [List.mem_singleton.1 hp]; norm_num
    · norm_num
    · intro pole hp; rw [List.mem_singleton.1 hp]
  · have hu : g.uncommitted = [] := by
      rw [← (HPG.new_cells e2).2.1]
      unfold HPG.register at f3
      obtain ⟨s, -, f3⟩ := Option.bind_eq_some_iff.1 f3
      obtain ⟨b, -, f3⟩ := Option.bind_eq_some_iff.1 f3
      obtain ⟨st, -, rfl⟩ := Option.map_eq_some_iff.1 f3
      rfl
    unfold HCDE.hazProxGrid HPG.isDirty
    simp [hu]
  · dsimp only
    unfold CDE.register at f1
    rw [k5] at f1
    dsimp only [List.findIdx?_nil] at f1
    split at f1
    · cases f1
    · cases f1
      rw [k4]
      rfl

end Jagua
