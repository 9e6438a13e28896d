import Verif.Lemmas.HPGKnown
import Verif.Props.HPG
import Verif.Spec.HPGExactExamples

/-! # C14: when the values of the grid are the smallest ones -/

set_option linter.unusedSectionVars false

namespace Jagua

variable {K : Type*} [Field K] [LinearOrder K] [IsStrictOrderedRing K] {n : ℕ}

/-- C14 (partial, the other direction): let items be removed instantly only while the
grid can be read, let their poles lie in a box that the cells of the grid cover without
reaching far beyond, and let square roots be off by at most `ε`. Then the value of every
cell is at most the distance from its centroid to every universal static hazard, and at
most the distance to every pole of every hazard that is registered now plus `2 ε`. With
`C14_never_too_small_partial`, it is the smallest distance up to `2 ε`, whatever happened
before. Missing: grids with gaps inside the box (holes in the bin), where
`C14_gap_fails` shows that values can be too large, and removals in mixed order, see
`C14_mixed_removal_fails`. -/
theorem C14_smallest_partial {env : HEnv K} {o : SearchOracle K} {bbox box : AARect K} {statics : List (Hazard K)} {nCells : ℕ}
    {φ : HazardEntity K → Hazard K} {ε : K} (hs : env.SqrtWithin ε) (hf : env.f = Fpa.exact) (hmax : 0 ≤ env.fmax)
    (hw : ∀ h ∈ statics, h.entity.isUniversal = true → h.shape.val.WF) (hst : (statics.map (·.entity)).Nodup) (hbox : box.Valid)
    (hgrid : ∀ g, HPG.new env bbox statics nCells = some g →
      g.Covers box ∧ g.Hugs box ∧ g.Roomy bbox box ∧ 32 * ε ≤ g.cellRadius)
    (hact : ∀ e, (φ e).active = true) (hfit : ∀ e s, (φ e).shape.val.surrogate = some s → s.FitsIn box)
    {c : HCDE K n} (hr : HTidy env o bbox statics nCells φ (.inl c)) {g : HPG K} (hg : c.hazProxGrid = some (some g)) {x : HPGCell K}
    (hx : some x ∈ g.grid.cells) :
    x.uni.1 ≤ env.fmax ∧
    (∀ h ∈ c.cde.statics, h.entity.isUniversal = true → ∃ d, HPGCell.staticProx env x.bbox.centroid h = some d ∧ x.uni.1 ≤ d) ∧
    (∀ h ∈ c.cde.dynamics, ∀ s, h.shape.val.surrogate = some s → ∀ pole ∈ s.poles,
      x.uni.1 ≤ HPGCell.discProx env x.bbox.centroid pole + 2 * ε) := by
  unfold HCDE.hazProxGrid at hg
  obtain ⟨g', hg', h1⟩ := Option.map_eq_some_iff.1 hg
  split_ifs at h1 with hd
  cases h1
  have hu : g.uncommitted = [] := by
    unfold HPG.isDirty at hd
    simpa using hd
  obtain ⟨_, P, hP, hG⟩ := HTidy.known hs hf hmax hw hst hbox hgrid hact hfit hr hg'
  have hPn : P = [] := by
    rw [hu] at hP
    exact List.eq_nil_iff_forall_not_mem.2 fun h hh => absurd (hP h hh) (by simp)
  rw [hPn, List.append_nil] at hG
  have hc := hG x hx
  have hi : HInv env o statics φ c := hr.reach.inv hst
  obtain ⟨b1, b2, b3, b4, b5⟩ := HPGCell.new_spec hc.base
  dsimp only at b1 b2 b3 b4 b5
  refine ⟨hc.le.trans b5.top, ?_, ?_⟩
  · intro h hh hun
    rw [hi.stat] at hh
    obtain ⟨d, e1, e2⟩ := b5.le h hh hun
    exact ⟨d, e1, hc.le.trans e2⟩
  · intro h hh s hs' pole hp
    rw [← b2]
    exact hc.low (h.entity, pole) ⟨h, hh, rfl, s, hs', hp⟩

-- the triangle has come and gone; the corner cell knows the square
example : ∃ (c : HCDE ℚ 2) (g : HPG ℚ) (x : HPGCell ℚ), HTidy Ex.henv SearchOracle.first ⟨0, 0, 8, 8⟩ [Ex.hBin] 16 Ex.pHaz (.inl c) ∧
    Ex.henv.SqrtWithin (1 / 100) ∧ Ex.henv.f = Fpa.exact ∧ 0 ≤ Ex.henv.fmax ∧
    (∀ h ∈ [Ex.hBin], h.entity.isUniversal = true → h.shape.val.WF) ∧ ([Ex.hBin].map (·.entity)).Nodup ∧
    (⟨0, 0, 8, 8⟩ : AARect ℚ).Valid ∧ (∀ g, HPG.new Ex.henv ⟨0, 0, 8, 8⟩ [Ex.hBin] 16 = some g →
      g.Covers ⟨0, 0, 8, 8⟩ ∧ g.Hugs ⟨0, 0, 8, 8⟩ ∧ g.Roomy ⟨0, 0, 8, 8⟩ ⟨0, 0, 8, 8⟩ ∧ 32 * (1 / 100) ≤ g.cellRadius) ∧
    (∀ e, (Ex.pHaz e).active = true) ∧ (∀ e s, (Ex.pHaz e).shape.val.surrogate = some s → s.FitsIn ⟨0, 0, 8, 8⟩) ∧
    c.hazProxGrid = some (some g) ∧ some x ∈ g.grid.cells ∧ c.cde.dynamics = [Ex.pSq] ∧ x.uni = (21 / 50, Ex.pSq.entity) := by
  obtain ⟨c, g, x, hc, _, hg, hx, _, hD, _, _, hu, _⟩ := Ex.exists_hpg
  obtain ⟨c0, hc0⟩ : ∃ c, Ex.hStart = some c := Option.isSome_iff_exists.1 (by decide +kernel)
  rw [hc0, Option.bind_some] at hc
  refine ⟨c, g, x, Ex.hRunChecked_tidy ?_ (.new hc0) hc, Ex.henv_within, rfl, by decide, ?_, by decide, ⟨by norm_num, by norm_num⟩, fun _ => Ex.hpg_uniform,
    Ex.pHaz_active, Ex.pHaz_fits, hg, hx, hD, hu⟩
  · intro op hop e
    simp only [Ex.hOps, List.mem_cons, List.not_mem_nil, or_false] at hop
    rcases hop with rfl | rfl | rfl | rfl <;> simp
  · intro h hh _
    rw [List.mem_singleton.1 hh]
    exact ⟨by decide +kernel, ⟨by decide +kernel, by decide +kernel⟩, by decide⟩

/-! ## Bins with holes -/

namespace Ex

/-- a rectangle -/
def rectAt (x0 y0 x1 y1 : ℚ) : SPoly ℚ :=
  { points := [⟨x0, y0⟩, ⟨x1, y0⟩, ⟨x1, y1⟩, ⟨x0, y1⟩], bbox := ⟨x0, y0, x1, y1⟩, area := (x1 - x0) * (y1 - y0),
    poi := ⟨⟨(x0 + x1) / 2, (y0 + y1) / 2⟩, min (x1 - x0) (y1 - y0) / 2⟩ }

def gapBin : Hazard ℚ := ⟨.binExterior, ⟨0, rectAt 0 0 8 8⟩, true⟩
/-- a hole that leaves a corridor below the upper side of the bin -/
def gapHole : Hazard ℚ := ⟨.binHole 0, ⟨1, rectAt (1 / 2) (53 / 10) (15 / 2) (71 / 10)⟩, true⟩
/-- a square in the corridor -/
def gapItem : Hazard ℚ := ⟨.placedItem 0 dt, ⟨2, sqAt 4 (151 / 20) (2 / 5)⟩, true⟩

def gapHaz : HazardEntity ℚ → Hazard ℚ
  | .placedItem _ _ => gapItem.erase
  | .binHole _ => gapHole.erase
  | _ => gapBin.erase

end Ex

/-- C14 fails: in a bin with a hole, an item may not be noticed at all. The 8 × 8 bin has
a hole `[0.5, 7.5] × [5.3, 7.1]`, and a square with the pole of radius 0.4 around
`(4, 7.55)` is placed in the corridor above it. This is the first thing that happens
to the grid. The fill starts in the missing cell below the item, takes a cell on the other
side of the hole for its seed and does not find the way around the hole. The cell with
its centre in the pole claims that the nearest hazard is 0.33 away. -/
theorem C14_gap_fails : ∃ (c : HCDE ℚ 2) (g : HPG ℚ) (x : HPGCell ℚ),
    HTidy Ex.henv SearchOracle.first ⟨0, 0, 8, 8⟩ [Ex.gapBin, Ex.gapHole] 58 Ex.gapHaz (.inl c) ∧
    c.hazProxGrid = some (some g) ∧ some x ∈ g.grid.cells ∧ c.cde.dynamics = [Ex.gapItem] ∧ x.uni.1 = 33 / 100 ∧
    x.centroid ∈ Ex.gapItem.shape.val.poi.pts ∧ HPGCell.polesProx Ex.henv x.bbox.centroid [Ex.gapItem.shape.val.poi] = some 0 := by
  have h : ((HCDE.new (n := 2) Ex.henv SearchOracle.first ⟨0, 0, 8, 8⟩ [Ex.gapBin, Ex.gapHole] 58).bind
      (Ex.hRunChecked Ex.gapHaz [.register Ex.gapItem])).bind
      (fun c => (c.hazProxGrid.bind id).bind fun g => ((g.grid.cells.find? fun x => decide (x.map (·.uni.1) = some (33 / 100)) &&
          decide ((x.bind fun x => HPGCell.polesProx Ex.henv x.bbox.centroid [Ex.gapItem.shape.val.poi]) = some 0)).bind id).map fun x =>
      decide (c.cde.dynamics = [Ex.gapItem]) && decide (x.uni.1 = 33 / 100) && decide (some x ∈ g.grid.cells) &&
      decide ((x.centroid.x - 4) ^ 2 + (x.centroid.y - 151 / 20) ^ 2 ≤ (2 / 5) ^ 2) &&
      decide (HPGCell.polesProx Ex.henv x.bbox.centroid [Ex.gapItem.shape.val.poi] = some 0)) = some true := by
    decide +kernel
  obtain ⟨c, hc, h⟩ := Option.bind_eq_some_iff.1 h
  obtain ⟨g, hg, h⟩ := Option.bind_eq_some_iff.1 h
  obtain ⟨x, hx, h⟩ := Option.map_eq_some_iff.1 h
  obtain ⟨og, hg1, hg2⟩ := Option.bind_eq_some_iff.1 hg
  simp only [Bool.and_eq_true, decide_eq_true_eq] at h
  obtain ⟨c0, hc0, hc⟩ := Option.bind_eq_some_iff.1 hc
  obtain ⟨⟨⟨⟨h1, h2⟩, h3⟩, h4⟩, h5⟩ := h
  have ht : HTidy Ex.henv SearchOracle.first ⟨0, 0, 8, 8⟩ [Ex.gapBin, Ex.gapHole] 58 Ex.gapHaz (.inl c) :=
    Ex.hRunChecked_tidy (fun op hop e => by rw [List.mem_singleton.1 hop]; simp) (.new hc0) hc
  refine ⟨c, g, x, ht, ?_, h3, h1, h2, ?_, h5⟩
  · rw [hg1, show og = some g from hg2]
  · have hp : Ex.gapItem.shape.val.poi = ⟨⟨4, 151 / 20⟩, 2 / 5⟩ := rfl
    rw [hp]
    exact h4

end Jagua
