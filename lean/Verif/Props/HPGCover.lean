import Verif.Lemmas.HPGCover
import Verif.Lemmas.StripGeo
import Verif.Props.HPG

/-! # C51: the grid loses no placement -/

set_option linter.unusedSectionVars false

namespace Jagua

variable {K : Type*} [Field K] [LinearOrder K] [IsStrictOrderedRing K] {n : ℕ}

/-- C51: in every state of the engine, each point of its box that is not in the closed
forbidden region of the bin or one of its holes lies in a cell of the grid; in a cell that it could be drawn from, i.e. not on its right or upper edge, unless it lies on
that edge of the box. -/
theorem C51_free_points_in_cells {env : HEnv K} (hmono : ∀ x y, 0 ≤ x → x < y → env.sqrt x < env.sqrt y) (h0 : 0 ≤ env.sqrt 0)
    (hf : env.f = Fpa.exact) (hce : env.CeilExact) {o : SearchOracle K} {bbox : AARect K} (hbox : bbox.Valid) {statics : List (Hazard K)}
    {nCells : ℕ} {φ : HazardEntity K → Hazard K} {c : HCDE K n} (hr : HReach env o bbox statics nCells φ (.inl c))
    (hun : ∃ h ∈ statics, h.entity.isUniversal = true) (hw : ∀ h ∈ statics, h.entity.isUniversal = true → h.shape.val.WF)
    {g : HPG K} (hg : c.hpg = some g) {p : Point K} (hp : p ∈ bbox.pts)
    (hfree : ∀ h ∈ statics, h.entity.isUniversal = true → p ∉ closedHaz h.entity.position h.shape.val.points) :
    ∃ x, some x ∈ g.grid.cells ∧ p ∈ x.bbox.pts ∧ (p.x < bbox.xMax → p.x < x.bbox.xMax) ∧ (p.y < bbox.yMax → p.y < x.bbox.yMax) := by
  obtain ⟨g0, h1, h2⟩ := hr.rel g hg
  obtain ⟨x, hx, hxp⟩ := HPG.new_covers hmono h0 hf hce hbox hun hw h1 hp hfree
  obtain ⟨x', hx', hb⟩ := h2.right hx
  exact ⟨x', hx', by rw [hb.fields.1]; exact hxp⟩

/-- C51: a placement that the polygon query accepts is never lost: the centre of its pole
of inaccessibility lies in a cell of the grid, and this cell does not refuse the item. -/
theorem C51_no_placement_lost {env : HEnv K} (hmono : ∀ x y, 0 ≤ x → x < y → env.sqrt x < env.sqrt y) (hs : env.SqrtUpper)
    (hf : env.f = Fpa.exact) (hce : env.CeilExact) {o : SearchOracle K} {bbox : AARect K} {statics : List (Hazard K)}
    (hst : (statics.map (·.entity)).Nodup) {nCells : ℕ} {φ : HazardEntity K → Hazard K} {c : HCDE K n}
    (hr : HReach env o bbox statics nCells φ (.inl c)) (hgood : c.cde.Good) (hun : ∃ h ∈ statics, h.entity.isUniversal = true)
    (hdyn : ∀ h ∈ c.cde.dynamics, h.entity.isUniversal = true)
    (hpoles : ∀ h ∈ c.cde.dynamics, ∀ s, h.shape.val.surrogate = some s → ∀ p ∈ s.poles, 0 ≤ p.radius ∧
      p.pts ⊆ closedHaz h.entity.position h.shape.val.points)
    {g : HPG K} (hg : c.hazProxGrid = some (some g)) {q : Option ℕ} (hq : q.getD nQualities ≤ nQualities)
    {s : SPoly K} (hsp : s.Proper) (hpoi : s.poi.pts ⊆ region s.points) {irr : List (HazardEntity K)}
    (hirr : ∀ h ∈ c.cde.allHazards, h.entity ∈ irr → ¬ h.entity.Matters q)
    (hP : ∀ h ∈ c.cde.allHazards, h.entity ∉ irr → h.shape.val.Proper)
    (hmax : s.poi.radius < env.fmax) (hok : c.cde.polyCollides Fpa.exact s irr = some false) :
    ∃ x, some x ∈ g.grid.cells ∧ (s.poi.center ∈ x.bbox.pts ∧ (s.poi.center.x < bbox.xMax → s.poi.center.x < x.bbox.xMax) ∧
      (s.poi.center.y < bbox.yMax → s.poi.center.y < x.bbox.yMax)) ∧ x.couldAccommodate s.poi.radius q = some true := by
  have hi : HInv env o statics φ c := hr.inv hst
  have hgc := hg
  unfold HCDE.hazProxGrid at hgc
  obtain ⟨g', hg', h1⟩ := Option.map_eq_some_iff.1 hgc
  split_ifs at h1 with hd
  cases h1
  have hbb : c.cde.bbox = bbox := hr.bbox_eq hst
  have hre : c.cde.Reachable Fpa.exact o := hf ▸ hi.reach
  obtain ⟨b, hb, hb'⟩ := C05_query_decides_feasibility hre hgood hsp hP
  rw [hok] at hb
  obtain rfl := Option.some.inj hb
  have hno := mt hb'.2 (by simp)
  push Not at hno
  obtain ⟨hin, hno⟩ := hno
  have hpr : s.poi.center ∈ region s.points := .inr hsp.poi
  have huni : ∀ h : Hazard K, h.entity.isUniversal = true → h.entity.Matters q := by
    intro h
    cases h.entity <;> simp [HazardEntity.isUniversal, HazardEntity.Matters]
  have hmem : ∀ h ∈ statics, h ∈ c.cde.allHazards := fun h hh => List.mem_append.2 (.inl (by rw [hi.stat]; exact hh))
  obtain ⟨x, hx, hxp⟩ := C51_free_points_in_cells hmono (hs 0 le_rfl).1 hf hce (hbb ▸ hgood.box) hr hun
    (fun h hh _ => hgood.shapes h (hmem h hh)) hg' (p := s.poi.center)
    (by rw [← hbb]; exact hin (by rw [hsp.wf.bbox_eq]; exact region_subset_bbox hpr))
    (fun h hh hu => hno h (hmem h hh) (fun hn => hirr h (hmem h hh) hn (huni h hu)) _ hpr)
  have hlen : x.qz.length = nQualities := by
    obtain ⟨_, _, _, _, b5⟩ := HPGCell.new_spec (hi.cells _ hg' x hx).base
    exact b5.len
  obtain ⟨b, hb⟩ := HPGCell.couldAccommodate_some hlen hq s.poi.radius
  refine ⟨x, hx, hxp, ?_⟩
  cases b with
  | true => exact hb
  | false =>
    rw [C18_no_collision_free_placement hst hr hs hf hgood hdyn hpoles hg hx hsp hpoi hirr hP hmax hb hxp.1] at hok
    cases hok

namespace Ex

/-- a strictly increasing bound of the square root -/
def linEnv : HEnv ℚ := ⟨Fpa.exact, fun x => (x + 1) / 2, fun x => x.ceil.toNat, 1000000, -1000000⟩

/-- an item that fits into the corner of the bin opposite to the square -/
def corner : SPoly ℚ :=
  { points := [⟨1, 1⟩, ⟨2, 1⟩, ⟨2, 2⟩, ⟨1, 2⟩], bbox := ⟨1, 1, 2, 2⟩, area := 1, poi := ⟨⟨3 / 2, 3 / 2⟩, 1 / 2⟩ }

theorem corner_proper : corner.Proper where
  wf := ⟨by decide +kernel, by unfold AARect.Valid; decide +kernel, by decide⟩
  noSpike := by unfold NoSpike; decide +kernel
  poi := by
    rw [show corner.points = _ from rfl]
    exact (interior_rectPoly (x0 := (1 : ℚ)) (y0 := 1) (x1 := 2) (y1 := 2) (by norm_num) (by norm_num) _).2
      ⟨by decide +kernel, by decide +kernel, by decide +kernel, by decide +kernel⟩

end Ex

-- the hypotheses of both theorems together: a square in the bin and an item that fits
-- into the opposite corner
example : ∃ (c : HCDE ℚ 2) (g : HPG ℚ), (∀ x y : ℚ, 0 ≤ x → x < y → Ex.linEnv.sqrt x < Ex.linEnv.sqrt y) ∧ Ex.linEnv.SqrtUpper ∧
    Ex.linEnv.CeilExact ∧ HReach Ex.linEnv SearchOracle.first ⟨0, 0, 8, 8⟩ [Ex.hBin] 16 Ex.pHaz (.inl c) ∧ c.cde.Good ∧
    c.cde.dynamics = [Ex.pSq] ∧ (∀ h ∈ c.cde.dynamics, ∀ s, h.shape.val.surrogate = some s → ∀ p ∈ s.poles, 0 ≤ p.radius ∧
      p.pts ⊆ closedHaz h.entity.position h.shape.val.points) ∧
    c.hazProxGrid = some (some g) ∧ Ex.corner.Proper ∧ Ex.corner.poi.pts ⊆ region Ex.corner.points ∧
    (∀ h ∈ c.cde.allHazards, h.shape.val.Proper) ∧ c.cde.polyCollides Fpa.exact Ex.corner [] = some false ∧
    (∃ x, some x ∈ g.grid.cells ∧ (Ex.corner.poi.center ∈ x.bbox.pts ∧ (Ex.corner.poi.center.x < 8 → Ex.corner.poi.center.x < x.bbox.xMax) ∧
      (Ex.corner.poi.center.y < 8 → Ex.corner.poi.center.y < x.bbox.yMax)) ∧ x.couldAccommodate Ex.corner.poi.radius none = some true) := by
  have hmono : ∀ x y : ℚ, 0 ≤ x → x < y → Ex.linEnv.sqrt x < Ex.linEnv.sqrt y := by
    intro x y _ h
    show (x + 1) / 2 < (y + 1) / 2
    linarith
  have hsq : Ex.linEnv.SqrtUpper := by
    intro x hx
    show 0 ≤ (x + 1) / 2 ∧ x ≤ ((x + 1) / 2) ^ 2
    exact ⟨by linarith, by nlinarith [sq_nonneg (x - 1)]⟩
  have hce : Ex.linEnv.CeilExact := by
    intro x m
    show x.ceil.toNat ≤ m ↔ _
    rw [Int.toNat_le, Rat.ceil_le_iff]
    push_cast
    rfl
  obtain ⟨c0, h0⟩ : ∃ c, HCDE.new Ex.linEnv SearchOracle.first 2 ⟨0, 0, 8, 8⟩ [Ex.hBin] 16 = some c := Option.isSome_iff_exists.1 (by decide +kernel)
  have h : (HCDE.new Ex.linEnv SearchOracle.first 2 ⟨0, 0, 8, 8⟩ [Ex.hBin] 16).bind (fun c0 =>
      (c0.register Ex.linEnv SearchOracle.first Ex.pSq).bind fun c => (c.hazProxGrid.bind id).map fun _ =>
      Ex.preB c0.cde (.register Ex.pSq) && decide (c.cde.statics = [Ex.hBin]) && decide (c.cde.dynamics = [Ex.pSq]) &&
      decide (c.cde.bbox = ⟨0, 0, 8, 8⟩) && decide (c.cde.polyCollides Fpa.exact Ex.corner [] = some false)) = some true := by
    decide +kernel
  rw [h0, Option.bind_some] at h
  obtain ⟨c, hc, h⟩ := Option.bind_eq_some_iff.1 h
  obtain ⟨g, hg, h⟩ := Option.map_eq_some_iff.1 h
  obtain ⟨og, hg1, hg2⟩ := Option.bind_eq_some_iff.1 hg
  simp only [Bool.and_eq_true, decide_eq_true_eq] at h
  obtain ⟨⟨⟨⟨h1, h2⟩, h3⟩, h4⟩, h5⟩ := h
  have hg' : c.hazProxGrid = some (some g) := by rw [hg1, show og = some g from hg2]
  have hr : HReach Ex.linEnv SearchOracle.first ⟨0, 0, 8, 8⟩ [Ex.hBin] 16 Ex.pHaz (.inl c) := .register (.new h0) (Ex.preB_iff.1 h1) rfl hc
  have hall : c.cde.allHazards = [Ex.hBin, Ex.pSq] := by
    unfold CDE.allHazards
    rw [h2, h3]
    rfl
  have hP : ∀ h ∈ c.cde.allHazards, h.shape.val.Proper := by
    intro h hh
    rw [hall] at hh
    simp only [List.mem_cons, List.not_mem_nil, or_false] at hh
    rcases hh with rfl | rfl
    · exact Ex.bin_proper
    · exact Ex.pSq_proper
  have hgood : c.cde.Good := by
    refine ⟨?_, fun h hh => (hP h hh).wf, ?_, ?_⟩
    · rw [h4]; unfold AARect.Valid; decide +kernel
    · intro h hh
      rw [hall] at hh
      simp only [List.mem_cons, List.not_mem_nil, or_false] at hh
      rcases hh with rfl | rfl <;> rfl
    · intro h hh he
      rw [hall] at hh
      simp only [List.mem_cons, List.not_mem_nil, or_false] at hh
      rcases hh with rfl | rfl
      · rw [h4]; left; decide +kernel
      · exact absurd he (by decide)
  have hpoles : ∀ h ∈ c.cde.dynamics, ∀ s, h.shape.val.surrogate = some s → ∀ p ∈ s.poles, 0 ≤ p.radius ∧
      p.pts ⊆ closedHaz h.entity.position h.shape.val.points := by
    intro h hh s hs' p hp
    rw [h3] at hh
    obtain rfl := List.mem_singleton.1 hh
    cases hs'
    obtain rfl := List.mem_singleton.1 hp
    exact ⟨by decide +kernel, Ex.disc_in_rect (x0 := 5) (y0 := 5) (x1 := 7) (y1 := 7) (by norm_num) (by norm_num) (by decide +kernel)
      (by decide +kernel) (by decide +kernel) (by decide +kernel) (by decide +kernel)⟩
  have hpoi : Ex.corner.poi.pts ⊆ region Ex.corner.points :=
    Ex.disc_in_rect (x0 := 1) (y0 := 1) (x1 := 2) (y1 := 2) (by norm_num) (by norm_num) (by decide +kernel)
      (by decide +kernel) (by decide +kernel) (by decide +kernel) (by decide +kernel)
  refine ⟨c, g, hmono, hsq, hce, hr, hgood, h3, hpoles, hg', Ex.corner_proper, hpoi, hP, h5, ?_⟩
  refine C51_no_placement_lost hmono hsq rfl hce (by decide) hr hgood ⟨_, List.mem_singleton.2 rfl, rfl⟩ ?_ hpoles hg' le_rfl Ex.corner_proper
    hpoi (by simp) (fun h hh _ => hP h hh) (by decide +kernel) h5
  intro h hh
  rw [h3] at hh
  obtain rfl := List.mem_singleton.1 hh
  rfl

end Jagua
