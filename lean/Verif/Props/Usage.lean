import Verif.Lemmas.UsageFile
import Verif.Props.Run

/-!
# C65: areas and used fractions

The area that is reported for a shape is the area of the part of the plane it covers, and the usage that is reported for
a layout or a solution is the fraction of the given space that the items cover.
-/

set_option linter.unusedSectionVars false

namespace Jagua

open MeasureTheory

variable {n : ℕ} {R : Type*}

/-- C65, shapes: the area of a shape made from a simple polygon is the area of the part of the plane that the polygon covers, with or without its
outline, and it is still that after the shape has been turned and moved. -/
theorem C65_area {poi : List (Point ℝ) → Circle ℝ} {pts : List (Point ℝ)} (h : SimplePoly pts) {s : SPoly ℝ} (hs : SPoly.new poi pts = some s) :
    0 < s.area ∧ planeArea (region pts) = ENNReal.ofReal s.area ∧ planeArea (interior pts) = ENNReal.ofReal s.area ∧
    ∀ (tr : Trig ℝ), tr.Unit → ∀ dt, (s.transform (Transf.fromDt tr dt)).area = s.area ∧
      planeArea (region (s.transform (Transf.fromDt tr dt)).points) = ENNReal.ofReal s.area := by
  have hm := SPoly.new_measured (SPoly.new_points_simple h hs) hs
  have h1 := hm.region_area
  have h2 := hm.interior_area
  unfold region at h1 ⊢
  rw [(SPoly.new_region hs).1, (SPoly.new_region hs).2.1] at h1
  rw [(SPoly.new_region hs).1] at h2
  refine ⟨hm.pos, h1, h2, fun tr hu dt => ?_⟩
  have hm' := hm.transform (t := Transf.fromDt tr dt) (.rotTransl hu _ _ _)
  exact ⟨rfl, hm'.region_area⟩

/-- C65, layouts: for shapes made from simple polygons, and holes that lie in the bin and apart from each other, the usage of a feasible layout is the
area that the items cover divided by the area of the bin without its holes; it is at most one. -/
theorem C65_layout {l : Layout ℝ n} (hb : l.bin.Measured) (hfit : HolesFit l.bin.outer.val.points (l.bin.holes.map (·.val.points)))
    (hi : ∀ pi ∈ l.placed.values, pi.shape.val.Measured) (hf : Feasible l.bin l.placed.values) (hne : l.placed.values ≠ []) :
    0 < (planeArea l.bin.freePart).toReal ∧
    l.usage = (planeArea (coveredByItems l.placed.values)).toReal / (planeArea l.bin.freePart).toReal ∧ 0 < l.usage ∧ l.usage ≤ 1 := by
  obtain ⟨h1, h2, h3, h4, h5, h6⟩ := items_area hb hfit hi hf
  have h7 := h6 hne
  rw [h1, h3, ENNReal.toReal_ofReal h2, ENNReal.toReal_ofReal h4]
  have h8 := h7.trans_le h5
  have hu : l.usage = (l.placed.values.map (·.shape.val.area)).sum / l.bin.area := by unfold Layout.usage; rw [fsum_eq]
  rw [hu]
  exact ⟨h8, rfl, div_pos h7 h8, (div_le_one h8).2 h5⟩

theorem bp_areas {env : MEnv ℝ n R} (hr : env.Regular) {cfg : MainConfig ℝ} (ht : ∀ tol, cfg.tolerance = some tol → tol < 1)
    {ji : JsonInstance ℝ} (h : ji.Sound) (hh : ji.NoHoles ∨ (cfg.tolerance = none ∧ ji.HolesFit)) {mem : MainMem} {inst : BPInstance ℝ n}
    (hi : mainInstance env cfg mem ji = some (.bp inst)) {bs : List (JsonBin ℝ)} (hb : ji.bins = some bs) {sol : Solution ℝ n}
    (hsol : mainSolve env cfg mem (.bp inst) = some sol) :
    SolutionIn env.toEnv inst sol ∧ ∀ sn ∈ sol.snapshots, ∀ jl, composeLayout env.tr (.bp inst) sn = some jl →
      jl.usage = sn.usage ∧ LayoutAreas (cfg.tolerance = none) sn.bin sn.placed.values (ji.coveredIn env.tr jl.placedItems) (ji.space jl.container) := by
  unfold mainSolve at hsol
  dsimp only at hsol
  obtain ⟨⟨s, p⟩, hrun, rfl⟩ := Option.map_eq_some_iff.1 hsol
  unfold mainInstance at hi
  obtain ⟨h1, h2⟩ := parse_qualities hi hb
  obtain ⟨i, e1, hri, hrb, hnew⟩ := parse_bp (n := n) (cfg := ⟨cfg.tolerance, true⟩) hr.poi hr.surr hr.zero ht h hb h1 h2 mem.bins mem.centered
  rw [hi] at e1
  have := logParsed_some e1.symm
  simp only [Instance.bp.injEq] at this
  subst this
  obtain ⟨k1, -, -⟩ := C44_bin_packing hr.exact hr.unit hr.polar ⟨hnew, fun x hx => (hrb.fine x hx).1⟩ (fun x hx => (hrb.fine x hx).2) hri.fine hrun
  obtain ⟨g1, g2⟩ := lbfSolveBP_in hr.exact hr.unit hr.polar ⟨hnew, fun x hx => (hrb.fine x hx).1⟩ (fun x hx => (hrb.fine x hx).2) hri.fine hrun
  refine ⟨g1, fun sn hsn jl hjl => ?_⟩
  obtain ⟨⟨q, hq⟩, hfeas, hitems⟩ := k1 sn hsn
  obtain ⟨b, hbk, -, bx, b_y, hrd⟩ := hrb.get hq
  obtain ⟨placed, e, hw, -, -⟩ := hri.layout hr.rad hr.unit hr.polar ⟨hitems⟩ hrd.pre hfeas
  have hjl' : jl = ⟨.bin sn.bin.id, placed, sn.usage⟩ := by
    unfold composeLayout Instance.items at hjl
    dsimp only at hjl
    rw [e] at hjl
    exact (Option.some.inj hjl).symm
  subst hjl'
  have hmem : b ∈ bs := List.mem_of_getElem? hbk
  have hsp : ji.space (.bin sn.bin.id) = remainder b.shape.corners b.shape.holes := by
    unfold JsonInstance.space
    dsimp only
    rw [hb, Option.bind_some, hbk]
  obtain ⟨m1, m2, m3, m4, m5⟩ := hrd.areas (h.bins bs hb b hmem).1 (hh.imp (fun k => k bs hb b hmem) fun k => ⟨k.1, k.2 bs hb b hmem⟩)
  dsimp only
  rw [hsp]
  exact ⟨rfl, layoutAreas m1 m2 (measured_of_items hri hr.unit ⟨hitems⟩) hfeas (.inr (g2 sn hsn)) (coveredIn_moved hw) m3 m4
    (fun he v hv => coveredIn_exact he hri hr.unit hr.polar ⟨hitems⟩ hrd.pre e hv) m5⟩

theorem sp_areas {env : MEnv ℝ n R} (hr : env.Regular) {cfg : MainConfig ℝ} {ji : JsonInstance ℝ} (h : ji.Sound) {mem : MainMem} {inst : SPInstance ℝ}
    (hi : mainInstance env cfg mem ji = some (.sp (n := n) inst)) (hb : ji.bins = none) {height : ℝ} (hs : ji.strip = some height) (hH : 0 < height)
    {sol : Solution ℝ n} (hsol : mainSolve env cfg mem (.sp inst) = some sol) :
    ∃ sn, SPSolIn env.toStripEnv inst sol sn ∧ ∀ jl, composeLayout env.tr (.sp (n := n) inst) sn = some jl →
      jl.usage = sn.usage ∧ LayoutAreas (cfg.tolerance = none) sn.bin sn.placed.values (ji.coveredIn env.tr jl.placedItems) (ji.space jl.container) := by
  unfold mainSolve at hsol
  dsimp only at hsol
  obtain ⟨⟨s, p⟩, hrun, rfl⟩ := Option.map_eq_some_iff.1 hsol
  unfold mainInstance at hi
  obtain ⟨i, e1, hri, hih, hbuilt⟩ := parse_sp (n := n) (cfg := ⟨cfg.tolerance, true⟩) hr.poi hr.surr hr.zero h.items hb hs mem.bins mem.centered
  rw [hi] at e1
  have := logParsed_some e1.symm
  simp only [Instance.sp.injEq] at this
  subst this
  obtain ⟨sn, hsn, hfeas, -, hit, -⟩ := C44_strip_packing (env := env.toStripEnv) hr.exact hr.poi.rects hr.unit hr.polar hr.tol hbuilt hri.fine hrun
  obtain ⟨hst, hpre, hhigh⟩ := lbfSolveSP_strip (env := env.toStripEnv) hr.exact hr.poi.rects hr.unit hr.polar hr.tol hbuilt hri.fine hrun hsn
  obtain ⟨sn', hin⟩ := lbfSolveSP_in (env := env.toStripEnv) hr.exact hr.poi.rects hr.unit hr.polar hr.tol hbuilt hri.fine hrun
  have : sn' = sn := by
    have := hin.snaps
    rw [hsn] at this
    simpa using this.symm
  subst this
  refine ⟨sn', hin, fun jl hjl => ?_⟩
  have hit' : SnapItems env.toPEnv.toEnv inst.items sn' := ⟨hit⟩
  obtain ⟨placed, e, hw, -, -⟩ := hri.layout hr.rad hr.unit hr.polar hit' hpre hfeas
  have hjl' : jl = ⟨.strip sn'.bin.outer.val.bbox.width inst.stripHeight, placed, sn'.usage⟩ := by
    unfold composeLayout Instance.items at hjl
    dsimp only at hjl
    rw [e] at hjl
    exact (Option.some.inj hjl).symm
  subst hjl'
  obtain ⟨m1, m2, m3, m4⟩ := hst.measured
  obtain ⟨y0, y1⟩ := hhigh (hih ▸ hH)
  have hbh : sn'.bin.outer.val.bbox.height = inst.stripHeight := by unfold AARect.height; rw [y0, y1, sub_zero]
  have hw0 : 0 ≤ sn'.bin.outer.val.bbox.width := by
    have hpos : 0 < inst.stripHeight := hih ▸ hH
    rw [m4, hbh] at m3
    exact ((mul_pos_iff_of_pos_right hpos).1 m3).le
  have hsa : planeArea (ji.space (.strip sn'.bin.outer.val.bbox.width inst.stripHeight)) = ENNReal.ofReal sn'.bin.area := by
    rw [strip_area ji hw0 (hih ▸ hH.le), m4, hbh]
  refine ⟨rfl, ?_⟩
  dsimp only
  exact layoutAreas m1 m2 (measured_of_items hri hr.unit hit') hfeas (.inl m3) (coveredIn_moved hw) hsa.ge (by rw [hsa]; exact ENNReal.ofReal_ne_top)
    (fun he v hv => coveredIn_exact he hri hr.unit hr.polar hit' hpre e hv) (fun _ => hsa)

/-- C65, the written solution: the usage of every layout is at least the fraction of the given bin (without its holes) or of the strip that the given
items cover where they are written to be, and at most one; if shapes are not simplified it is exactly that fraction. The same holds for the usage of
the whole solution and the areas of all layouts together. -/
theorem C65_written {env : MEnv ℝ n R} (hr : env.Regular) {cfg : MainConfig ℝ} (ht : ∀ tol, cfg.tolerance = some tol → tol < 1)
    {ji : JsonInstance ℝ} (h : ji.Sound) (hh : ji.NoHoles ∨ (cfg.tolerance = none ∧ ji.HolesFit)) (hH : ∀ height, ji.strip = some height → 0 < height)
    {mem : MainMem} {js : JsonSolution ℝ} (hjs : mainSolution env cfg mem ji = some js) :
    (∀ l ∈ js.layouts, 0 < (planeArea (ji.space l.container)).toReal ∧
      (planeArea (ji.coveredIn env.tr l.placedItems)).toReal / (planeArea (ji.space l.container)).toReal ≤ l.usage ∧ l.usage ≤ 1 ∧
      (cfg.tolerance = none → l.usage = (planeArea (ji.coveredIn env.tr l.placedItems)).toReal / (planeArea (ji.space l.container)).toReal)) ∧
    (js.layouts ≠ [] → 0 < totalArea (js.layouts.map fun l => ji.space l.container) ∧
      totalArea (js.layouts.map fun l => ji.coveredIn env.tr l.placedItems) / totalArea (js.layouts.map fun l => ji.space l.container) ≤ js.usage ∧
      js.usage ≤ 1 ∧ (cfg.tolerance = none → js.usage =
        totalArea (js.layouts.map fun l => ji.coveredIn env.tr l.placedItems) / totalArea (js.layouts.map fun l => ji.space l.container))) := by
  unfold mainSolution at hjs
  obtain ⟨inst, hi, hjs⟩ := Option.bind_eq_some_iff.1 hjs
  obtain ⟨sol, hsol, hjs⟩ := Option.bind_eq_some_iff.1 hjs
  unfold composeSolution at hjs
  obtain ⟨ls, hls, rfl⟩ := Option.map_eq_some_iff.1 hjs
  have hF := mapM_forall₂_of hls
  -- every layout comes from a snapshot of which the areas are known
  have key : (∀ sn ∈ sol.snapshots, ∀ jl, composeLayout env.tr inst sn = some jl → jl.usage = sn.usage ∧
      sn.usage = (sn.placed.values.map (·.shape.val.area)).sum / sn.bin.area ∧
      LayoutAreas (cfg.tolerance = none) sn.bin sn.placed.values (ji.coveredIn env.tr jl.placedItems) (ji.space jl.container)) ∧
      sol.usage = (sol.snapshots.map fun sn => sn.bin.area * sn.usage).sum / (sol.snapshots.map fun sn => sn.bin.area).sum := by
    cases inst with
    | bp i =>
      have hbs : ∃ bs, ji.bins = some bs := by
        cases hb : ji.bins with
        | some bs => exact ⟨bs, rfl⟩
        | none =>
          cases hst : ji.strip with
          | some height =>
            obtain ⟨_, h0⟩ := mainInstance_strip hi hst
            cases h0
          | none =>
            unfold mainInstance parseInstance at hi
            obtain ⟨_, -, hi⟩ := Option.bind_eq_some_iff.1 hi
            rw [hb, hst] at hi
            cases hi
      obtain ⟨bs, hb⟩ := hbs
      obtain ⟨h1, h2⟩ := bp_areas hr ht h hh hi hb hsol
      have hus := h1.usage
      rw [fsum_eq, fsum_eq] at hus
      exact ⟨fun sn hsn jl hjl => ⟨(h2 sn hsn jl hjl).1, (h1.snaps sn hsn).valid.usage.trans (by rw [fsum_eq]), (h2 sn hsn jl hjl).2⟩, hus⟩
    | sp i =>
      have hb : ji.bins = none := by
        cases hb : ji.bins with
        | none => rfl
        | some bs =>
          obtain ⟨_, h0⟩ := mainInstance_bins hi hb
          cases h0
      have hst : ∃ height, ji.strip = some height := by
        cases hst : ji.strip with
        | some height => exact ⟨_, rfl⟩
        | none =>
          unfold mainInstance parseInstance at hi
          obtain ⟨_, -, hi⟩ := Option.bind_eq_some_iff.1 hi
          rw [hb, hst] at hi
          cases hi
      obtain ⟨height, hst⟩ := hst
      obtain ⟨sn, h1, h2⟩ := sp_areas hr h hi hb hst (hH height hst) hsol
      refine ⟨fun sn' hsn jl hjl => ?_, ?_⟩
      · rw [h1.snaps, List.mem_singleton] at hsn
        subst hsn
        exact ⟨(h2 jl hjl).1, h1.snap.valid.usage.trans (by rw [fsum_eq]), (h2 jl hjl).2⟩
      · rw [h1.usage, h1.snaps]
        simp
  obtain ⟨key, htot⟩ := key
  refine ⟨fun l hl => ?_, fun hne => ?_⟩
  · obtain ⟨sn, hsn, hc⟩ := forall₂_exists_left hF hl
    obtain ⟨h1, h2, h3⟩ := key sn hsn l hc
    rw [h1]
    exact h3.fraction h2
  · -- pairs of a snapshot and what is written for it
    have hzip : ∀ x ∈ sol.snapshots.zip ls, x.1 ∈ sol.snapshots ∧ composeLayout env.tr inst x.1 = some x.2 := by
      intro x hx
      exact ⟨(List.of_mem_zip hx).1, (List.forall₂_iff_zip.1 hF).2 hx⟩
    have hlen : sol.snapshots.length = ls.length := hF.length_eq
    have e1 : (sol.snapshots.zip ls).map (·.1) = sol.snapshots := List.map_fst_zip hlen.le
    have e2 : (sol.snapshots.zip ls).map (·.2) = ls := List.map_snd_zip hlen.ge
    have hne' : sol.snapshots.zip ls ≠ [] := by
      intro e
      rw [e] at e2
      exact hne e2.symm
    have := LayoutAreas.total (l := sol.snapshots.zip ls) (bin := fun x => x.1.bin) (items := fun x => x.1.placed.values)
      (C := fun x => ji.coveredIn env.tr x.2.placedItems) (F := fun x => ji.space x.2.container) (us := fun x => x.1.usage) (u := sol.usage)
      (fun x hx => (key x.1 (hzip x hx).1 x.2 (hzip x hx).2).2.2) (fun x hx => (key x.1 (hzip x hx).1 x.2 (hzip x hx).2).2.1)
      (by
        rw [htot]
        conv_lhs => rw [← e1]
        rw [List.map_map, List.map_map]
        rfl) hne'
    have hC : (sol.snapshots.zip ls).map (fun x => (planeArea (ji.coveredIn env.tr x.2.placedItems)).toReal) =
        (ls.map fun l => ji.coveredIn env.tr l.placedItems).map fun s => (planeArea s).toReal := by
      conv_rhs => rw [← e2]
      rw [List.map_map, List.map_map]
      rfl
    have hS : (sol.snapshots.zip ls).map (fun x => (planeArea (ji.space x.2.container)).toReal) =
        (ls.map fun l => ji.space l.container).map fun s => (planeArea s).toReal := by
      conv_rhs => rw [← e2]
      rw [List.map_map, List.map_map]
      rfl
    unfold totalArea
    rw [← hC, ← hS]
    exact this

/-- a bin with the same hole given `k` times, and a square -/
def Ex.holeInst (k : ℕ) : JsonInstance ℚ :=
  ⟨[⟨1, some [0], .rectangle 2 2, none, none⟩],
   some [⟨1, some 1, .polygon [⟨0, 0⟩, ⟨8, 0⟩, ⟨8, 8⟩, ⟨0, 8⟩] (List.replicate k [⟨1/2, 9/2⟩, ⟨15/2, 9/2⟩, ⟨15/2, 15/2⟩, ⟨1/2, 15/2⟩]), []⟩], none⟩

/-- C65: holes that overlap are subtracted several times. For a sound instance with a hole that is given three times the usage of the written solution
is 4, and if it is given four times the usage is negative. -/
theorem C65_overlapping_holes : Ex.mEnv.Regular ∧ (∀ k, (Ex.holeInst k).Sound) ∧
    (mainSolution Ex.mEnv Ex.mCfg Ex.mMem (Ex.holeInst 1)).map (fun js => (js.usage, js.layouts.map (·.usage))) = some (4 / 43, [4 / 43]) ∧
    (mainSolution Ex.mEnv Ex.mCfg Ex.mMem (Ex.holeInst 3)).map (fun js => (js.usage, js.layouts.map (·.usage))) = some (4, [4]) ∧
    (mainSolution Ex.mEnv Ex.mCfg Ex.mMem (Ex.holeInst 4)).map (fun js => (js.usage, js.layouts.map (·.usage))) = some (-1 / 5, [-1 / 5]) := by
  refine ⟨Ex.mEnv_regular, fun k => ⟨fun j hj => ?_, fun bs hb b hbm => ?_⟩, by decide +kernel, by decide +kernel, by decide +kernel⟩
  · rw [List.mem_singleton.1 hj]
    exact ⟨by norm_num, by norm_num⟩
  · obtain rfl := Option.some.inj hb
    rw [List.mem_singleton.1 hbm]
    refine ⟨⟨simple_of_check (by decide +kernel), fun h hh => ?_⟩, fun z hz => absurd hz (by simp)⟩
    rw [(List.mem_replicate.1 hh).2]
    exact simple_of_check (by decide +kernel)

/-! ## Concrete cases -/

/-- Non-trivial case for C65, shapes: a square with sides of length 2 has area 4. -/
example : ∃ s : SPoly ℝ, SimplePoly [(⟨0, 0⟩ : Point ℝ), ⟨2, 0⟩, ⟨2, 2⟩, ⟨0, 2⟩] ∧
    SPoly.new (fun _ => ⟨⟨1, 1⟩, 1⟩) [⟨0, 0⟩, ⟨2, 0⟩, ⟨2, 2⟩, ⟨0, 2⟩] = some s ∧ s.area = 4 := by
  have h : SimplePoly [(⟨0, 0⟩ : Point ℝ), ⟨2, 0⟩, ⟨2, 2⟩, ⟨0, 2⟩] := rect_simple (by norm_num) (by norm_num)
  obtain ⟨s, hs⟩ := SPoly.new_simple (fun _ => ⟨⟨1, 1⟩, 1⟩) h
  refine ⟨s, h, hs, ?_⟩
  obtain ⟨-, -, -, h4, -⟩ := SPoly.new_spec hs
  rw [h4, ← calculateArea_eq]
  have := calculateArea_rect (⟨0, 0, 2, 2⟩ : AARect ℝ)
  rw [this]
  norm_num

/-- a rectangle as a shape -/
noncomputable def Ex.realRect (x0 y0 x1 y1 : ℝ) : SPoly ℝ := rectShape (fun _ => ⟨⟨0, 0⟩, 1⟩) ⟨x0, y0, x1, y1⟩

theorem Ex.realRect_measured {x0 y0 x1 y1 : ℝ} (hx : x0 < x1) (hy : y0 < y1) : (Ex.realRect x0 y0 x1 y1).Measured :=
  SPoly.ofRect_measured (SPoly.ofRect_eq _ (r := ⟨x0, y0, x1, y1⟩) ⟨hx, hy⟩)

theorem Ex.realRect_region {x0 y0 x1 y1 : ℝ} (hx : x0 < x1) (hy : y0 < y1) {v : Point ℝ} (hv : v ∈ region (Ex.realRect x0 y0 x1 y1).points) :
    x0 ≤ v.x ∧ v.x ≤ x1 ∧ y0 ≤ v.y ∧ v.y ≤ y1 := by
  rcases hv with h | h
  · exact ((bdry_rectPoly hx hy v).1 h).1
  · obtain ⟨a, b, c, d⟩ := (interior_rectPoly hx hy v).1 h
    exact ⟨a.le, b.le, c.le, d.le⟩

/-- Non-trivial case for C65, layouts: in a bin of 8 by 8 with a hole of 2 by 3 there is one item of 3 by 2. -/
example (env : Env ℝ) : ∃ l : Layout ℝ 2, l.bin.Built env ∧ l.bin.Measured ∧ HolesFit l.bin.outer.val.points (l.bin.holes.map (·.val.points)) ∧
    (∀ pi ∈ l.placed.values, pi.shape.val.Measured) ∧ Feasible l.bin l.placed.values ∧ l.placed.values ≠ [] ∧ l.bin.area = 58 ∧ l.usage = 6 / 58 := by
  have hnew := Bin.new_spec (n := 2) env 0 ⟨1, Ex.realRect 0 0 8 8⟩ 0 .empty [⟨2, Ex.realRect 5 4 7 7⟩] []
  obtain ⟨b, hb⟩ := hnew.1 ⟨by simp, by simp⟩
  obtain ⟨-, -, h1, h2, h3, -⟩ := hnew.2 b hb
  have hz : ∀ z, some z ∉ b.qualityZones := by
    intro z hz
    unfold Bin.new at hb
    split_ifs at hb
    obtain ⟨c, -, rfl⟩ := Option.map_eq_some_iff.1 hb
    have hz : some z ∈ zoneTable ([] : List (QualityZone ℝ)) := hz
    unfold zoneTable at hz
    rw [List.foldl_nil] at hz
    have := List.eq_of_mem_replicate hz
    cases this
  have ha : ∀ x0 y0 x1 y1 : ℝ, (Ex.realRect x0 y0 x1 y1).area = (x1 - x0) * (y1 - y0) := fun _ _ _ _ => rfl
  have m0 : (Ex.realRect 0 0 8 8).Measured := Ex.realRect_measured (by norm_num) (by norm_num)
  have m1 : (Ex.realRect 5 4 7 7).Measured := Ex.realRect_measured (by norm_num) (by norm_num)
  have m2 : (Ex.realRect 1 1 4 3).Measured := Ex.realRect_measured (by norm_num) (by norm_num)
  refine ⟨⟨0, b, ⟨[⟨1, some ⟨0, ⟨0, 0, 0⟩, none, ⟨3, Ex.realRect 1 1 4 3⟩⟩⟩], []⟩, b.baseCde⟩, ⟨_, _, _, _, _, _, hb⟩,
    ⟨by rw [h1]; exact m0, by rw [h2]; simpa using m1, by rw [h1, h2, h3, fsum_eq]⟩, ?_, ?_, ?_, ?_, ?_, ?_⟩
  · rw [h1, h2]
    refine ⟨fun h hh v hv => ?_, by simp⟩
    obtain rfl := List.mem_singleton.1 hh
    obtain ⟨a1, a2, a3, a4⟩ := Ex.realRect_region (by norm_num) (by norm_num) hv
    exact .inr ((interior_rectPoly (by norm_num) (by norm_num) v).2 ⟨by linarith, by linarith, by linarith, by linarith⟩)
  · intro pi hpi
    obtain rfl := List.mem_singleton.1 hpi
    exact m2
  · refine ⟨fun pi hpi v hv => ?_, fun pi hpi s hs => ?_, fun _ _ z hzz => absurd hzz (hz z), List.pairwise_singleton _ _⟩
    · obtain rfl := List.mem_singleton.1 hpi
      obtain ⟨a1, a2, a3, a4⟩ := Ex.realRect_region (by norm_num) (by norm_num) hv
      show v ∈ interior b.outer.val.points
      rw [h1]
      exact (interior_rectPoly (by norm_num) (by norm_num) v).2 ⟨by linarith, by linarith, by linarith, by linarith⟩
    · obtain rfl := List.mem_singleton.1 hpi
      have hs' : s ∈ b.holes := hs
      rw [h2] at hs'
      obtain rfl := List.mem_singleton.1 hs'
      rw [Set.disjoint_left]
      intro v hv hv'
      have a := Ex.realRect_region (by norm_num) (by norm_num) hv
      have c := Ex.realRect_region (by norm_num) (by norm_num) hv'
      linarith [a.2.1, c.1]
  · exact List.cons_ne_nil _ _
  · show b.area = 58
    rw [h3]
    simp [ha]
    norm_num
  · show fsum ([Ex.realRect 1 1 4 3].map (·.area)) / b.area = 6 / 58
    rw [h3]
    simp [ha]
    norm_num

-- runs of the program with their usages, bins and strip; the hypotheses of the theorem on written solutions are those of C64, which these runs meet
example : Ex.jInst.Sound ∧ Ex.jStrip.Sound ∧ Ex.mEnv.Regular ∧
    (mainSolution Ex.mEnv Ex.mCfg Ex.mMem Ex.jInst).map (fun js => js.layouts.map fun l => decide (0 < l.usage ∧ l.usage ≤ 1)) = some [true] ∧
    (mainSolution Ex.mEnv Ex.mCfg Ex.mMem Ex.jStrip).map (fun js => js.layouts.map fun l => decide (0 < l.usage ∧ l.usage ≤ 1)) = some [true] :=
  ⟨Ex.jInst_sound, Ex.jStrip_sound, Ex.mEnv_regular, by decide +kernel, by decide +kernel⟩

end Jagua
