import Verif.Lemmas.Compose
import Verif.Lemmas.JsonExamples

/-!
# Property C54: the solution that is written solves the instance that was read
-/

set_option linter.unusedSectionVars false

namespace Jagua

variable {K : Type*} [Field K] [LinearOrder K] [IsStrictOrderedRing K] {n : ℕ} {R : Type*}

/-- C54: a layout in a bin of the parsed instance, whose items are copies of items of the parsed instance and which is feasible as seen by
the library, can be written. What is written is feasible for the shapes of the input, before simplification and centering: applied to these
shapes, the written transformations turn the items only as allowed, keep them apart, and put them into the given bin, off
the given holes and the given zones of too low a quality. -/
theorem C54_bin_layout {penv : PEnv K} {cfg : ParserConfig K} (hpoi : PoiInside penv.poi) (hsurr : KeepsShape penv.surr) (hz : penv.tr.AtZero)
    (hu : penv.tr.Unit) (hp : penv.tr.Polar) (hrad : penv.toRadians 0 = 0) (ht : ∀ tol, cfg.tolerance = some tol → tol < 1)
    {ji : JsonInstance K} (h : ji.Sound) {bs : List (JsonBin K)} (hb : ji.bins = some bs) {addr addr' : ℕ → ℕ → ℕ → ℕ} {inst : BPInstance K n}
    (hparse : parseInstance penv cfg n addr addr' ji = some (.bp inst)) {sn : LayoutSnapshot K n}
    (hbin : ∃ q, inst.bins[sn.bin.id]? = some (sn.bin, q)) (hfeas : Feasible sn.bin sn.placed.values)
    (hitems : ∀ pi ∈ sn.placed.values, ∃ x, inst.items[pi.itemId]? = some x ∧ pi.hazardFilter = x.1.hazardFilter ∧
      pi.shape.val = x.1.shape.transform (Transf.fromDt penv.tr pi.dt) ∧ x.1.Allows penv.tr pi.dt.rotation) :
    ∃ jl b, composeLayout penv.tr (.bp inst) sn = some jl ∧ jl.container = .bin sn.bin.id ∧ bs[sn.bin.id]? = some b ∧
      ji.PlacedApart penv.tr penv.toRadians jl.placedItems ∧ ji.InBin penv.tr b jl.placedItems ∧
      (∀ i, (jl.placedItems.countP fun p => p.index = i) = copiesIn sn.placed i) ∧ jl.usage = sn.usage := by
  obtain ⟨h1, h2⟩ := parse_qualities hparse hb
  obtain ⟨i, e1, hri, hrb, -⟩ := parse_bp (n := n) (cfg := cfg) hpoi hsurr hz ht h hb h1 h2 addr addr'
  rw [hparse] at e1
  have := logParsed_some e1.symm
  simp only [Instance.bp.injEq] at this
  subst this
  obtain ⟨q, hq⟩ := hbin
  obtain ⟨b, hbk, -, bx, b_y, hr⟩ := hrb.get hq
  obtain ⟨placed, e, hw, hap, hc⟩ := hri.layout hrad hu hp ⟨hitems⟩ hr.pre hfeas
  refine ⟨⟨.bin sn.bin.id, placed, sn.usage⟩, b, ?_, rfl, hbk, hap, hr.inBin hfeas hw, hc, rfl⟩
  unfold composeLayout Instance.items
  dsimp only
  rw [e]
  rfl

/-- a solution that is feasible for the parsed instance is written as a solution of the given one -/
theorem composeSolution_bp {penv : PEnv K} {cfg : ParserConfig K} (hpoi : PoiInside penv.poi) (hsurr : KeepsShape penv.surr) (hz : penv.tr.AtZero)
    (hu : penv.tr.Unit) (hp : penv.tr.Polar) (hrad : penv.toRadians 0 = 0)
    (ht : ∀ tol, cfg.tolerance = some tol → tol < 1)
    {ji : JsonInstance K} (h : ji.Sound) {bs : List (JsonBin K)} (hb : ji.bins = some bs) {addr addr' : ℕ → ℕ → ℕ → ℕ} {inst : BPInstance K n}
    (hparse : parseInstance penv cfg n addr addr' ji = some (.bp inst))
    {sol : Solution K n}
    (k1 : ∀ sn ∈ sol.snapshots, (∃ q, inst.bins[sn.bin.id]? = some (sn.bin, q)) ∧ Feasible sn.bin sn.placed.values ∧
      ∀ pi ∈ sn.placed.values, ∃ x, inst.items[pi.itemId]? = some x ∧ pi.hazardFilter = x.1.hazardFilter ∧
        pi.shape.val = x.1.shape.transform (Transf.fromDt penv.tr pi.dt) ∧ x.1.Allows penv.tr pi.dt.rotation)
    (k2 : ∀ (i : ℕ) x, inst.items[i]? = some x → sol.placed[i]? = some (sol.copiesOf i) ∧ sol.copiesOf i ≤ x.2)
    (k3 : ∀ (b : ℕ) x, inst.bins[b]? = some x → sol.binsUsed b ≤ x.2) :
    ∃ js, composeSolution penv.tr (.bp inst) sol = some js ∧
      (∀ l ∈ js.layouts, ∃ k b, l.container = .bin k ∧ bs[k]? = some b ∧ ji.PlacedApart penv.tr penv.toRadians l.placedItems ∧
        ji.InBin penv.tr b l.placedItems) ∧
      (∀ (i : ℕ) j, ji.items[i]? = some j → js.copies i ≤ j.demand) ∧
      ∀ (k : ℕ) b, bs[k]? = some b → ∀ q, b.stock = some q → js.binsUsed k ≤ q := by
  obtain ⟨h1, h2⟩ := parse_qualities hparse hb
  obtain ⟨i, e1, hri, hrb, hnew⟩ := parse_bp (n := n) (cfg := cfg) hpoi hsurr hz ht h hb h1 h2 addr addr'
  rw [hparse] at e1
  have := logParsed_some e1.symm
  simp only [Instance.bp.injEq] at this
  subst this
  have hlay : ∀ sn ∈ sol.snapshots, ∃ jl, composeLayout penv.tr (.bp inst) sn = some jl ∧ jl.container = .bin sn.bin.id ∧
      (∃ b, bs[sn.bin.id]? = some b ∧ ji.PlacedApart penv.tr penv.toRadians jl.placedItems ∧ ji.InBin penv.tr b jl.placedItems) ∧
      ∀ i, (jl.placedItems.countP fun p => p.index = i) = copiesIn sn.placed i := by
    intro sn hsn
    obtain ⟨g1, g2, g3⟩ := k1 sn hsn
    obtain ⟨jl, b, a1, a2, a3, a4, a5, a6, -⟩ := C54_bin_layout hpoi hsurr hz hu hp hrad ht h hb hparse g1 g2 g3
    exact ⟨jl, a1, a2, ⟨b, a3, a4, a5⟩, a6⟩
  obtain ⟨ls, e, hw⟩ := mapM_rel (l := sol.snapshots) hlay
  refine ⟨⟨sol.usage, ls⟩, by unfold composeSolution; rw [e]; rfl, ?_, ?_, ?_⟩
  · intro l hl
    obtain ⟨sn, -, a1, ⟨b, a2, a3, a4⟩, -⟩ := forall₂_exists_left hw hl
    exact ⟨sn.bin.id, b, a1, a2, a3, a4⟩
  · intro i j hj
    obtain ⟨-, hg⟩ := forall₂_zipIdx_get hri
    obtain ⟨x, hx, hd, -⟩ := hg i j hj
    obtain ⟨-, hle⟩ := k2 i x hx
    have hc : JsonSolution.copies ⟨sol.usage, ls⟩ i = sol.copiesOf i := by
      unfold JsonSolution.copies Solution.copiesOf
      dsimp only
      congr 1
      exact (Forall₂.map_eq hw fun a b hr => (hr.2.2 i).symm).symm
    rw [hc, ← hd]
    exact hle
  · intro k b hk q hq
    obtain ⟨-, hg⟩ := forall₂_zipIdx_get hrb
    obtain ⟨x, hx, hd, -⟩ := hg k b hk
    have hle := k3 k x hx
    have hc : JsonSolution.binsUsed ⟨sol.usage, ls⟩ k = sol.binsUsed k := by
      unfold JsonSolution.binsUsed Solution.binsUsed
      dsimp only
      exact (Forall₂.countP (fun a b hr => by simp [hr.1]) hw).symm
    rw [hc]
    dsimp only at hd
    rw [hq, Option.getD_some] at hd
    omega

/-- C54, bin packing: if the optimizer solves the parsed instance, the solution can be written, and what is written solves the instance as it
was given: every layout is in a given bin and feasible for the given shapes, no item is placed more often than there is demand for, and no
bin is used more often than it is in stock. -/
theorem C54_bin_packing {penv : PEnv K} {cfg : ParserConfig K} (hpoi : PoiInside penv.poi) (hsurr : KeepsShape penv.surr) (hz : penv.tr.AtZero)
    (hf : penv.f = Fpa.exact) (hu : penv.tr.Unit) (hp : penv.tr.Polar) (hrad : penv.toRadians 0 = 0)
    (ht : ∀ tol, cfg.tolerance = some tol → tol < 1)
    {ji : JsonInstance K} (h : ji.Sound) {bs : List (JsonBin K)} (hb : ji.bins = some bs) {addr addr' : ℕ → ℕ → ℕ → ℕ} {inst : BPInstance K n}
    (hparse : parseInstance penv cfg n addr addr' ji = some (.bp inst))
    {lenv : LEnv K n R} {lcfg : LbfConfig} {addr₁ : ℕ → ℕ → ℕ} {fuel : ℕ} {r : R} {sol : Solution K n} {p : BPProblem K n}
    (hsol : lbfSolveBP lenv penv.toEnv lcfg addr₁ fuel inst r = some (sol, p)) :
    ∃ js, composeSolution penv.tr (.bp inst) sol = some js ∧
      (∀ l ∈ js.layouts, ∃ k b, l.container = .bin k ∧ bs[k]? = some b ∧ ji.PlacedApart penv.tr penv.toRadians l.placedItems ∧
        ji.InBin penv.tr b l.placedItems) ∧
      (∀ (i : ℕ) j, ji.items[i]? = some j → js.copies i ≤ j.demand) ∧
      ∀ (k : ℕ) b, bs[k]? = some b → ∀ q, b.stock = some q → js.binsUsed k ≤ q := by
  obtain ⟨h1, h2⟩ := parse_qualities hparse hb
  obtain ⟨i, e1, hri, hrb, hnew⟩ := parse_bp (n := n) (cfg := cfg) hpoi hsurr hz ht h hb h1 h2 addr addr'
  rw [hparse] at e1
  have := logParsed_some e1.symm
  simp only [Instance.bp.injEq] at this
  subst this
  obtain ⟨k1, k2, k3⟩ := C44_bin_packing hf hu hp ⟨hnew, fun x hx => (hrb.fine x hx).1⟩ (fun x hx => (hrb.fine x hx).2) hri.fine hsol
  exact composeSolution_bp hpoi hsurr hz hu hp hrad ht h hb hparse k1 k2 k3

/-- C54, strip packing: if the optimizer solves the parsed instance, the solution can be written, and what is written solves the instance
as it was given: there is one layout, in the strip from the origin with the written width and the given height, and it places every item as
often as demanded; the items of the input, moved as written, are turned only as allowed, apart from each other and inside the strip. -/
theorem C54_strip_packing {penv : PEnv K} {env : StripEnv K} (henv : env.toEnv = penv.toEnv) {cfg : ParserConfig K} (hpoi : PoiInside penv.poi)
    (hsurr : KeepsShape penv.surr) (hz : penv.tr.AtZero)
    (hf : penv.f = Fpa.exact) (hu : penv.tr.Unit) (hp : penv.tr.Polar) (hrad : penv.toRadians 0 = 0) (htol : 0 < env.tolerance)
    {ji : JsonInstance K} (h : ji.Sound) {addr addr' : ℕ → ℕ → ℕ → ℕ} {inst : SPInstance K}
    (hparse : parseInstance penv cfg n addr addr' ji = some (.sp inst))
    {lenv : LEnv K n R} {lcfg : LbfConfig} {addr₁ : ℕ → ℕ → ℕ} {addrs : ℕ → ℕ → ℕ → ℕ} {addr₂ addr₃ : ℕ} {addrs₁ : ℕ → ℕ} {fuel : ℕ} {r : R}
    {sol : Solution K n} {p : SPProblem K n}
    (hsol : lbfSolveSP lenv env lcfg addr₁ addrs addr₂ addr₃ addrs₁ fuel inst r = some (sol, p)) :
    ∃ js l width height, composeSolution penv.tr (.sp (n := n) inst) sol = some js ∧ js.layouts = [l] ∧ l.container = .strip width height ∧
      ji.strip = some height ∧ ji.PlacedApart penv.tr penv.toRadians l.placedItems ∧
      (0 < height → ∀ p ∈ l.placedItems, ∀ v ∈ ji.covered penv.tr p, 0 < v.x ∧ v.x < width ∧ 0 < v.y ∧ v.y < height) ∧
      ∀ (i : ℕ) j, ji.items[i]? = some j → js.copies i = j.demand := by
  obtain ⟨hstrip, hbins⟩ : ji.strip = some inst.stripHeight ∧ ji.bins = none := by
    cases hb : ji.bins with
    | some bs =>
      obtain ⟨h1, h2⟩ := parse_qualities hparse hb
      unfold parseInstance at hparse
      obtain ⟨_, -, hparse⟩ := Option.bind_eq_some_iff.1 hparse
      rw [hb, h1] at hparse
      obtain ⟨i', hparse, hl⟩ := Option.bind_eq_some_iff.1 hparse
      obtain ⟨_, -, hparse⟩ := Option.bind_eq_some_iff.1 hparse
      obtain ⟨_, -, rfl⟩ := Option.map_eq_some_iff.1 hparse
      cases logParsed_some hl
    | none =>
      cases hs : ji.strip with
      | none =>
        unfold parseInstance at hparse
        obtain ⟨_, -, hparse⟩ := Option.bind_eq_some_iff.1 hparse
        rw [hb, hs] at hparse
        cases hparse
      | some height =>
        obtain ⟨i, e1, -, e2, -⟩ := parse_sp (n := n) (cfg := cfg) hpoi hsurr hz h.items hb hs addr addr'
        rw [hparse] at e1
        have := logParsed_some e1.symm
        simp only [Instance.sp.injEq] at this
        subst this
        rw [e2]
        exact ⟨rfl, rfl⟩
  obtain ⟨i, e1, hri, -, hbuilt⟩ := parse_sp (n := n) (cfg := cfg) hpoi hsurr hz h.items hbins hstrip addr addr'
  rw [hparse] at e1
  have := logParsed_some e1.symm
  simp only [Instance.sp.injEq] at this
  subst this
  have hf' : env.f = Fpa.exact := by rw [henv]; exact hf
  have hu' : env.tr.Unit := by rw [henv]; exact hu
  have hp' : env.tr.Polar := by rw [henv]; exact hp
  have hr' : PoiOfRects env.poi := by rw [henv]; exact hpoi.rects
  obtain ⟨sn, hsn, hfeas, -, hit, hcop⟩ := C44_strip_packing hf' hr' hu' hp' htol hbuilt hri.fine hsol
  obtain ⟨hst, hpre, hhigh⟩ := lbfSolveSP_strip hf' hr' hu' hp' htol hbuilt hri.fine hsol hsn
  rw [henv] at hit
  obtain ⟨placed, e, hw, hap, hc⟩ := hri.layout hrad hu hp ⟨hit⟩ hpre hfeas
  refine ⟨⟨sol.usage, [⟨.strip sn.bin.outer.val.bbox.width inst.stripHeight, placed, sn.usage⟩]⟩, _, _, _, ?_, rfl, rfl, hstrip, hap, ?_, ?_⟩
  · unfold composeSolution
    rw [hsn, List.mapM_cons, List.mapM_nil]
    unfold composeLayout Instance.items
    dsimp only
    rw [e]
    rfl
  · intro hH p hpm v hv
    obtain ⟨pi, hpi, hr⟩ := forall₂_exists_left hw hpm
    obtain ⟨a1, a2, a3, a4⟩ := (hst.interior _).1 (hfeas.inside pi hpi (hr.covered v hv))
    obtain ⟨g1, g2⟩ := hhigh hH
    unfold transPt at a1 a2 a3 a4
    dsimp only at a1 a2 a3 a4
    unfold AARect.width
    exact ⟨by linarith, by linarith, by linarith, by linarith⟩
  · intro i j hj
    obtain ⟨-, hg⟩ := forall₂_zipIdx_get hri
    obtain ⟨x, hx, hd, -⟩ := hg i j hj
    dsimp only at hd
    rw [← hd, ← (hcop i x hx).2, ← hc i]
    unfold JsonSolution.copies
    simp

/-! ## Concrete cases -/

/-- Non-trivial case for C54, bin packing: one of two triangles, turned by a quarter, and the square are placed. -/
example : ∃ (inst : BPInstance ℚ 2) (sol : Solution ℚ 2) (p : BPProblem ℚ 2) (js : JsonSolution ℚ), PoiInside Ex.jEnv.poi ∧ KeepsShape Ex.jEnv.surr ∧
    Ex.jEnv.tr.AtZero ∧ Ex.jEnv.f = Fpa.exact ∧ Ex.jEnv.tr.Unit ∧ Ex.jEnv.tr.Polar ∧ Ex.jEnv.toRadians 0 = 0 ∧
    (∀ tol, Ex.jCfg.tolerance = some tol → tol < 1) ∧ Ex.jInst.Sound ∧ Ex.jParsed = some (.bp inst) ∧
    lbfSolveBP Ex.jLenv Ex.jEnv.toEnv Ex.lbfCfg (fun a b => 100000 + 1000 * a + b) 4 inst 0 = some (sol, p) ∧
    composeSolution Ex.jEnv.tr (.bp inst) sol = some js ∧
    (js.layouts.map fun l => (l.container, l.placedItems.map fun p => (p.index, p.rotation))) = [(.bin 0, [(0, 2), (1, 0)])] := by
  have h : Ex.jRun.map (fun js => js.layouts.map fun l => (l.container, l.placedItems.map fun p => (p.index, p.rotation))) =
      some [(.bin 0, [(0, 2), (1, 0)])] := by decide +kernel
  obtain ⟨js, hjs, he⟩ := Option.map_eq_some_iff.1 h
  unfold Ex.jRun at hjs
  obtain ⟨i, hi, hjs⟩ := Option.bind_eq_some_iff.1 hjs
  cases i with
  | sp _ => cases hjs
  | bp inst =>
    obtain ⟨⟨sol, p⟩, hs, hjs⟩ := Option.bind_eq_some_iff.1 hjs
    exact ⟨inst, sol, p, js, Ex.jPoi_inside, Ex.jEnv_keeps, Ex.turns_zero, rfl, Ex.turns_unit, Ex.turns_polar, by decide +kernel, Ex.jCfg_tolerance,
      Ex.jInst_sound, hi, hs, hjs, he⟩

/-- Non-trivial case for C54, strip packing. -/
example : ∃ (inst : SPInstance ℚ) (sol : Solution ℚ 2) (p : SPProblem ℚ 2) (js : JsonSolution ℚ), Ex.jSenv.toEnv = Ex.jEnv.toEnv ∧
    PoiInside Ex.jEnv.poi ∧ KeepsShape Ex.jEnv.surr ∧
    Ex.jEnv.tr.AtZero ∧ Ex.jEnv.f = Fpa.exact ∧ Ex.jEnv.tr.Unit ∧ Ex.jEnv.tr.Polar ∧ Ex.jEnv.toRadians 0 = 0 ∧
    0 < Ex.jSenv.tolerance ∧ Ex.jStrip.Sound ∧ Ex.jParsedStrip = some (.sp inst) ∧
    lbfSolveSP (n := 2) Ex.lbfLenv Ex.jSenv Ex.lbfCfg (fun a b => 1000 * a + b) (fun a b c => 10000 * a + 100 * b + c) 1 2 id 4 inst 0 = some (sol, p) ∧
    composeSolution Ex.jEnv.tr (.sp (n := 2) inst) sol = some js ∧
    (js.layouts.map fun l => l.placedItems.map (·.index)) = [[0, 1]] := by
  have h : Ex.jStripRun.map (fun js => js.layouts.map fun l => l.placedItems.map (·.index)) = some [[0, 1]] := by decide +kernel
  obtain ⟨js, hjs, he⟩ := Option.map_eq_some_iff.1 h
  unfold Ex.jStripRun at hjs
  obtain ⟨i, hi, hjs⟩ := Option.bind_eq_some_iff.1 hjs
  cases i with
  | bp _ => cases hjs
  | sp inst =>
    obtain ⟨⟨sol, p⟩, hs, hjs⟩ := Option.bind_eq_some_iff.1 hjs
    exact ⟨inst, sol, p, js, rfl, Ex.jPoi_inside, Ex.jEnv_keeps, Ex.turns_zero, rfl, Ex.turns_unit, Ex.turns_polar, by decide +kernel,
      by decide +kernel, Ex.jStrip_sound, hi, hs, hjs, he⟩

end Jagua
