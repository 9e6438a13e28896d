import Verif.Spec.Main
import Verif.Props.Compose
import Verif.Props.Svg
import Verif.Props.Reproducible

/-!
# Property C64: the files that the program writes
-/

set_option linter.unusedSectionVars false

namespace Jagua

variable {K : Type*} [Field K] [LinearOrder K] [IsStrictOrderedRing K] {n : ℕ} {R : Type*}

/-- an instance with bins is read as one -/
theorem mainInstance_bins {penv : PEnv K} {cfg : ParserConfig K} {addr addr' : ℕ → ℕ → ℕ → ℕ} {ji : JsonInstance K} {inst : Instance K n}
    (hi : parseInstance penv cfg n addr addr' ji = some inst) {bs : List (JsonBin K)} (hb : ji.bins = some bs) : ∃ i, inst = .bp i := by
  unfold parseInstance at hi
  obtain ⟨_, -, hi⟩ := Option.bind_eq_some_iff.1 hi
  rw [hb] at hi
  cases hst : ji.strip with
  | some _ => rw [hst] at hi; cases hi
  | none =>
    rw [hst] at hi
    obtain ⟨_, h1, h2⟩ := Option.bind_eq_some_iff.1 hi
    obtain ⟨_, -, h1⟩ := Option.bind_eq_some_iff.1 h1
    obtain ⟨i, -, rfl⟩ := Option.map_eq_some_iff.1 h1
    exact ⟨i, logParsed_some h2⟩

/-- an instance with a strip is read as one -/
theorem mainInstance_strip {penv : PEnv K} {cfg : ParserConfig K} {addr addr' : ℕ → ℕ → ℕ → ℕ} {ji : JsonInstance K} {inst : Instance K n}
    (hi : parseInstance penv cfg n addr addr' ji = some inst) {height : K} (hs : ji.strip = some height) : ∃ i, inst = .sp i := by
  unfold parseInstance at hi
  obtain ⟨_, -, hi⟩ := Option.bind_eq_some_iff.1 hi
  rw [hs] at hi
  cases hb : ji.bins with
  | some _ => rw [hb] at hi; cases hi
  | none =>
    rw [hb] at hi
    obtain ⟨_, h1, h2⟩ := Option.bind_eq_some_iff.1 hi
    obtain ⟨i, -, rfl⟩ := Option.map_eq_some_iff.1 h1
    exact ⟨i, logParsed_some h2⟩

/-- C64, bin packing: the solution that the program writes for an instance with bins solves the instance as it was given. Every layout is in a given
bin and feasible for the given shapes, no item is placed more often than there is demand for, and no bin is used more often than it is in stock. -/
theorem C64_bin_packing {env : MEnv K n R} (hr : env.Regular) {cfg : MainConfig K} (ht : ∀ tol, cfg.tolerance = some tol → tol < 1)
    {ji : JsonInstance K} (h : ji.Sound) {bs : List (JsonBin K)} (hb : ji.bins = some bs) {mem : MainMem} {js : JsonSolution K}
    (hjs : mainSolution env cfg mem ji = some js) :
    (∀ l ∈ js.layouts, ∃ k b, l.container = .bin k ∧ bs[k]? = some b ∧ ji.PlacedApart env.tr env.toRadians l.placedItems ∧
      ji.InBin env.tr b l.placedItems) ∧
    (∀ (i : ℕ) j, ji.items[i]? = some j → js.copies i ≤ j.demand) ∧
    ∀ (k : ℕ) b, bs[k]? = some b → ∀ q, b.stock = some q → js.binsUsed k ≤ q := by
  unfold mainSolution at hjs
  obtain ⟨inst, hi, hjs⟩ := Option.bind_eq_some_iff.1 hjs
  obtain ⟨sol, hsol, hjs⟩ := Option.bind_eq_some_iff.1 hjs
  obtain ⟨i, rfl⟩ := mainInstance_bins hi hb
  unfold mainSolve at hsol
  dsimp only at hsol
  obtain ⟨⟨s, p⟩, hrun, rfl⟩ := Option.map_eq_some_iff.1 hsol
  obtain ⟨js', e, hrest⟩ := C54_bin_packing hr.poi hr.surr hr.zero hr.exact hr.unit hr.polar hr.rad (cfg := ⟨cfg.tolerance, true⟩) ht h hb hi hrun
  rw [hjs] at e
  cases e
  exact hrest

/-- C64, strip packing: the solution that the program writes for an instance with a strip solves the instance as it was given. There is one layout, in
the strip with the written width and the given height; every item is placed as often as demanded, and the items are apart and inside the strip. -/
theorem C64_strip_packing {env : MEnv K n R} (hr : env.Regular) {cfg : MainConfig K} {ji : JsonInstance K} (h : ji.Sound) {height : K}
    (hs : ji.strip = some height) {mem : MainMem} {js : JsonSolution K} (hjs : mainSolution env cfg mem ji = some js) :
    ∃ l width, js.layouts = [l] ∧ l.container = .strip width height ∧ ji.PlacedApart env.tr env.toRadians l.placedItems ∧
      (0 < height → ∀ p ∈ l.placedItems, ∀ v ∈ ji.covered env.tr p, 0 < v.x ∧ v.x < width ∧ 0 < v.y ∧ v.y < height) ∧
      ∀ (i : ℕ) j, ji.items[i]? = some j → js.copies i = j.demand := by
  unfold mainSolution at hjs
  obtain ⟨inst, hi, hjs⟩ := Option.bind_eq_some_iff.1 hjs
  obtain ⟨sol, hsol, hjs⟩ := Option.bind_eq_some_iff.1 hjs
  obtain ⟨i, rfl⟩ := mainInstance_strip hi hs
  unfold mainSolve at hsol
  dsimp only at hsol
  obtain ⟨⟨s, p⟩, hrun, rfl⟩ := Option.map_eq_some_iff.1 hsol
  obtain ⟨js', l, width, height', e, e1, e2, e3, hrest⟩ := C54_strip_packing (penv := env.toPEnv) (env := env.toStripEnv) rfl hr.poi hr.surr hr.zero hr.exact
    hr.unit hr.polar hr.rad hr.tol (cfg := ⟨cfg.tolerance, true⟩) h hi hrun
  rw [hjs] at e
  cases e
  rw [hs] at e3
  cases e3
  exact ⟨l, width, e1, e2, hrest⟩

theorem mapM_pairs {α β γ : Type*} {f : α → Option β} {R : β → γ → Prop} {l : List α} {bs : List β} (hb : l.mapM f = some bs) {g : α × ℕ → Option γ} {k : ℕ}
    (h : ∀ a ∈ l, ∀ j b, f a = some b → ∃ c, g (a, j) = some c ∧ R b c) : ∃ cs, (l.zipIdx k).mapM g = some cs ∧ List.Forall₂ R bs cs := by
  induction l generalizing bs k with
  | nil => cases hb; exact ⟨[], rfl, .nil⟩
  | cons a l ih =>
    rw [List.mapM_cons] at hb
    obtain ⟨b, h1, hb⟩ := Option.bind_eq_some_iff.1 hb
    obtain ⟨bs', h2, hb⟩ := Option.bind_eq_some_iff.1 hb
    cases hb
    obtain ⟨c, h3, hr⟩ := h a List.mem_cons_self k b h1
    obtain ⟨cs, h4, hrs⟩ := ih h2 (k := k + 1) fun x hx => h x (List.mem_cons_of_mem _ hx)
    refine ⟨c :: cs, ?_, .cons hr hrs⟩
    rw [List.zipIdx_cons, List.mapM_cons]
    exact Option.bind_eq_some_iff.2 ⟨c, h3, Option.bind_eq_some_iff.2 ⟨cs, h4, rfl⟩⟩

/-- C64, pictures, partial: if the program writes a solution, it also writes one picture for every layout, in the same order, and every picture shows its
layout: the items where the solution puts them, all of it in view, and what is seen is a packing.
What is missing: items with a base quality of `N_QUALITIES`, which the parser accepts, make drawing panic after the solution has been written. -/
theorem C64_pictures_partial {env : MEnv K n R} (hr : env.Regular) (hdeg : env.DegreesBack) {cfg : MainConfig K} (ht : ∀ tol, cfg.tolerance = some tol → tol < 1)
    {ji : JsonInstance K} (h : ji.Sound) (hq : ∀ j ∈ ji.items, ∀ q, j.baseQuality = some q → q < nQualities)
    (ho : ∀ sn, cfg.svg.Drawable env.toSvgEnv (env.hpg sn)) {mem : MainMem} {js : JsonSolution K} (hjs : mainSolution env cfg mem ji = some js) :
    ∃ svgs, mainPictures env cfg mem ji = some svgs ∧ List.Forall₂ (fun (l : JsonLayout K) (svg : Svg K) =>
      ji.ShownIn env.tr env.toRadians (cfg.tolerance = none) l.placedItems svg ∧ svg.InView ∧ svg.Packed env.tr env.toRadians ji ∧
      (∀ k, l.container = .bin k → svg.binId = k ∧ ∃ bs b, ji.bins = some bs ∧ bs[k]? = some b ∧ b.ShownIn (cfg.tolerance = none) svg) ∧
      ∀ width height, l.container = .strip width height → svg.holes = [] ∧ svg.zones = [] ∧
        (0 < height → ∀ v, v ∈ interior svg.outer.points ↔ 0 < v.x ∧ v.x < width ∧ 0 < v.y ∧ v.y < height)) js.layouts svgs := by
  unfold mainSolution at hjs
  obtain ⟨inst, hi, hjs⟩ := Option.bind_eq_some_iff.1 hjs
  obtain ⟨sol, hsol, hjs⟩ := Option.bind_eq_some_iff.1 hjs
  unfold mainPictures
  rw [hi, Option.bind_some, hsol, Option.bind_some]
  unfold composeSolution at hjs
  obtain ⟨ls, hls, rfl⟩ := Option.map_eq_some_iff.1 hjs
  dsimp only
  refine mapM_pairs hls ?_
  cases inst with
  | bp i =>
    unfold mainSolve at hsol
    dsimp only at hsol
    obtain ⟨⟨s, p⟩, hrun, rfl⟩ := Option.map_eq_some_iff.1 hsol
    intro sn hsn k jl hjl
    have hbs : ∃ bs, ji.bins = some bs := by
      cases hb : ji.bins with
      | some bs => exact ⟨bs, rfl⟩
      | none =>
        cases hst : ji.strip with
        | some height =>
          obtain ⟨_, h0⟩ := mainInstance_strip hi hst
          cases h0
        | none =>
          unfold mainInstance parseInstance at hi
          obtain ⟨_, -, hi⟩ := Option.bind_eq_some_iff.1 hi
          rw [hb, hst] at hi
          cases hi
    obtain ⟨bs, hb⟩ := hbs
    obtain ⟨svg, jl', b, e1, e2, e3, e4, e5, e6, e7, -, e8⟩ := C58_bin_packing_partial (env := env.toSvgEnv) (cfg := ⟨cfg.tolerance, true⟩) hr.poi hr.surr hr.zero
      hr.exact hr.unit hr.polar hdeg ht h hq hb hi hrun (ho sn) (mem.drawn k) hsn
    have e2' : composeLayout env.tr (.bp i) sn = some jl' := e2
    rw [hjl] at e2'
    cases e2'
    refine ⟨svg, e1, e4, e6, e7, ?_, ?_⟩
    · intro k hk
      have hc : jl.container = .bin sn.bin.id := by
        unfold composeLayout at hjl
        obtain ⟨_, -, rfl⟩ := Option.map_eq_some_iff.1 hjl
        rfl
      rw [hc] at hk
      cases hk
      exact ⟨e8, bs, b, hb, e3, e5⟩
    · intro width height hw
      exfalso
      unfold composeLayout at hjl
      obtain ⟨_, -, rfl⟩ := Option.map_eq_some_iff.1 hjl
      cases hw
  | sp i =>
    unfold mainSolve at hsol
    dsimp only at hsol
    obtain ⟨⟨s, p⟩, hrun, rfl⟩ := Option.map_eq_some_iff.1 hsol
    intro sn hsn k jl hjl
    obtain ⟨sn', svg, jl', width, height, e0, e1, e2, e3, e4, e5, e6, e7, e8, e9, e10⟩ := C58_strip_packing_partial (env := env.toSvgEnv) (senv := env.toStripEnv) rfl
      (cfg := ⟨cfg.tolerance, true⟩) hr.poi hr.surr hr.zero hr.exact hr.unit hr.polar hdeg hr.rad hr.tol h hq hi hrun (ho sn) (mem.drawn k)
    dsimp only at hsn
    rw [e0, List.mem_singleton] at hsn
    subst hsn
    have e2' : composeLayout env.tr (.sp i) sn = some jl' := e2
    rw [hjl] at e2'
    cases e2'
    refine ⟨svg, e1, e5, e8, e10, ?_, ?_⟩
    · intro k hk
      rw [e3] at hk
      cases hk
    · intro w' h' hw
      rw [e3] at hw
      cases hw
      exact ⟨e6, e7, e9⟩

/-- C64: the full claim about pictures fails. For a sound instance with an item that asks for a base quality of `N_QUALITIES` the solution is
written, but then the program panics instead of writing pictures. -/
theorem C64_pictures_panic : ∃ ji : JsonInstance ℚ, ji.Sound ∧ Ex.mEnv.Regular ∧ (mainSolution Ex.mEnv Ex.mCfg Ex.mMem ji).isSome = true ∧
    mainPictures Ex.mEnv Ex.mCfg Ex.mMem ji = none := by
  refine ⟨Ex.tenInst, ⟨fun j hj => ?_, Ex.jInst_sound.bins⟩, Ex.mEnv_regular, by decide +kernel, ?_⟩
  · obtain ⟨k, hk, rfl⟩ := List.mem_map.1 hj
    exact Ex.jItems_plain 2 k hk
  · rw [← Option.isNone_iff_eq_none]
    decide +kernel

/-! ## Concrete cases -/

-- bins: the hypotheses of the theorems, and what is written
example : Ex.mEnv.Regular ∧ Ex.mEnv.DegreesBack ∧ (∀ tol, Ex.mCfg.tolerance = some tol → tol < 1) ∧ Ex.jInst.Sound ∧
    (∀ j ∈ Ex.jInst.items, ∀ q, j.baseQuality = some q → q < nQualities) ∧ (∀ sn, Ex.mCfg.svg.Drawable Ex.mEnv.toSvgEnv (Ex.mEnv.hpg sn)) ∧
    (mainSolution Ex.mEnv Ex.mCfg Ex.mMem Ex.jInst).map (fun js => js.layouts.map fun l => (l.container, l.placedItems.map fun p => (p.index, p.rotation))) =
      some [(.bin 0, [(0, 2), (1, 0)])] ∧
    (mainPictures Ex.mEnv Ex.mCfg Ex.mMem Ex.jInst).map (fun svgs => svgs.map Ex.sBrief) =
      some [([0, 1], [(0, 90), (1, 0)], [0])] :=
  ⟨Ex.mEnv_regular, Ex.sEnv_degrees, Ex.jCfg_tolerance, Ex.jInst_sound, Ex.jItems_quality 2, fun _ => Ex.sOpts_drawable, by decide +kernel, by decide +kernel⟩

-- a strip
example : Ex.jStrip.Sound ∧ (∀ j ∈ Ex.jStrip.items, ∀ q, j.baseQuality = some q → q < nQualities) ∧
    (mainSolution Ex.mEnv Ex.mCfg Ex.mMem Ex.jStrip).map (fun js => js.layouts.map fun l => l.placedItems.map (·.index)) = some [[0, 1]] ∧
    (mainPictures Ex.mEnv Ex.mCfg Ex.mMem Ex.jStrip).map (fun svgs => svgs.length) = some 1 :=
  ⟨Ex.jStrip_sound, Ex.jItems_quality 1, by decide +kernel, by decide +kernel⟩

end Jagua
