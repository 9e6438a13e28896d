import Verif.Props.Compose
import Verif.Props.ToleranceRun

/-!
# C68 from the input to the output: what is written solves the instance although comparisons have a tolerance
-/

set_option linter.unusedSectionVars false

namespace Jagua

variable {K : Type*} [Field K] [LinearOrder K] [IsStrictOrderedRing K] {n : ℕ} {R : Type*}

/-- C68, bin packing: if the tolerance is small compared to the bins and the items of the parsed instance, the solution that the optimizer
finds can be written, and what is written solves the instance as it was given, exactly: every layout is in a given bin, the items of the
input, moved as written, are turned only as allowed, apart from each other, inside the bin, off its holes and off zones of too low a
quality; no item is placed more often than there is demand for, and no bin is used more often than it is in stock. -/
theorem C68_written_solution {penv : PEnv K} {cfg : ParserConfig K} (hpoi : PoiInside penv.poi) (hsurr : KeepsShape penv.surr) (hz : penv.tr.AtZero)
    {M ε : K} (hf : penv.f.Tolerant M ε) (hu : penv.tr.Unit) (hp : penv.tr.Polar) (hrad : penv.toRadians 0 = 0)
    (ht : ∀ tol, cfg.tolerance = some tol → tol < 1)
    {ji : JsonInstance K} (h : ji.Sound) {bs : List (JsonBin K)} (hb : ji.bins = some bs) {addr addr' : ℕ → ℕ → ℕ → ℕ} {inst : BPInstance K n}
    (hparse : parseInstance penv cfg n addr addr' ji = some (.bp inst)) (htol : inst.Tolerates penv.tr M ε)
    {lenv : LEnv K n R} {lcfg : LbfConfig} {addr₁ : ℕ → ℕ → ℕ} {fuel : ℕ} {r : R} {sol : Solution K n} {p : BPProblem K n}
    (hsol : lbfSolveBP lenv penv.toEnv lcfg addr₁ fuel inst r = some (sol, p)) :
    ∃ js, composeSolution penv.tr (.bp inst) sol = some js ∧
      (∀ l ∈ js.layouts, ∃ k b, l.container = .bin k ∧ bs[k]? = some b ∧ ji.PlacedApart penv.tr penv.toRadians l.placedItems ∧
        ji.InBin penv.tr b l.placedItems) ∧
      (∀ (i : ℕ) j, ji.items[i]? = some j → js.copies i ≤ j.demand) ∧
      ∀ (k : ℕ) b, bs[k]? = some b → ∀ q, b.stock = some q → js.binsUsed k ≤ q := by
  obtain ⟨h1, h2⟩ := parse_qualities hparse hb
  obtain ⟨i, e1, hri, hrb, hnew⟩ := parse_bp (n := n) (cfg := cfg) hpoi hsurr hz ht h hb h1 h2 addr addr'
  rw [hparse] at e1
  have := logParsed_some e1.symm
  simp only [Instance.bp.injEq] at this
  subst this
  obtain ⟨k1, k2, k3⟩ := C68_optimizer hf htol hu hp ⟨hnew, fun x hx => (hrb.fine x hx).1⟩ (fun x hx => (hrb.fine x hx).2) hri.fine hsol
  exact composeSolution_bp hpoi hsurr hz hu hp hrad ht h hb hparse k1 k2 k3

/-! ## A case -/

namespace Ex

/-- as in the other runs that read input, with a relative tolerance of one thousandth -/
noncomputable def jtEnv : PEnv ℚ := { jEnv with f := tol }

/-- three squares; one bin, with a hole -/
def jtInst : JsonInstance ℚ :=
  ⟨[⟨3, some [0], .rectangle 2 2, none, none⟩],
    some [⟨3, some 1, .polygon [⟨0, 0⟩, ⟨8, 0⟩, ⟨8, 8⟩, ⟨0, 8⟩] [[⟨0, 1⟩, ⟨3, 1⟩, ⟨3, 2⟩, ⟨0, 2⟩, ⟨0, 1⟩]], []⟩], none⟩

theorem jtInst_sound : jtInst.Sound := by
  refine ⟨?_, fun bs hb b hbm => ?_⟩
  · intro j hj
    rw [List.mem_singleton.1 hj]
    exact ⟨by norm_num, by norm_num⟩
  · cases Option.some.inj hb
    rw [List.mem_singleton.1 hbm]
    refine ⟨⟨simple_of_check (by decide +kernel), fun h hh => ?_⟩, fun z hz => by cases hz⟩
    rw [List.mem_singleton.1 hh]
    exact simple_of_check (by decide +kernel)

noncomputable def jtParsed : Option (Instance ℚ 2) :=
  parseInstance jtEnv jCfg 2 (fun i j k => 10000 * i + 100 * j + k) (fun i j k => 20000 + 10000 * i + 100 * j + k) jtInst

/-- read, solve, write -/
noncomputable def jtRun : Option (JsonSolution ℚ) :=
  jtParsed.bind fun i => match i with
  | .bp inst => (lbfSolveBP jLenv jtEnv.toEnv lbfCfg (fun a b => 100000 + 1000 * a + b) 4 inst 0).bind fun s => composeSolution jtEnv.tr (.bp inst) s.1
  | .sp _ => none

/-- the shapes that are read -/
def jtShapes (i : Instance ℚ 2) : Option (List (List (Point ℚ) × Point ℚ) × List (AARect ℚ × (List (Point ℚ) × Point ℚ) × List (List (Point ℚ) × Point ℚ) × Bool)) :=
  match i with
  | .bp inst => some (inst.items.map fun x => (x.1.shape.points, x.1.shape.poi.center),
      inst.bins.map fun b => (b.1.baseCde.bbox, (b.1.outer.val.points, b.1.outer.val.poi.center), b.1.holes.map (fun s => (s.val.points, s.val.poi.center)),
        b.1.qualityZones.all fun z => z.all fun z => z.zones.isEmpty))
  | .sp _ => none

set_option synthInstance.maxSize 1024 in
set_option synthInstance.maxHeartbeats 400000 in
theorem jtParsed_tolerates {inst : BPInstance ℚ 2} (h : jtParsed = some (.bp inst)) : inst.Tolerates jtEnv.tr 8 (1 / 125) := by
  have hs : jtParsed.bind jtShapes = some ([(rectPoly (-1) (-1) 1 1, ⟨0, 0⟩)],
      [(⟨-4, -4, 4, 4⟩, (rectPoly (-4) (-4) 4 4, ⟨0, 0⟩), [(rectPoly (-4) (-3) (-1) (-2), ⟨-5 / 2, -5 / 2⟩)], true)]) := by decide +kernel
  rw [h] at hs
  simp only [Option.bind_some, jtShapes, Option.some.injEq, Prod.mk.injEq, List.map_eq_singleton_iff] at hs
  obtain ⟨⟨x, hx, hxp, hxc⟩, b, hb, hbox, ⟨hop, hoc⟩, ⟨a, ha, hap, hac⟩, hz⟩ := hs
  have hz : ∀ z, some z ∈ b.1.qualityZones → ∀ s, s ∉ z.zones := by
    intro z hm s hs
    have := List.all_eq_true.1 hz _ hm
    simp only [Option.all_some, List.isEmpty_iff] at this
    rw [this] at hs
    cases hs
  refine ⟨by norm_num, ?_, ?_, ?_⟩
  · rw [hb]
    intro b' hb'
    rw [List.mem_singleton.1 hb']
    refine ⟨by rw [hbox]; unfold AARect.width; norm_num, by rw [hbox]; unfold AARect.height; norm_num, ?_, ?_, ?_, fun z h s hs => absurd hs (hz z h s)⟩
    · rw [hbox]
      rintro p ⟨a1, a2, a3, a4⟩
      simp only at a1 a2 a3 a4
      rw [abs_le, abs_le]
      exact ⟨⟨by linarith, by linarith⟩, by linarith, by linarith⟩
    · refine ⟨by rw [hop]; unfold Bounded; decide +kernel, roomy_rect (by norm_num) (by norm_num) hop ?_ ?_ ?_ ?_⟩ <;> rw [hoc] <;> norm_num
    · rw [ha]
      intro s hs
      rw [List.mem_singleton.1 hs]
      refine ⟨by rw [hap]; unfold Bounded; decide +kernel, roomy_rect (by norm_num) (by norm_num) hap ?_ ?_ ?_ ?_, ?_⟩
      iterate 4 rw [hac]; norm_num
      rw [hx]
      intro y hy hn
      rw [List.mem_singleton.1 hy, hap, hxp] at hn
      exact absurd hn (by unfold Narrower gap; decide +kernel)
  · rw [hx]
    intro y hy
    rw [List.mem_singleton.1 hy]
    exact roomyDisc_rect (x0 := -1) (y0 := -1) (x1 := 1) (y1 := 1) (by norm_num) (by norm_num) (by norm_num) (by norm_num) hxp hxc
  · rw [hx]
    intro y hy z hz' d _ hn
    rw [List.mem_singleton.1 hy, List.mem_singleton.1 hz'] at hn
    exact absurd (hn.of_map_left (Transf.IsRigid.rotTransl turns_unit d.rotation d.tx d.ty).map) (not_narrower_self _)

end Ex

/-- Non-trivial case: three squares are read, two of them are packed into a bin with a hole with a tolerance of one thousandth, and the
result is written. -/
example : ∃ (inst : BPInstance ℚ 2) (sol : Solution ℚ 2) (p : BPProblem ℚ 2) (js : JsonSolution ℚ), PoiInside Ex.jtEnv.poi ∧ KeepsShape Ex.jtEnv.surr ∧
    Ex.jtEnv.tr.AtZero ∧ Ex.jtEnv.f.Tolerant 8 (1 / 125) ∧ Ex.jtEnv.tr.Unit ∧ Ex.jtEnv.tr.Polar ∧ Ex.jtEnv.toRadians 0 = 0 ∧
    (∀ tol, Ex.jCfg.tolerance = some tol → tol < 1) ∧ Ex.jtInst.Sound ∧ Ex.jtParsed = some (.bp inst) ∧ inst.Tolerates Ex.jtEnv.tr 8 (1 / 125) ∧
    lbfSolveBP Ex.jLenv Ex.jtEnv.toEnv Ex.lbfCfg (fun a b => 100000 + 1000 * a + b) 4 inst 0 = some (sol, p) ∧
    composeSolution Ex.jtEnv.tr (.bp inst) sol = some js ∧
    (js.layouts.map fun l => (l.container, l.placedItems.map fun p => p.index)) = [(.bin 0, [0, 0])] := by
  have h : Ex.jtRun.map (fun js => js.layouts.map fun l => (l.container, l.placedItems.map fun p => p.index)) = some [(.bin 0, [0, 0])] := by
    decide +kernel
  obtain ⟨js, hjs, he⟩ := Option.map_eq_some_iff.1 h
  unfold Ex.jtRun at hjs
  obtain ⟨i, hi, hjs⟩ := Option.bind_eq_some_iff.1 hjs
  cases i with
  | sp _ => cases hjs
  | bp inst =>
    obtain ⟨⟨sol, p⟩, hs, hjs⟩ := Option.bind_eq_some_iff.1 hjs
    exact ⟨inst, sol, p, js, Ex.jPoi_inside, fun s => ⟨_, rfl⟩, Ex.turns_zero, Ex.tol_tolerant, Ex.turns_unit, Ex.turns_polar, by decide +kernel, Ex.jCfg_tolerance,
      Ex.jtInst_sound, hi, Ex.jtParsed_tolerates hi, hs, hjs, he⟩

end Jagua
