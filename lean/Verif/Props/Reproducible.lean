import Verif.Spec.Main
import Verif.Lemmas.TwinParse
import Verif.Lemmas.Compose
import Verif.Lemmas.JsonExamples

/-!
# Property C63: a run with a given seed is reproducible
-/

set_option linter.unusedSectionVars false

namespace Jagua

variable {K : Type*} [Field K] [LinearOrder K] [IsStrictOrderedRing K] {n : ℕ} {R : Type*}

/-- C63, reading: whatever the addresses of the shapes and whichever of several equal elements a binary search finds, an instance is read, or
cannot be read, in the same way: the items are equal, and the bins are equal up to the addresses. -/
theorem C63_reading (penv : PEnv K) (cfg : ParserConfig K) (o' : SearchOracle K) (addr addr' addr2 addr2' : ℕ → ℕ → ℕ → ℕ) (ji : JsonInstance K) :
    (parseInstance penv cfg n addr addr' ji = none ∧ parseInstance { penv with o := o' } cfg n addr2 addr2' ji = none) ∨
    ∃ inst inst' : Instance K n, parseInstance penv cfg n addr addr' ji = some inst ∧ parseInstance { penv with o := o' } cfg n addr2 addr2' ji = some inst' ∧
      inst.Twin inst' := by
  cases h : parseInstance penv cfg n addr addr' ji with
  | some inst =>
    obtain ⟨inst', h', ht⟩ := parseInstance_twin o' addr2 addr2' h
    exact .inr ⟨inst, inst', rfl, h', ht⟩
  | none =>
    cases h' : parseInstance { penv with o := o' } cfg n addr2 addr2' ji with
    | none => exact .inl ⟨rfl, rfl⟩
    | some inst' =>
      obtain ⟨inst, h2, -⟩ := parseInstance_twin penv.o addr addr' h'
      have h3 : parseInstance penv cfg n addr addr' ji = some inst := h2
      rw [h] at h3
      cases h3

/-- a run that finds a solution is repeated by one that is not stopped earlier -/
theorem mainSolve_twin {env : MEnv K n R} (hr : env.Regular) (hg : env.GridOfLayout) {cfg : MainConfig K} (ht : ∀ tol, cfg.tolerance = some tol → tol < 1)
    {seed : ℕ} (hs : cfg.seed = some seed) {ji : JsonInstance K} (h : ji.Sound) {mem : MainMem} {inst : Instance K n} (hi : mainInstance env cfg mem ji = some inst)
    {sol : Solution K n} (hsol : mainSolve env cfg mem inst = some sol) (o' : SearchOracle K) (e' : R) {mem' : MainMem} (hk : mem.fuel ≤ mem'.fuel) :
    ∃ (inst' : Instance K n) (sol' : Solution K n), mainInstance { env with o := o', entropy := e' } cfg mem' ji = some inst' ∧
      mainSolve { env with o := o', entropy := e' } cfg mem' inst' = some sol' ∧ inst.items = inst'.items ∧ sol.Twin sol' ∧
      composeSolution env.tr inst sol = composeSolution env.tr inst' sol' := by
  obtain ⟨inst', hi', htw⟩ := parseInstance_twin o' mem'.bins mem'.centered hi
  have hi2 : mainInstance { env with o := o', entropy := e' } cfg mem' ji = some inst' := hi'
  unfold mainInstance at hi
  have hrng : mainRng env cfg = env.seedFrom seed ∧ mainRng { env with o := o', entropy := e' } cfg = env.seedFrom seed := by
    unfold mainRng
    rw [hs]
    exact ⟨rfl, rfl⟩
  suffices hsuf : ∃ sol', mainSolve { env with o := o', entropy := e' } cfg mem' inst' = some sol' ∧ inst.items = inst'.items ∧ sol.Twin sol' ∧
      composeSolution env.tr inst sol = composeSolution env.tr inst' sol' by
    obtain ⟨sol', e1, e2, e3, e4⟩ := hsuf
    exact ⟨inst', sol', hi2, e1, e2, e3, e4⟩
  cases htw with
  | @bp i i' htw =>
    unfold mainSolve at hsol
    dsimp only at hsol
    obtain ⟨⟨s, p⟩, hrun, rfl⟩ := Option.map_eq_some_iff.1 hsol
    rw [hrng.1] at hrun
    have hbs : ∃ bs, ji.bins = some bs := by
      cases hb : ji.bins with
      | some bs => exact ⟨bs, rfl⟩
      | none =>
        exfalso
        unfold parseInstance at hi
        obtain ⟨_, -, hi⟩ := Option.bind_eq_some_iff.1 hi
        rw [hb] at hi
        cases hst : ji.strip with
        | none => rw [hst] at hi; cases hi
        | some _ =>
          rw [hst] at hi
          obtain ⟨_, h1, h2⟩ := Option.bind_eq_some_iff.1 hi
          obtain ⟨_, -, rfl⟩ := Option.map_eq_some_iff.1 h1
          have := logParsed_some h2
          cases this
    obtain ⟨bs, hb⟩ := hbs
    obtain ⟨h1, h2⟩ := parse_qualities hi hb
    obtain ⟨j, e1, hri, hrb, hnew⟩ := parse_bp (n := n) (cfg := ⟨cfg.tolerance, true⟩) hr.poi hr.surr hr.zero ht h hb h1 h2 mem.bins mem.centered
    rw [hi] at e1
    have := logParsed_some e1.symm
    simp only [Instance.bp.injEq] at this
    subst this
    obtain ⟨j', e1', hri', hrb', hnew'⟩ := parse_bp (n := n) (penv := { env.toPEnv with o := o' }) (cfg := ⟨cfg.tolerance, true⟩) hr.poi hr.surr hr.zero ht h hb
      h1 h2 mem'.bins mem'.centered
    rw [hi'] at e1'
    have := logParsed_some e1'.symm
    simp only [Instance.bp.injEq] at this
    subst this
    obtain ⟨x', hx', t1, -⟩ := lbfSolveBP_twin (o' := o') mem'.items hg hr.exact hr.unit hr.polar ⟨hnew, fun x hx => (hrb.fine x hx).1⟩
      ⟨hnew', fun x hx => (hrb'.fine x hx).1⟩ (fun x hx => (hrb.fine x hx).2) (fun x hx => (hrb'.fine x hx).2) (fun x hx => ⟨(hri.fine x hx).1, (hri.fine x hx).2⟩) htw hk hrun
    refine ⟨x'.1, ?_, htw.items, t1, t1.compose (inst := .bp i) (inst' := .bp i') htw.items (.inl ⟨_, _, rfl, rfl⟩)⟩
    unfold mainSolve
    dsimp only
    rw [hrng.2]
    exact Option.map_eq_some_iff.2 ⟨x', hx', rfl⟩
  | sp i =>
    unfold mainSolve at hsol
    dsimp only at hsol
    obtain ⟨⟨s, p⟩, hrun, rfl⟩ := Option.map_eq_some_iff.1 hsol
    rw [hrng.1] at hrun
    have hst : ji.bins = none ∧ ∃ height, ji.strip = some height := by
      unfold parseInstance at hi
      obtain ⟨_, -, hi⟩ := Option.bind_eq_some_iff.1 hi
      cases hb : ji.bins with
      | some bs =>
        exfalso
        rw [hb] at hi
        cases hst : ji.strip with
        | some _ => rw [hst] at hi; cases hi
        | none =>
          rw [hst] at hi
          obtain ⟨_, h1, h2⟩ := Option.bind_eq_some_iff.1 hi
          obtain ⟨_, -, h1⟩ := Option.bind_eq_some_iff.1 h1
          obtain ⟨_, -, rfl⟩ := Option.map_eq_some_iff.1 h1
          have := logParsed_some h2
          cases this
      | none =>
        rw [hb] at hi
        cases hst : ji.strip with
        | none => rw [hst] at hi; cases hi
        | some height => exact ⟨rfl, height, rfl⟩
    obtain ⟨hb, height, hst⟩ := hst
    obtain ⟨j, e1, hri, -, hbuilt⟩ := parse_sp (n := n) (cfg := ⟨cfg.tolerance, true⟩) hr.poi hr.surr hr.zero h.items hb hst mem.bins mem.centered
    rw [hi] at e1
    have := logParsed_some e1.symm
    simp only [Instance.sp.injEq] at this
    subst this
    obtain ⟨x', hx', t1, -⟩ := lbfSolveSP_twin (o' := o') (addr' := mem'.items) (addrs' := mem'.again) (addr0' := mem'.first) (addr1' := mem'.last)
      (addrs1' := mem'.lastItems) hg hr.exact hr.poi.rects hr.unit hr.polar hr.tol hbuilt (fun x hx => ⟨(hri.fine x hx).1, (hri.fine x hx).2⟩) hk hrun
    refine ⟨x'.1, ?_, rfl, t1, t1.compose rfl (.inr ⟨_, rfl, rfl⟩)⟩
    unfold mainSolve
    dsimp only
    rw [hrng.2]
    exact Option.map_eq_some_iff.2 ⟨x', hx', rfl⟩

/-- a run that succeeds is repeated by one that is not stopped earlier -/
theorem mainSolution_twin {env : MEnv K n R} (hr : env.Regular) (hg : env.GridOfLayout) {cfg : MainConfig K} (ht : ∀ tol, cfg.tolerance = some tol → tol < 1)
    {seed : ℕ} (hs : cfg.seed = some seed) {ji : JsonInstance K} (h : ji.Sound) {mem : MainMem} {js : JsonSolution K} (hjs : mainSolution env cfg mem ji = some js)
    (o' : SearchOracle K) (e' : R) {mem' : MainMem} (hk : mem.fuel ≤ mem'.fuel) :
    mainSolution { env with o := o', entropy := e' } cfg mem' ji = some js := by
  unfold mainSolution at hjs
  obtain ⟨inst, hi, hjs⟩ := Option.bind_eq_some_iff.1 hjs
  obtain ⟨sol, hsol, hjs⟩ := Option.bind_eq_some_iff.1 hjs
  obtain ⟨inst', sol', e1, e2, -, -, e3⟩ := mainSolve_twin hr hg ht hs h hi hsol o' e' hk
  unfold mainSolution
  rw [e1, Option.bind_some, e2, Option.bind_some]
  show composeSolution env.tr inst' sol' = _
  rw [← e3, hjs]

/-- C63: two runs of the program on the same instance with the same configuration, in which a seed is given, do the same: both fail, or both write the
same solution. Neither the addresses of the shapes, nor the choice of a binary search among equal elements, nor the entropy of the
machine matter. -/
theorem C63_run {env : MEnv K n R} (hr : env.Regular) (hg : env.GridOfLayout) {cfg : MainConfig K} (ht : ∀ tol, cfg.tolerance = some tol → tol < 1)
    {seed : ℕ} (hs : cfg.seed = some seed) {ji : JsonInstance K} (h : ji.Sound) (mem mem' : MainMem) (hk : mem.fuel = mem'.fuel)
    (o' : SearchOracle K) (e' : R) :
    mainSolution env cfg mem ji = mainSolution { env with o := o', entropy := e' } cfg mem' ji := by
  cases h1 : mainSolution env cfg mem ji with
  | some js => exact (mainSolution_twin hr hg ht hs h h1 o' e' hk.le).symm
  | none =>
    cases h2 : mainSolution { env with o := o', entropy := e' } cfg mem' ji with
    | none => rfl
    | some js =>
      have h3 := mainSolution_twin (env := { env with o := o', entropy := e' }) ⟨hr.1, hr.2, hr.3, hr.4, hr.5, hr.6, hr.7, hr.8⟩ hg ht hs h h2 env.o env.entropy
        (mem' := mem) hk.ge
      rw [← h1]
      exact h3

/-- C63: runs that finish write the same solution, also if they are bounded differently. -/
theorem C63_finished {env : MEnv K n R} (hr : env.Regular) (hg : env.GridOfLayout) {cfg : MainConfig K} (ht : ∀ tol, cfg.tolerance = some tol → tol < 1)
    {seed : ℕ} (hs : cfg.seed = some seed) {ji : JsonInstance K} (h : ji.Sound) {mem mem' : MainMem} {o' : SearchOracle K} {e' : R} {js js' : JsonSolution K}
    (h1 : mainSolution env cfg mem ji = some js) (h2 : mainSolution { env with o := o', entropy := e' } cfg mem' ji = some js') : js = js' := by
  rcases Nat.le_total mem.fuel mem'.fuel with hk | hk
  · have := mainSolution_twin hr hg ht hs h h1 o' e' hk
    rw [h2] at this
    exact (Option.some.inj this).symm
  · have h3 : mainSolution env cfg mem ji = some js' :=
      mainSolution_twin (env := { env with o := o', entropy := e' }) ⟨hr.1, hr.2, hr.3, hr.4, hr.5, hr.6, hr.7, hr.8⟩ hg ht hs h h2 env.o env.entropy
        (mem' := mem) hk
    rw [h1] at h3
    exact Option.some.inj h3

/-! ## Concrete cases -/

theorem Ex.mEnv_regular : Ex.mEnv.Regular where
  exact := rfl
  poi := Ex.jPoi_inside
  surr := Ex.jEnv_keeps
  zero := Ex.turns_zero
  unit := Ex.turns_unit
  polar := Ex.turns_polar
  rad := by decide +kernel
  tol := by show (0 : ℚ) < 1 / 10; decide +kernel

-- a run with other addresses and another search, which puts hazards behind and not in front of those that are as strong
example : Ex.mEnv.Regular ∧ Ex.mEnv.GridOfLayout ∧ (∀ tol, Ex.mCfg.tolerance = some tol → tol < 1) ∧ Ex.mCfg.seed = some 0 ∧ Ex.jInst.Sound ∧
    Ex.mMem.fuel = Ex.mMem'.fuel ∧ (SearchOracle.first : SearchOracle ℚ) ≠ SearchOracle.last ∧
    (mainSolution Ex.mEnv Ex.mCfg Ex.mMem Ex.jInst).map (fun js => js.layouts.map fun l => (l.container, l.placedItems.map fun p => (p.index, p.rotation))) =
      some [(.bin 0, [(0, 2), (1, 0)])] := by
  refine ⟨Ex.mEnv_regular, fun _ _ _ => rfl, Ex.jCfg_tolerance, rfl, Ex.jInst_sound, rfl, ?_, by decide +kernel⟩
  intro h
  have := congrArg (fun o : SearchOracle ℚ => o.pos [⟨.binHole 0, .entire, true⟩] ⟨.binHole 1, .entire, true⟩) h
  revert this
  decide +kernel

-- a strip
example : Ex.jStrip.Sound ∧ (mainSolution Ex.mEnv Ex.mCfg Ex.mMem Ex.jStrip).map (fun js => js.layouts.map fun l => l.placedItems.map (·.index)) = some [[0, 1]] :=
  ⟨Ex.jStrip_sound, by decide +kernel⟩

-- without a seed the entropy matters
example : mainRng Ex.mEnv { Ex.mCfg with seed := none } ≠ mainRng { Ex.mEnv with entropy := 6 } { Ex.mCfg with seed := none } := by decide

end Jagua
