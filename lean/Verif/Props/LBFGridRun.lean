import Verif.Lemmas.LBFGridTwin
import Verif.Model.MainGrid
import Verif.Spec.HPGExamples
import Verif.Props.Reproducible
import Verif.Props.LBFGrid

/-! # C77: whole runs of the program with their grids -/

set_option linter.unusedSectionVars false

namespace Jagua

variable {K : Type*} [Field K] [LinearOrder K] [IsStrictOrderedRing K] {n : ℕ} {R : Type*}

/-- **The grid is determined by the layout.** Computed from scratch, it does not depend on where the shapes are in memory. -/
theorem C77_grid_of_layout (env : MEnv K n R) (henv : HEnv K) (nCells : ℕ) : ({ env with lenv := env.lenv.fresh henv nCells } : MEnv K n R).GridOfLayout := by
  intro l l' h
  show (l.freshGrid henv nCells).bind readCells = (l'.freshGrid henv nCells).bind readCells
  rw [h.freshGrid]

/-- a run that finishes is one with grids computed from scratch -/
theorem mainSolutionG_fresh {env : MEnv K n R} (hr : env.Regular) {henv : HEnv K} {nCells : ℕ} {cfg : MainConfig K} (ht : ∀ tol, cfg.tolerance = some tol → tol < 1)
    {ji : JsonInstance K} (h : ji.Sound) {mem : MainMem} {js : JsonSolution K} (hjs : mainSolutionG env henv nCells cfg mem ji = some js) :
    mainSolution { env with lenv := env.lenv.fresh henv nCells } cfg mem ji = some js := by
  unfold mainSolutionG at hjs
  obtain ⟨inst, hi, hjs⟩ := Option.bind_eq_some_iff.1 hjs
  obtain ⟨sol, hsol, hjs⟩ := Option.bind_eq_some_iff.1 hjs
  have hi2 : mainInstance { env with lenv := env.lenv.fresh henv nCells } cfg mem ji = some inst := hi
  unfold mainSolution
  rw [hi2, Option.bind_some]
  suffices hsuf : mainSolve { env with lenv := env.lenv.fresh henv nCells } cfg mem inst = some sol by
    rw [hsuf, Option.bind_some]
    exact hjs
  unfold mainInstance at hi
  cases inst with
  | bp i =>
    unfold mainSolveG at hsol
    dsimp only at hsol
    obtain ⟨⟨s, p⟩, hrun, rfl⟩ := Option.map_eq_some_iff.1 hsol
    have hbs : ∃ bs, ji.bins = some bs := by
      cases hb : ji.bins with
      | some bs => exact ⟨bs, rfl⟩
      | none =>
        exfalso
        unfold parseInstance at hi
        obtain ⟨_, -, hi⟩ := Option.bind_eq_some_iff.1 hi
        rw [hb] at hi
        cases hst : ji.strip with
        | none => rw [hst] at hi; cases hi
        | some _ =>
          rw [hst] at hi
          obtain ⟨_, h1, h2⟩ := Option.bind_eq_some_iff.1 hi
          obtain ⟨_, -, rfl⟩ := Option.map_eq_some_iff.1 h1
          have := logParsed_some h2
          cases this
    obtain ⟨bs, hb⟩ := hbs
    obtain ⟨h1, h2⟩ := parse_qualities hi hb
    obtain ⟨j, e1, hri, hrb, hnew⟩ := parse_bp (n := n) (cfg := ⟨cfg.tolerance, true⟩) hr.poi hr.surr hr.zero ht h hb h1 h2 mem.bins mem.centered
    rw [hi] at e1
    have := logParsed_some e1.symm
    simp only [Instance.bp.injEq] at this
    subst this
    have hbuilt : i.Built env.toEnv := ⟨hnew, fun x hx => (hrb.fine x hx).1⟩
    obtain ⟨hf, -⟩ := lbfSolveBPG_fresh (fun b hm => by
      obtain ⟨_, _, _, _, _, _, e⟩ := hbuilt.2 b hm
      exact Bin.Unused.of_new e) hrun
    unfold mainSolve
    dsimp only
    exact Option.map_eq_some_iff.2 ⟨_, hf, rfl⟩
  | sp i =>
    unfold mainSolveG at hsol
    dsimp only at hsol
    obtain ⟨⟨s, p⟩, hrun, rfl⟩ := Option.map_eq_some_iff.1 hsol
    unfold mainSolve
    dsimp only
    exact Option.map_eq_some_iff.2 ⟨_, (lbfSolveSPG_fresh hrun).1, rfl⟩

/-- **Runs with grids are reproducible.** Two runs of the program that finish, on the same instance with the same configuration and a seed, write the
same solution, although each keeps its own grids and has its shapes elsewhere in memory. -/
theorem C77_same_solution {env : MEnv K n R} (hr : env.Regular) {henv : HEnv K} {nCells : ℕ} {cfg : MainConfig K} (ht : ∀ tol, cfg.tolerance = some tol → tol < 1)
    {seed : ℕ} (hs : cfg.seed = some seed) {ji : JsonInstance K} (h : ji.Sound) {mem mem' : MainMem} {o' : SearchOracle K} {e' : R} {js js' : JsonSolution K}
    (h1 : mainSolutionG env henv nCells cfg mem ji = some js) (h2 : mainSolutionG { env with o := o', entropy := e' } henv nCells cfg mem' ji = some js') : js = js' :=
  C63_finished (env := { env with lenv := env.lenv.fresh henv nCells }) ⟨hr.1, hr.2, hr.3, hr.4, hr.5, hr.6, hr.7, hr.8⟩ (C77_grid_of_layout env henv nCells) ht hs h
    (mainSolutionG_fresh hr ht h h1) (mainSolutionG_fresh (env := { env with o := o', entropy := e' }) ⟨hr.1, hr.2, hr.3, hr.4, hr.5, hr.6, hr.7, hr.8⟩ ht h h2)

theorem Bin.Twin.newGrid {b b' : Bin K n} (h : b.Twin b') (henv : HEnv K) (nCells : ℕ) : b.newGrid henv nCells = b'.newGrid henv nCells := by
  unfold Bin.newGrid
  rw [h.cde.bbox, ← HPG.new_erase, h.cde.statics, HPG.new_erase]

theorem GridSP.placeBacks_bin {henv : HEnv K} {env : Env K} : ∀ (xs : List (ℕ × ℕ × DTransf K)) {s s' : GridSP K n}, xs.foldlM (GridSP.placeBack henv env) s = some s' →
    s'.p.layout.bin = s.p.layout.bin
  | [], s, s', h => by cases h; rfl
  | x :: xs, s, s', h => by
    rw [List.foldlM_cons] at h
    obtain ⟨s1, h1, h⟩ := Option.bind_eq_some_iff.1 h
    refine (GridSP.placeBacks_bin xs h).trans ?_
    unfold GridSP.placeBack at h1
    split at h1
    · cases h1
    split at h1
    · cases h1
    · cases h1
      rfl
    · obtain ⟨q, hq, rfl⟩ := Option.map_eq_some_iff.1 h1
      unfold GridSP.placeItem at hq
      obtain ⟨q', hq', hq⟩ := Option.bind_eq_some_iff.1 hq
      obtain ⟨_, -, hq⟩ := Option.bind_eq_some_iff.1 hq
      obtain ⟨_, -, rfl⟩ := Option.map_eq_some_iff.1 hq
      obtain ⟨item, k, l, -, h2, -, h4⟩ := SPProblem.placeItem_parts hq'
      show q'.2.layout.bin = _
      rw [h4]
      unfold Layout.placeItem at h2
      obtain ⟨c, -, e⟩ := Option.map_eq_some_iff.1 h2
      cases e
      rfl

/-- the grids of the first and of the last strip of a run that finishes can be made -/
theorem lbfSolveSPG_grids {lenv : LEnv K n R} {henv : HEnv K} {nCells : ℕ} {env : StripEnv K} {cfg : LbfConfig} {addr : ℕ → ℕ → ℕ} {addrs : ℕ → ℕ → ℕ → ℕ}
    {addr0 addr1 : ℕ} {addrs1 : ℕ → ℕ} {fuel : ℕ} {inst : SPInstance K} {r : R} {sol : Solution K n} {s : GridSP K n}
    (h : lbfSolveSPG lenv henv nCells env cfg addr addrs addr0 addr1 addrs1 fuel inst r = some (sol, s)) :
    (∃ p : SPProblem K n, SPProblem.new env n addr0 inst (fsum (inst.items.map fun (x : Item K × ℕ) => x.1.shape.area * (x.2 : K)) * 2 / inst.stripHeight) = some p ∧
      p.layout.bin.newGrid henv nCells ≠ none) ∧ s.p.layout.bin.newGrid henv nCells ≠ none := by
  unfold lbfSolveSPG at h
  split_ifs at h
  dsimp only at h
  obtain ⟨s0, h0, h⟩ := Option.bind_eq_some_iff.1 h
  obtain ⟨order, ho, h⟩ := Option.bind_eq_some_iff.1 h
  obtain ⟨t, ht, h⟩ := Option.bind_eq_some_iff.1 h
  obtain ⟨s1, h1, h⟩ := Option.bind_eq_some_iff.1 h
  obtain ⟨c, hc, h⟩ := Option.bind_eq_some_iff.1 h
  obtain ⟨c', -, h⟩ := Option.map_eq_some_iff.1 h
  cases h
  constructor
  · unfold GridSP.new at h0
    obtain ⟨p, hp, h0⟩ := Option.bind_eq_some_iff.1 h0
    obtain ⟨g, hg, -⟩ := Option.map_eq_some_iff.1 h0
    exact ⟨p, hp, by rw [hg]; exact Option.some_ne_none _⟩
  · have hbin : c.2.layout.bin = s1.p.layout.bin := by
      unfold SPProblem.createSolution at hc
      dsimp only at hc
      obtain ⟨x, hx, rfl⟩ := Option.map_eq_some_iff.1 hc
      unfold Layout.createSnapshot at hx
      obtain ⟨d, -, rfl⟩ := Option.map_eq_some_iff.1 hx
      rfl
    show c.2.layout.bin.newGrid henv nCells ≠ none
    rw [hbin]
    unfold GridSP.fitStrip GridSP.modifyCentered at h1
    dsimp only at h1
    obtain ⟨s2, h2, h1⟩ := Option.bind_eq_some_iff.1 h1
    split_ifs at h1
    cases h1
    obtain ⟨rect, -, h2⟩ := Option.bind_eq_some_iff.1 h2
    unfold GridSP.modifyStrip at h2
    dsimp only at h2
    obtain ⟨b, -, h2⟩ := Option.bind_eq_some_iff.1 h2
    obtain ⟨g, hg, h2⟩ := Option.bind_eq_some_iff.1 h2
    rw [GridSP.placeBacks_bin _ h2]
    show b.newGrid henv nCells ≠ none
    rw [hg]
    exact Option.some_ne_none _

/-- a run that succeeds is repeated by one that is not stopped earlier -/
theorem mainSolutionG_twin {env : MEnv K n R} (hr : env.Regular) {henv : HEnv K} (hsq : ∀ x, 0 ≤ x → 0 ≤ henv.sqrt x) {nCells : ℕ} {cfg : MainConfig K}
    (ht : ∀ tol, cfg.tolerance = some tol → tol < 1)
    {seed : ℕ} (hs : cfg.seed = some seed) {ji : JsonInstance K} (h : ji.Sound) {mem : MainMem}
    (hready : ∀ inst, mainInstance env cfg mem ji = some inst → ∀ x ∈ inst.items, x.1.GridReady) {js : JsonSolution K}
    (hjs : mainSolutionG env henv nCells cfg mem ji = some js)
    (o' : SearchOracle K) (e' : R) {mem' : MainMem} (hk : mem.fuel ≤ mem'.fuel) :
    mainSolutionG { env with o := o', entropy := e' } henv nCells cfg mem' ji = some js := by
  unfold mainSolutionG at hjs
  obtain ⟨inst, hi, hjs⟩ := Option.bind_eq_some_iff.1 hjs
  obtain ⟨sol, hsol, hjs⟩ := Option.bind_eq_some_iff.1 hjs
  replace hready := hready inst hi
  obtain ⟨inst', hi', htw⟩ := parseInstance_twin o' mem'.bins mem'.centered hi
  have hi2 : mainInstance { env with o := o', entropy := e' } cfg mem' ji = some inst' := hi'
  unfold mainInstance at hi
  have hg : ∀ l l' : Layout K n, l.Twin l' → (env.lenv.fresh henv nCells).grid l = (env.lenv.fresh henv nCells).grid l' := C77_grid_of_layout env henv nCells
  have hrng : mainRng env cfg = env.seedFrom seed ∧ mainRng { env with o := o', entropy := e' } cfg = env.seedFrom seed := by
    unfold mainRng
    rw [hs]
    exact ⟨rfl, rfl⟩
  suffices hsuf : ∃ sol', mainSolveG { env with o := o', entropy := e' } henv nCells cfg mem' inst' = some sol' ∧
      composeSolution env.tr inst sol = composeSolution env.tr inst' sol' by
    obtain ⟨sol', e1, e2⟩ := hsuf
    unfold mainSolutionG
    rw [hi2, Option.bind_some, e1, Option.bind_some]
    show composeSolution env.tr inst' sol' = _
    rw [← e2, hjs]
  cases htw with
  | @bp i i' htw =>
    unfold mainSolveG at hsol
    dsimp only at hsol
    obtain ⟨⟨s, p⟩, hrun, rfl⟩ := Option.map_eq_some_iff.1 hsol
    rw [hrng.1] at hrun
    have hbs : ∃ bs, ji.bins = some bs := by
      cases hb : ji.bins with
      | some bs => exact ⟨bs, rfl⟩
      | none =>
        exfalso
        unfold parseInstance at hi
        obtain ⟨_, -, hi⟩ := Option.bind_eq_some_iff.1 hi
        rw [hb] at hi
        cases hst : ji.strip with
        | none => rw [hst] at hi; cases hi
        | some _ =>
          rw [hst] at hi
          obtain ⟨_, h1, h2⟩ := Option.bind_eq_some_iff.1 hi
          obtain ⟨_, -, rfl⟩ := Option.map_eq_some_iff.1 h1
          have := logParsed_some h2
          cases this
    obtain ⟨bs, hb⟩ := hbs
    obtain ⟨h1, h2⟩ := parse_qualities hi hb
    obtain ⟨j, e1, hri, hrb, hnew⟩ := parse_bp (n := n) (cfg := ⟨cfg.tolerance, true⟩) hr.poi hr.surr hr.zero ht h hb h1 h2 mem.bins mem.centered
    rw [hi] at e1
    have := logParsed_some e1.symm
    simp only [Instance.bp.injEq] at this
    subst this
    obtain ⟨j', e1', hri', hrb', hnew'⟩ := parse_bp (n := n) (penv := { env.toPEnv with o := o' }) (cfg := ⟨cfg.tolerance, true⟩) hr.poi hr.surr hr.zero ht h hb
      h1 h2 mem'.bins mem'.centered
    rw [hi'] at e1'
    have := logParsed_some e1'.symm
    simp only [Instance.bp.injEq] at this
    subst this
    have hbuilt : i.Built env.toEnv := ⟨hnew, fun x hx => (hrb.fine x hx).1⟩
    have hbuilt' : i'.Built { env.toEnv with o := o' } := ⟨hnew', fun x hx => (hrb'.fine x hx).1⟩
    obtain ⟨hf, -⟩ := C77_grids_up_to_date hbuilt hrun
    obtain ⟨x', hx', t1, -⟩ := lbfSolveBP_twin (o' := o') mem'.items hg hr.exact hr.unit hr.polar hbuilt hbuilt'
      (fun x hx => (hrb.fine x hx).2) (fun x hx => (hrb'.fine x hx).2) (fun x hx => ⟨(hri.fine x hx).1, (hri.fine x hx).2⟩) htw hk hf
    have hgrids : ∀ b ∈ i'.bins, b.1.newGrid henv nCells ≠ none := by
      intro b' hb'
      obtain ⟨b, hb, hbb, -⟩ := Forall₂.exists_left htw.bins hb'
      unfold lbfSolveBPG at hrun
      split_ifs at hrun
      obtain ⟨s0, h0, -⟩ := Option.bind_eq_some_iff.1 hrun
      unfold GridBP.new at h0
      obtain ⟨ts, h0, -⟩ := Option.map_eq_some_iff.1 h0
      obtain ⟨g, -, hg'⟩ := Forall₂.exists_left (mapM_forall₂_of h0).flip hb
      rw [← hbb.newGrid, hg']
      exact Option.some_ne_none _
    have hG := C77_updates_never_fail (lenv := env.lenv) hsq (cfg := cfg.lbf) (addr := mem'.items) (fuel := mem'.fuel) (r := env.seedFrom seed) hbuilt'
      (fun x hx => hready x (show x ∈ i.items by rw [htw.items]; exact hx)) hgrids
    rw [hx'] at hG
    obtain ⟨y, hy, e⟩ := Option.map_eq_some_iff.1 hG
    refine ⟨x'.1, ?_, t1.compose (inst := .bp i) (inst' := .bp i') htw.items (.inl ⟨_, _, rfl, rfl⟩)⟩
    unfold mainSolveG
    dsimp only
    rw [hrng.2]
    exact Option.map_eq_some_iff.2 ⟨y, hy, by rw [← e]⟩
  | sp i =>
    unfold mainSolveG at hsol
    dsimp only at hsol
    obtain ⟨⟨s, p⟩, hrun, rfl⟩ := Option.map_eq_some_iff.1 hsol
    rw [hrng.1] at hrun
    have hst : ji.bins = none ∧ ∃ height, ji.strip = some height := by
      unfold parseInstance at hi
      obtain ⟨_, -, hi⟩ := Option.bind_eq_some_iff.1 hi
      cases hb : ji.bins with
      | some bs =>
        exfalso
        rw [hb] at hi
        cases hst : ji.strip with
        | some _ => rw [hst] at hi; cases hi
        | none =>
          rw [hst] at hi
          obtain ⟨_, h1, h2⟩ := Option.bind_eq_some_iff.1 hi
          obtain ⟨_, -, h1⟩ := Option.bind_eq_some_iff.1 h1
          obtain ⟨_, -, rfl⟩ := Option.map_eq_some_iff.1 h1
          have := logParsed_some h2
          cases this
      | none =>
        rw [hb] at hi
        cases hst : ji.strip with
        | none => rw [hst] at hi; cases hi
        | some height => exact ⟨rfl, height, rfl⟩
    obtain ⟨hb, height, hst⟩ := hst
    obtain ⟨j, e1, hri, -, hbuilt⟩ := parse_sp (n := n) (cfg := ⟨cfg.tolerance, true⟩) hr.poi hr.surr hr.zero h.items hb hst mem.bins mem.centered
    rw [hi] at e1
    have := logParsed_some e1.symm
    simp only [Instance.sp.injEq] at this
    subst this
    obtain ⟨⟨p0, hp0, hfirst⟩, hlast⟩ := lbfSolveSPG_grids hrun
    obtain ⟨x', hx', t1, t2⟩ := lbfSolveSP_twin (o' := o') (addr' := mem'.items) (addrs' := mem'.again) (addr0' := mem'.first) (addr1' := mem'.last)
      (addrs1' := mem'.lastItems) hg hr.exact hr.poi.rects hr.unit hr.polar hr.tol hbuilt (fun x hx => ⟨(hri.fine x hx).1, (hri.fine x hx).2⟩) hk (C77_grids_up_to_date_strip hrun).1
    obtain ⟨y, hy, -⟩ := C77_updates_never_fail_strip (lenv := env.lenv) hsq hbuilt hready (fun p' hp' => by
      obtain ⟨p'', hp'', htw0⟩ := SPProblem.twin_new o' mem'.first hp0
      rw [hp'] at hp''
      cases hp''
      rw [← htw0.layout.bin.newGrid]
      exact hfirst) (sol := x'.1) (p := x'.2) hx' (by
      rw [← t2.layout.bin.newGrid]
      exact hlast)
    refine ⟨x'.1, ?_, t1.compose rfl (.inr ⟨_, rfl, rfl⟩)⟩
    unfold mainSolveG
    dsimp only
    rw [hrng.2]
    exact Option.map_eq_some_iff.2 ⟨_, hy, rfl⟩

/-- **Runs with grids have the same outcome.** If the items that are read have poles, two runs of the program on the same instance with the same configuration and a
seed do the same: both fail, or both write the same solution. -/
theorem C77_same_outcome {env : MEnv K n R} (hr : env.Regular) {henv : HEnv K} (hsq : ∀ x, 0 ≤ x → 0 ≤ henv.sqrt x) {nCells : ℕ} {cfg : MainConfig K}
    (ht : ∀ tol, cfg.tolerance = some tol → tol < 1)
    {seed : ℕ} (hs : cfg.seed = some seed) {ji : JsonInstance K} (h : ji.Sound) (mem mem' : MainMem) (hk : mem.fuel = mem'.fuel)
    (hready : ∀ inst, mainInstance env cfg mem ji = some inst → ∀ x ∈ inst.items, x.1.GridReady) (o' : SearchOracle K) (e' : R) :
    mainSolutionG env henv nCells cfg mem ji = mainSolutionG { env with o := o', entropy := e' } henv nCells cfg mem' ji := by
  cases h1 : mainSolutionG env henv nCells cfg mem ji with
  | some js => exact (mainSolutionG_twin hr hsq ht hs h hready h1 o' e' hk.le).symm
  | none =>
    cases h2 : mainSolutionG { env with o := o', entropy := e' } henv nCells cfg mem' ji with
    | none => rfl
    | some js =>
      have h3 := mainSolutionG_twin (env := { env with o := o', entropy := e' }) ⟨hr.1, hr.2, hr.3, hr.4, hr.5, hr.6, hr.7, hr.8⟩ hsq ht hs h (fun inst' hi' => by
        obtain ⟨inst, hi, htw⟩ := parseInstance_twin env.o mem.bins mem.centered hi'
        have := hready inst hi
        cases htw with
        | bp htw => exact fun x hx => this x ((congrArg (x ∈ ·) htw.items).mp hx)
        | sp => exact this) h2 env.o env.entropy (mem' := mem) hk.ge
      rw [← h1]
      exact h3

theorem Ex.jInst_ready {inst : Instance ℚ 2} (h : mainInstance (R := ℕ) Ex.mEnv Ex.mCfg Ex.mMem Ex.jInst = some inst) : ∀ x ∈ inst.items, x.1.GridReady := by
  have h1 : (mainInstance (n := 2) (R := ℕ) Ex.mEnv Ex.mCfg Ex.mMem Ex.jInst).all (fun inst => inst.items.all fun x =>
      (match x.1.shape.surrogate with
        | none => false
        | some s => decide (s.poles ≠ []) && s.poles.all fun c => decide (0 ≤ c.radius)) && decide (x.1.shape.points ≠ [])) = true := by
    decide +kernel
  rw [h] at h1
  intro x hx
  have h2 := List.all_eq_true.1 h1 x hx
  rw [Bool.and_eq_true] at h2
  obtain ⟨h2, h3⟩ := h2
  split at h2
  · cases h2
  rename_i s hs
  rw [Bool.and_eq_true] at h2
  exact ⟨⟨s, hs, of_decide_eq_true h2.1, fun c hc => of_decide_eq_true (List.all_eq_true.1 h2.2 c hc)⟩, of_decide_eq_true h3⟩

-- two runs with a grid of 4 cells that place two items
example : Ex.mEnv.Regular ∧ (∀ x, 0 ≤ x → 0 ≤ Ex.henv.sqrt x) ∧ (∀ tol, Ex.mCfg.tolerance = some tol → tol < 1) ∧ Ex.mCfg.seed = some 0 ∧ Ex.jInst.Sound ∧
    Ex.mMem.fuel = Ex.mMem'.fuel ∧ (∀ inst, mainInstance Ex.mEnv Ex.mCfg Ex.mMem Ex.jInst = some inst → ∀ x ∈ inst.items, x.1.GridReady) ∧
    (mainSolutionG Ex.mEnv Ex.henv 4 Ex.mCfg Ex.mMem Ex.jInst).map (fun js => js.layouts.map fun l => l.placedItems.length) = some [2] ∧
    (mainSolutionG { Ex.mEnv with o := SearchOracle.last } Ex.henv 4 Ex.mCfg Ex.mMem' Ex.jInst).isSome = true :=
  ⟨Ex.mEnv_regular, fun x hx => (Ex.henv_sqrt x hx).1, Ex.jCfg_tolerance, rfl, Ex.jInst_sound, rfl, fun _ => Ex.jInst_ready, by decide +kernel, by decide +kernel⟩

end Jagua
