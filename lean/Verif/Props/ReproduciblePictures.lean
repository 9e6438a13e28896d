import Verif.Lemmas.TwinSvg
import Verif.Props.Reproducible
import Verif.Props.Run

/-!
# Property C63: the pictures of a run with a given seed are reproducible
-/

set_option linter.unusedSectionVars false

namespace Jagua

variable {K : Type*} [Field K] [LinearOrder K] [IsStrictOrderedRing K] {n : ℕ} {R : Type*}

/-- the grid that is drawn is determined by the layout, not by where its shapes are in memory -/
def MEnv.DrawnGridOfLayout (env : MEnv K n R) : Prop := ∀ s s' : LayoutSnapshot K n, s.Twin s' → env.hpg s = env.hpg s'

theorem mainSolve_valid {env : MEnv K n R} (hr : env.Regular) {cfg : MainConfig K} (ht : ∀ tol, cfg.tolerance = some tol → tol < 1)
    {ji : JsonInstance K} (h : ji.Sound) {mem : MainMem} {inst : Instance K n} (hi : mainInstance env cfg mem ji = some inst)
    {sol : Solution K n} (hsol : mainSolve env cfg mem inst = some sol) : ∀ sn ∈ sol.snapshots, ∃ cat, sn.Valid env.toEnv cat := by
  cases inst with
  | bp i =>
    unfold mainSolve at hsol
    dsimp only at hsol
    obtain ⟨⟨s, p⟩, hrun, rfl⟩ := Option.map_eq_some_iff.1 hsol
    have hbs : ∃ bs, ji.bins = some bs := by
      cases hb : ji.bins with
      | some bs => exact ⟨bs, rfl⟩
      | none =>
        cases hst : ji.strip with
        | some height =>
          obtain ⟨_, h0⟩ := mainInstance_strip hi hst
          cases h0
        | none =>
          unfold mainInstance parseInstance at hi
          obtain ⟨_, -, hi⟩ := Option.bind_eq_some_iff.1 hi
          rw [hb, hst] at hi
          cases hi
    obtain ⟨bs, hb⟩ := hbs
    obtain ⟨h1, h2⟩ := parse_qualities hi hb
    obtain ⟨j, e1, hri, hrb, hnew⟩ := parse_bp (n := n) (cfg := ⟨cfg.tolerance, true⟩) hr.poi hr.surr hr.zero ht h hb h1 h2 mem.bins mem.centered
    unfold mainInstance at hi
    rw [hi] at e1
    have := logParsed_some e1.symm
    simp only [Instance.bp.injEq] at this
    subst this
    obtain ⟨hin, -⟩ := lbfSolveBP_in hr.exact hr.unit hr.polar ⟨hnew, fun x hx => (hrb.fine x hx).1⟩ (fun x hx => (hrb.fine x hx).2) hri.fine hrun
    exact fun sn hsn => ⟨_, (hin.snaps sn hsn).valid⟩
  | sp i =>
    unfold mainSolve at hsol
    dsimp only at hsol
    obtain ⟨⟨s, p⟩, hrun, rfl⟩ := Option.map_eq_some_iff.1 hsol
    obtain ⟨js, l, width, height, -, -, -, hstrip, -⟩ := C54_strip_packing (penv := env.toPEnv) (env := env.toStripEnv) (cfg := ⟨cfg.tolerance, true⟩) rfl
      hr.poi hr.surr hr.zero hr.exact hr.unit hr.polar hr.rad hr.tol h hi hrun
    unfold mainInstance at hi
    have hb : ji.bins = none := by
      cases hb : ji.bins with
      | none => rfl
      | some bs =>
        obtain ⟨h1, h2⟩ := parse_qualities hi hb
        rw [hstrip] at h1
        cases h1
    obtain ⟨j, e1, hri, -, hbuilt⟩ := parse_sp (n := n) (cfg := ⟨cfg.tolerance, true⟩) hr.poi hr.surr hr.zero h.items hb hstrip mem.bins mem.centered
    rw [hi] at e1
    have := logParsed_some e1.symm
    simp only [Instance.sp.injEq] at this
    subst this
    obtain ⟨sn, hin⟩ := lbfSolveSP_in hr.exact hr.poi.rects hr.unit hr.polar hr.tol hbuilt hri.fine hrun
    intro sn' hsn'
    dsimp only at hsn'
    rw [hin.snaps, List.mem_singleton] at hsn'
    subst hsn'
    exact ⟨_, hin.snap.valid⟩

theorem mapM_zipIdx_some {α β γ : Type*} {S : α → β → Prop} {f : α × ℕ → Option γ} {g : β × ℕ → Option γ} {l : List α} {l' : List β}
    (h : List.Forall₂ S l l') (hfg : ∀ a ∈ l, ∀ b ∈ l', S a b → ∀ k c, f (a, k) = some c → g (b, k) = some c) {k : ℕ} {cs : List γ}
    (hc : (l.zipIdx k).mapM f = some cs) : (l'.zipIdx k).mapM g = some cs := by
  induction h generalizing k cs with
  | nil => exact hc
  | @cons a b l l' hab _ ih =>
    rw [List.zipIdx_cons, List.mapM_cons] at hc ⊢
    obtain ⟨c, h1, hc⟩ := Option.bind_eq_some_iff.1 hc
    obtain ⟨cs', h2, hc⟩ := Option.bind_eq_some_iff.1 hc
    exact Option.bind_eq_some_iff.2 ⟨c, hfg a List.mem_cons_self b List.mem_cons_self hab k c h1, Option.bind_eq_some_iff.2 ⟨cs',
      ih (fun a ha b hb => hfg a (List.mem_cons_of_mem _ ha) b (List.mem_cons_of_mem _ hb)) h2, hc⟩⟩

/-- pictures that are written by a run are written by one that is not stopped earlier -/
theorem mainPictures_twin {env : MEnv K n R} (hr : env.Regular) (hg : env.GridOfLayout) (hd : env.DrawnGridOfLayout) {cfg : MainConfig K}
    (ht : ∀ tol, cfg.tolerance = some tol → tol < 1) {seed : ℕ} (hs : cfg.seed = some seed) {ji : JsonInstance K} (h : ji.Sound) {mem : MainMem}
    {svgs : List (Svg K)} (hsvg : mainPictures env cfg mem ji = some svgs) (o' : SearchOracle K) (e' : R) {mem' : MainMem} (hk : mem.fuel ≤ mem'.fuel) :
    mainPictures { env with o := o', entropy := e' } cfg mem' ji = some svgs := by
  unfold mainPictures at hsvg
  obtain ⟨inst, hi, hsvg⟩ := Option.bind_eq_some_iff.1 hsvg
  obtain ⟨sol, hsol, hsvg⟩ := Option.bind_eq_some_iff.1 hsvg
  obtain ⟨inst', sol', e1, e2, e3, e4, -⟩ := mainSolve_twin hr hg ht hs h hi hsol o' e' hk
  have v := mainSolve_valid hr ht h hi hsol
  have v' := mainSolve_valid (env := { env with o := o', entropy := e' }) ⟨hr.1, hr.2, hr.3, hr.4, hr.5, hr.6, hr.7, hr.8⟩ ht h e1 e2
  unfold mainPictures
  rw [e1, Option.bind_some, e2, Option.bind_some]
  refine mapM_zipIdx_some e4.snapshots ?_ hsvg
  intro s hs s' hs' hst k svg hsv
  obtain ⟨cat, hv⟩ := v s hs
  obtain ⟨cat', hv'⟩ := v' s' hs'
  dsimp only at hsv ⊢
  rw [hd s s' hst] at hsv
  exact snapshotToSvg_twin o' (mem'.drawn k) e3 hst hv hv' hsv

/-- C63, pictures: two runs of the program on the same instance with the same configuration, in which a seed is given, both write the same pictures,
or both write none, whatever the addresses of the shapes, whichever of several equal elements a binary search finds, and whatever the entropy of the
system. This includes the pictures of the quadtree, whose nodes may list their hazards in different orders. -/
theorem C63_pictures {env : MEnv K n R} (hr : env.Regular) (hg : env.GridOfLayout) (hd : env.DrawnGridOfLayout) {cfg : MainConfig K}
    (ht : ∀ tol, cfg.tolerance = some tol → tol < 1) {seed : ℕ} (hs : cfg.seed = some seed) {ji : JsonInstance K} (h : ji.Sound) (mem mem' : MainMem)
    (hk : mem.fuel = mem'.fuel) (o' : SearchOracle K) (e' : R) :
    mainPictures env cfg mem ji = mainPictures { env with o := o', entropy := e' } cfg mem' ji := by
  cases h1 : mainPictures env cfg mem ji with
  | some svgs => exact (mainPictures_twin hr hg hd ht hs h h1 o' e' hk.le).symm
  | none =>
    cases h2 : mainPictures { env with o := o', entropy := e' } cfg mem' ji with
    | none => rfl
    | some svgs =>
      have h3 := mainPictures_twin (env := { env with o := o', entropy := e' }) ⟨hr.1, hr.2, hr.3, hr.4, hr.5, hr.6, hr.7, hr.8⟩ hg hd ht hs h h2 env.o
        env.entropy (mem' := mem) hk.ge
      have h4 : mainPictures env cfg mem ji = some svgs := h3
      rw [h1] at h4
      cases h4

-- a run that draws the quadtree as well
example : Ex.mEnv.Regular ∧ Ex.mEnv.GridOfLayout ∧ Ex.mEnv.DrawnGridOfLayout ∧ (∀ tol, Ex.mCfg.tolerance = some tol → tol < 1) ∧ Ex.mCfg.seed = some 0 ∧
    Ex.jInst.Sound ∧ Ex.mMem.fuel = Ex.mMem'.fuel ∧
    (mainPictures Ex.mEnv { Ex.mCfg with svg := { Ex.mCfg.svg with quadtree := true } } Ex.mMem Ex.jInst).map (fun svgs => svgs.map fun svg =>
      (svg.uses.map (·.href), svg.quadtree.map fun d => decide (1 < (d.2.entire ++ d.2.part ++ d.2.free).length))) =
      some [([0, 1], some true)] :=
  ⟨Ex.mEnv_regular, fun _ _ _ => rfl, fun _ _ _ => rfl, Ex.jCfg_tolerance, rfl, Ex.jInst_sound, rfl, by decide +kernel⟩

end Jagua
