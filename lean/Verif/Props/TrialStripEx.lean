import Verif.Props.TrialTurn
import Verif.Props.TrialStrip

/-!
# C76: concrete cases
-/

set_option linter.unusedSectionVars false

namespace Jagua

namespace Ex

noncomputable def tuEnv : StripEnv F32 := { twEnv with stripValue := fun _ => 5, tolerance := f32 (1 / 1000) }

/-- a rectangle and a triangle that may be turned by 180 degrees -/
def tuInst : SPInstance F32 := ⟨[(twFloor, 1), (twTurned, 1)], f32 150⟩

theorem tuInst_built : tuInst.Built := by
  unfold SPInstance.Built SPInstance.new
  rw [if_pos (by decide +kernel)]

/-- the samples: the first item at the left, the second where it fits only after the strip was made longer -/
def tuLenv : LEnv F32 2 ℕ := { twLenv with grid := fun l => some [if l.isEmpty then twCell (f32 120) (f32 70) else twCell (f32 330) (f32 70)] }

noncomputable def tuRun : Option (Solution F32 2 × SPProblem F32 2) :=
  lbfSolveSP tuLenv tuEnv ⟨1, 0⟩ (fun a b => 1000 * a + b) (fun a b c => 10000 * a + 100 * b + c) 1 2 id 4 tuInst 0

/-- both items are placed; the strip was replaced twice: made longer and fitted -/
theorem tu_run : ∃ sol p, tuRun = some (sol, p) ∧ sol.placed = [1, 1] ∧ p.layoutCounter = 2 := by
  have h : tuRun.map (fun s => decide (s.1.placed = [1, 1]) && decide (s.2.layoutCounter = 2)) = some true := by decide +kernel
  obtain ⟨⟨sol, p⟩, hs, he⟩ := Option.map_eq_some_iff.1 h
  simp only [Bool.and_eq_true, decide_eq_true_eq] at he
  exact ⟨sol, p, hs, he.1, he.2⟩

-- the run in single precision
example : ∃ (sol : Solution F32 2) (p : SPProblem F32 2) (sn : LayoutSnapshot F32 2) (ts : List (Trial F32 2)), tuRun = some (sol, p) ∧ sol.placed = [1, 1] ∧ p.layoutCounter = 2 ∧
    sol.snapshots = [sn] ∧ (∀ q ∈ ts, q.Sound tuEnv.toEnv) ∧
    Vetted tuEnv.tr tuInst.items ts sn.bin.outer.val (sn.placed.values.map fun pi => (pi.itemId, pi.dt)) := by
  obtain ⟨sol, p, hs, h1, h2⟩ := tu_run
  obtain ⟨sn, ts, e1, e2, e3, -⟩ := C76_strip_was_vetted tuInst_built hs
  exact ⟨sol, p, sn, ts, hs, h1, h2, e1, e2, e3⟩

/-- the two tests in the case for C75 -/
noncomputable def tuTests : List (Trial F32 2) :=
  [tvOne.2.trial tvSecond (tvSecond.sampleOf twTrig (tvD gFree)), (Layout.new 0 tvBin).trial tvFirst (tvFirst.sampleOf twTrig (tvD gItem))]

theorem tu_vetted : Vetted tvEnv.tr tvInst.items tuTests tvTwo.2.bin.outer.val [(0, ⟨0, 0, 0⟩), (1, ⟨0, 0, 0⟩)] := by
  have a1 : (tvOne.2.trial tvSecond (tvSecond.sampleOf twTrig (tvD gFree))).About tvEnv.tr tvInst.items (1, ⟨0, 0, 0⟩) :=
    ⟨(tvSecond, 1), _, rfl, .sample (tvD gFree) rfl (by decide +kernel), rfl⟩
  have a2 : ((Layout.new 0 tvBin).trial tvFirst (tvFirst.sampleOf twTrig (tvD gItem))).About tvEnv.tr tvInst.items (0, ⟨0, 0, 0⟩) :=
    ⟨(tvFirst, 1), _, rfl, .sample (tvD gItem) rfl (by decide +kernel), rfl⟩
  have e1 : tvOne.2.cde.allHazards = tvH2 := by decide +kernel
  have e2 : (Layout.new 0 tvBin).cde.allHazards = tvH1 := by decide +kernel
  have e3 : tvTwo.2.bin.outer.val = gBin := by decide +kernel
  have i1 : lbfIrrelevant tvSecond tvOne.2 = [] := rfl
  have i2 : lbfIrrelevant tvFirst (Layout.new 0 tvBin) = [] := rfl
  constructor
  · intro a ha
    simp only [List.mem_cons, List.not_mem_nil, or_false] at ha
    rcases ha with rfl | rfl
    · refine ⟨_, List.mem_cons_of_mem _ List.mem_cons_self, a2, ?_, ⟨.binExterior, ⟨1, gBin⟩, true⟩, ?_, rfl, e3.symm⟩
      · show _ ∉ lbfIrrelevant tvFirst (Layout.new 0 tvBin)
        rw [i2]; simp
      · show _ ∈ (Layout.new 0 tvBin).cde.allHazards
        rw [e2]; simp [tvH1]
    · refine ⟨_, List.mem_cons_self, a1, ?_, ⟨.binExterior, ⟨1, gBin⟩, true⟩, ?_, rfl, e3.symm⟩
      · show _ ∉ lbfIrrelevant tvSecond tvOne.2
        rw [i1]; simp
      · show _ ∈ tvOne.2.cde.allHazards
        rw [e1]; simp [tvH2]
  · refine List.pairwise_cons.2 ⟨?_, List.pairwise_singleton _ _⟩
    intro c hc
    rw [List.mem_singleton.1 hc]
    refine ⟨_, List.mem_cons_self, .inr ⟨a1, ?_, (tvFirst, 1), rfl, ⟨.placedItem 0 ⟨0, 0, 0⟩, ⟨7, twPole gItem⟩, true⟩, ?_, rfl, by decide +kernel⟩⟩
    · show _ ∉ lbfIrrelevant tvSecond tvOne.2
      rw [i1]; simp
    · show _ ∈ tvOne.2.cde.allHazards
      rw [e1]; simp [tvH2]

theorem tu_sound : ∀ q ∈ tuTests, q.Sound tvEnv := by
  have hp : (Layout.new 0 tvBin).placeItem tvEnv 7 tvFirst ⟨0, 0, 0⟩ = some (tvOne.1, tvOne.2) := (Option.some_get _).symm
  have h0 : (Layout.new 0 tvBin).Filled tvEnv tvInst [] := .empty 0 tvBin 1 (by rw [show tvBin.id = 0 by decide +kernel]; rfl)
  have h1 := Layout.Filled.place (item := (tvFirst, 1)) h0 rfl (.sample (tvD gItem) rfl (by decide +kernel)) (by unfold Trial.Free; decide +kernel) hp
  intro q hq
  simp only [tuTests, List.mem_cons, List.not_mem_nil, or_false] at hq
  rcases hq with rfl | rfl
  · exact ⟨by unfold Trial.Free; decide +kernel, fun _ => (h1.inv tvInst_built (by decide +kernel)).reach⟩
  · exact ⟨by unfold Trial.Free; decide +kernel, fun _ => (h0.inv tvInst_built (by decide +kernel)).reach⟩

theorem tu_rounds : ∀ q ∈ tuTests, (q.engine.allHazards.map (·.entity)).Nodup ∧ q.engine.Rounds q.shape q.ignored (1 / 2 ^ 24) 16 (1 / 1000) 16 (1 / 1000) := by
  have n1 : (tvH1.map (·.entity)).Nodup ∧ (tvH2.map (·.entity)).Nodup := by decide +kernel
  have e1 : tvOne.2.cde.allHazards = tvH2 := by decide +kernel
  have e2 : (Layout.new 0 tvBin).cde.allHazards = tvH1 := by decide +kernel
  have b1 : tvOne.2.cde.bbox = gBin.bbox.inflateToSquare := by decide +kernel
  have b2 : (Layout.new 0 tvBin).cde.bbox = gBin.bbox.inflateToSquare := by decide +kernel
  have s1 : tvSecond.shape.transform (tvSecond.sampleOf twTrig (tvD gFree)) = twPole gFree := by decide +kernel
  have s2 : tvFirst.shape.transform (tvFirst.sampleOf twTrig (tvD gItem)) = twPole gItem := by decide +kernel
  have i1 : lbfIrrelevant tvSecond tvOne.2 = [] := rfl
  have i2 : lbfIrrelevant tvFirst (Layout.new 0 tvBin) = [] := rfl
  intro q hq
  simp only [tuTests, List.mem_cons, List.not_mem_nil, or_false] at hq
  rcases hq with rfl | rfl
  · unfold Layout.trial
    dsimp only
    rw [e1, i1, s1]
    exact ⟨n1.2, tv_rounds e1 b1 (by simp)⟩
  · unfold Layout.trial
    dsimp only
    rw [e2, i2, s2]
    exact ⟨n1.1, tv_rounds e2 b2 (by simp)⟩

theorem tu_plain : tvTwo.2.bin.holes = [] ∧ (∀ z, some z ∉ tvTwo.2.bin.qualityZones) ∧
    tvTwo.2.placed.values.map (fun pi => (pi.itemId, pi.dt)) = [(0, ⟨0, 0, 0⟩), (1, ⟨0, 0, 0⟩)] ∧ ∀ pi ∈ tvTwo.2.placed.values, pi.dt.UpTo 1 := by
  have hz : ∀ z ∈ tvTwo.2.bin.qualityZones, z = none := by decide +kernel
  exact ⟨by decide +kernel, fun z hm => (by cases hz _ hm), by decide +kernel, by decide +kernel⟩

-- two triangles that were tested against each other and the outline
example : tvTwo.2.placed.values.length = 2 ∧ NearlyFeasible (1 / 2 ^ 24 * (7 * 16 + 1) + 6 * (1 / 2 ^ 20) * 16) ⟨tvInst.items, []⟩ tvTwo.2.bin tvTwo.2.placed.values := by
  obtain ⟨p1, p2, p3, p4⟩ := tu_plain
  refine ⟨by decide +kernel, ?_⟩
  refine C76_vetted_nearly_feasible Rounding.single_standard (by norm_num) (env := tvEnv) twTrig_accurate (by norm_num) (M' := 16) (ε' := 1 / 1000) (w := 16) (δ := 1 / 1000)
    ⟨by simp [tvEnv, fTol], by intro a b _ _ h; simpa [tvEnv, fTol] using h⟩ (M := 16) (T := 1) (by decide +kernel) (by norm_num) (ts := tuTests) p1
    p2 tu_sound (by rw [p3]; exact tu_vetted) ?_ p4 (fun q hq => (tu_rounds q hq).1) (fun q hq => (tu_rounds q hq).2)
  intro pi hpi x hx
  obtain ⟨y, hy, _, _, ht⟩ := tv_filled.items pi hpi
  rw [hx] at hy
  obtain rfl := Option.some.inj hy
  exact ht

-- the run in single precision: the error of the placements as they are meant
example : ∃ (sol : Solution F32 2) (p : SPProblem F32 2), tuRun = some (sol, p) ∧ sol.placed = [1, 1] ∧ ∃ (sn : LayoutSnapshot F32 2) (ts : List (Trial F32 2)), sol.snapshots = [sn] ∧
    (∀ q ∈ ts, q.Sound tuEnv.toEnv) ∧ Vetted tuEnv.tr tuInst.items ts sn.bin.outer.val (sn.placed.values.map fun pi => (pi.itemId, pi.dt)) ∧
    ((∀ pi ∈ sn.placed.values, pi.dt.UpTo 1200) → (∀ q ∈ ts, (q.engine.allHazards.map (·.entity)).Nodup) →
      (∀ q ∈ ts, q.engine.Rounds q.shape q.ignored (1 / 2 ^ 24) 2000 0 4000 (1 / 1000)) →
      NearlyFeasible (1 / 2 ^ 24 * (7 * 1100 + 1200) + 6 * (1 / 2 ^ 20) * 1100) tuInst.listed sn.bin sn.placed.values) := by
  obtain ⟨sol, p, hs, h1, -⟩ := tu_run
  refine ⟨sol, p, hs, h1, C76_strip_nearly_feasible Rounding.single_standard (by norm_num) (env := tuEnv) twTrig_accurate (by norm_num)
    ⟨by simp [tuEnv, twEnv, fExact], by intro a b _ _ h; simp only [tuEnv, twEnv, fExact, decide_eq_true_eq] at h; rw [h]; simp⟩ tuInst_built (M := 1100) (T := 1200) (by decide +kernel)
    (by norm_num) hs⟩

end Ex

end Jagua
