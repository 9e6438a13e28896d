import Verif.Props.Trial
import Verif.Props.RoundedEngine
import Verif.Props.RoundedPlacement
import Verif.Props.LBF
import Mathlib.Analysis.Real.Pi.Bounds
import Mathlib.Analysis.SpecialFunctions.Trigonometric.Bounds

/-!
# C75: a layout in single precision in which an item is not placed where it was tested
-/

set_option linter.unusedSectionVars false

namespace Jagua

namespace Ex

/-- the number next to π, what an item is turned by that may be turned by 180 degrees -/
def twAngle : F32 := f32 (13176795 / 4194304)

/-- its sine -/
def twSin : F32 := f32 (-6151831 / 70368744177664)

/-- the angle recovered from sine and cosine -/
def twBack : F32 := f32 (-6588397 / 2097152)

/-- its sine -/
def twBackSin : F32 := f32 (-10625385 / 70368744177664)

theorem tw_vals : twAngle.1 = 13176795 / 4194304 ∧ twSin.1 = -6151831 / 70368744177664 ∧ twBack.1 = -6588397 / 2097152 ∧ twBackSin.1 = -10625385 / 70368744177664 ∧
    (-1 : F32).1 = -1 ∧ (1 : F32).1 = 1 ∧ (0 : F32).1 = 0 := by decide +kernel

/-- sine and cosine near π -/
theorem near_pi {a d : ℝ} (h : a = Real.pi + d) (h0 : |d| ≤ 1 / 2 ^ 22) : |Real.sin a + d| ≤ 1 / 2 ^ 60 ∧ |Real.cos a + 1| ≤ 1 / 2 ^ 44 := by
  subst h
  rw [add_comm Real.pi d, Real.sin_add_pi, Real.cos_add_pi]
  have h1 : |d| ≤ 1 := h0.trans (by norm_num)
  have k1 := Real.sin_bound h1
  have k2 := Real.cos_bound h1
  have d4 : |d| ^ 4 ≤ (1 / 2 ^ 22) ^ 4 := pow_le_pow_left₀ (abs_nonneg _) h0 4
  have d5 : |d| ^ 5 ≤ (1 / 2 ^ 22) ^ 5 := pow_le_pow_left₀ (abs_nonneg _) h0 5
  have d3 : |d ^ 3| ≤ (1 / 2 ^ 22) ^ 3 := by rw [abs_pow]; exact pow_le_pow_left₀ (abs_nonneg _) h0 3
  have d2 : |d ^ 2| ≤ (1 / 2 ^ 22) ^ 2 := by rw [abs_pow]; exact pow_le_pow_left₀ (abs_nonneg _) h0 2
  simp only [abs_le] at *
  norm_num at *
  constructor <;> constructor <;> linarith [k1.1, k1.2, k2.1, k2.2, d3.1, d3.2, d2.1, d2.2]

theorem twAngle_near : |(twSin.1 : ℝ) - Real.sin (twAngle.1 : ℝ)| ≤ 1 / 2 ^ 47 ∧ |((-1 : F32).1 : ℝ) - Real.cos (twAngle.1 : ℝ)| ≤ 1 / 2 ^ 44 := by
  obtain ⟨e1, e2, -, -, e3, -⟩ := tw_vals
  have l := Real.pi_gt_d20
  have g := Real.pi_lt_d20
  obtain ⟨k1, k2⟩ := near_pi (a := (twAngle.1 : ℝ)) (d := (twAngle.1 : ℝ) - Real.pi) (by ring) (by rw [e1]; push_cast; rw [abs_le]; norm_num at *; constructor <;> linarith)
  rw [e1] at k1 k2 ⊢
  rw [e2, e3]
  push_cast at *
  simp only [abs_le] at *
  norm_num at *
  constructor <;> constructor <;> linarith [k1.1, k1.2, k2.1, k2.2]

theorem twBack_near : |(twBackSin.1 : ℝ) - Real.sin (twBack.1 : ℝ)| ≤ 1 / 2 ^ 47 ∧ |((-1 : F32).1 : ℝ) - Real.cos (twBack.1 : ℝ)| ≤ 1 / 2 ^ 44 := by
  obtain ⟨-, -, e1, e2, e3, -⟩ := tw_vals
  have l := Real.pi_gt_d20
  have g := Real.pi_lt_d20
  obtain ⟨k1, k2⟩ := near_pi (a := -(twBack.1 : ℝ)) (d := -(twBack.1 : ℝ) - Real.pi) (by ring) (by rw [e1]; push_cast; rw [abs_le]; norm_num at *; constructor <;> linarith)
  rw [Real.sin_neg] at k1
  rw [Real.cos_neg] at k2
  rw [e1] at k1 k2 ⊢
  rw [e2, e3]
  push_cast at *
  simp only [abs_le] at *
  norm_num at *
  constructor <;> constructor <;> linarith [k1.1, k1.2, k2.1, k2.2]

theorem twArg_near : |(twBack.1 : ℝ) - Complex.arg ⟨((-1 : F32).1 : ℝ), (twSin.1 : ℝ)⟩| ≤ 1 / 2 ^ 23 := by
  obtain ⟨-, e2, e1, -, e3, -⟩ := tw_vals
  have l := Real.pi_gt_d20
  have g := Real.pi_lt_d20
  rw [e1, e2, e3]
  push_cast
  set z : ℂ := ⟨-1, -6151831 / 70368744177664⟩ with hz
  have n1 : ‖z‖ ^ 2 = 1 + (6151831 / 70368744177664 : ℝ) ^ 2 := by
    rw [← Complex.normSq_eq_norm_sq, Complex.normSq_apply, hz]; norm_num
  have n0 : 0 ≤ ‖z‖ := norm_nonneg z
  have n2 : 1 ≤ ‖z‖ := by nlinarith [sq_nonneg (6151831 / 70368744177664 : ℝ)]
  have n3 : ‖z‖ ≤ 1001 / 1000 := by
    by_contra h
    push Not at h
    nlinarith
  rw [Complex.arg_of_re_neg_of_im_neg (x := z) (by rw [hz]; norm_num) (by rw [hz]; norm_num)]
  have him : (-z).im = 6151831 / 70368744177664 := by rw [hz]; simp [neg_div]
  rw [him]
  set y : ℝ := 6151831 / 70368744177664 / ‖z‖ with hy
  have y1 : y ≤ 6151831 / 70368744177664 := div_le_self (by norm_num) n2
  have y2 : 6151831 / 70368744177664 / (1001 / 1000) ≤ y := div_le_div_of_nonneg_left (by norm_num) (by linarith) n3
  have y0 : 0 ≤ y := le_trans (by norm_num) y2
  have hs : Real.sin (Real.arcsin y) = y := Real.sin_arcsin (by linarith) (y1.trans (by norm_num))
  have t0 : 0 ≤ Real.arcsin y := Real.arcsin_nonneg.2 y0
  have t1 := Real.arcsin_le_pi_div_two y
  have k1 := Real.sin_le t0
  have k2 := Real.mul_le_sin t0 t1
  rw [hs] at k1 k2
  have k3 : Real.arcsin y ≤ 2 * y := by
    have hp : (1 : ℝ) / 2 ≤ 2 / Real.pi := by rw [div_le_div_iff₀ (by norm_num) Real.pi_pos]; linarith
    nlinarith
  norm_num at *
  rw [abs_le]
  constructor <;> linarith

/-- sine, cosine and `atan2` in single precision; where they are needed in the examples, the values are written out -/
noncomputable def twTrig : Trig F32 where
  sin a := if a = 0 then 0 else if a = twAngle then twSin else if a = twBack then twBackSin else accurate_single.choose.sin a
  cos a := if a = 0 then 1 else if a = twAngle then -1 else if a = twBack then -1 else accurate_single.choose.cos a
  atan2 y x := if y = 0 ∧ x = 1 then 0 else if y = twSin ∧ x = -1 then twBack else accurate_single.choose.atan2 y x

theorem twTrig_accurate : twTrig.Accurate (1 / 2 ^ 20) := by
  have h := accurate_single.choose_spec
  have st := Rounding.single_standard
  obtain ⟨e1, e2, e3, e4, e5, e6, e7⟩ := tw_vals
  have k1 := twAngle_near
  have k2 := twBack_near
  have k3 := twArg_near
  have q1 : (1 : ℝ) / 2 ^ 47 ≤ 1 / 2 ^ 20 := by norm_num
  have q2 : (1 : ℝ) / 2 ^ 44 ≤ 1 / 2 ^ 20 := by norm_num
  have q3 : (1 : ℝ) / 2 ^ 23 ≤ 1 / 2 ^ 20 := by norm_num
  refine ⟨fun a => ?_, fun a => ?_, fun a => ?_, fun a => ?_, fun y x => ?_, by simp [twTrig], by simp [twTrig]⟩
  · unfold twTrig; dsimp only
    split_ifs
    · rw [e7]; norm_num
    · rw [e2, abs_le]; norm_num
    · rw [e4, abs_le]; norm_num
    · exact h.sin_le a
  · unfold twTrig; dsimp only
    split_ifs
    · rw [e6]; norm_num
    · rw [e5]; norm_num
    · rw [e5]; norm_num
    · exact h.cos_le a
  · unfold twTrig; dsimp only
    split_ifs with i1 i2 i3
    · rw [i1, e7]; norm_num
    · rw [i2]; exact k1.1.trans q1
    · rw [i3]; exact k2.1.trans q1
    · exact h.sin_near a
  · unfold twTrig; dsimp only
    split_ifs with i1 i2 i3
    · rw [i1, e6, e7]; norm_num
    · rw [i2]; exact k1.2.trans q2
    · rw [i3]; exact k2.2.trans q2
    · exact h.cos_near a
  · unfold twTrig; dsimp only
    split_ifs with i1 i2
    · obtain ⟨rfl, rfl⟩ := i1
      rw [e6, e7]
      have : (⟨((1 : ℚ) : ℝ), ((0 : ℚ) : ℝ)⟩ : ℂ) = 1 := by apply Complex.ext <;> simp
      rw [this, Complex.arg_one]
      norm_num
    · obtain ⟨rfl, rfl⟩ := i2
      exact k3.trans q3
    · exact h.atan2_near y x

noncomputable def twEnv : Env F32 := ⟨fExact, SearchOracle.first, twTrig, fun _ => ⟨⟨0, 0⟩, 1⟩, true⟩

/-- a large square bin -/
def twBinShape : SPoly F32 := (fPoly [(-2000, -2000), (2000, -2000), (2000, 2000), (-2000, 2000)] (0, 0) 2000).get (by decide +kernel)

noncomputable def twBin : Bin F32 2 := (Bin.new twEnv 2 0 ⟨1, twBinShape⟩ 5 .empty [] []).get (by decide +kernel)

/-- a polygon whose pole is its surrogate -/
def twPole (s : SPoly F32) : SPoly F32 := { s with surrogate := some ⟨[0, 1, 2], [s.poi], s.poi, [], 1, s.area⟩ }

/-- a rectangle -/
def twFloor : Item F32 := ⟨0, twPole ((fPoly [(-1100, -100), (-900, -100), (-900, -3 / 25000), (-1100, -3 / 25000)] (-1000, -50) 49).get (by decide +kernel)), .none, none, 1, .empty, none⟩

/-- a triangle that may be turned by 180 degrees -/
def twTurned : Item F32 := ⟨1, twPole ((fPoly [(900, -100), (1100, -100), (1000, 0)] (1000, -60) 30).get (by decide +kernel)), .discrete [0, twAngle], none, 1, .empty, none⟩

noncomputable def twInst : BPInstance F32 2 := ⟨[(twFloor, 1), (twTurned, 1)], [(twBin, 1)]⟩

theorem twInst_built : twInst.Built twEnv := by
  refine ⟨?_, ?_⟩
  · show BPInstance.new _ _ = _
    unfold BPInstance.new
    rw [if_pos (by decide +kernel)]
  · intro b hb
    rw [show b = (twBin, 1) from List.mem_singleton.1 hb]
    exact ⟨_, _, _, _, _, _, (Option.some_get _).symm⟩

/-- the layout with the rectangle -/
noncomputable def twLayout : SlotKey × Layout F32 2 := ((Layout.new 0 twBin).placeItem twEnv 7 twFloor ⟨0, 0, 0⟩).get (by decide +kernel)

/-- the sample: the triangle upside down, above the rectangle -/
def twSample : DTransf F32 := ⟨twAngle, f32 (-1000), f32 (31457234 / 524288)⟩

noncomputable def twDt : DTransf F32 := (twTurned.sampleOf twTrig twSample).decompose twTrig

noncomputable def twAfter : SlotKey × Layout F32 2 := (twLayout.2.placeItem twEnv 8 twTurned twDt).get (by decide +kernel)

/-- a cell of the grid with this lower corner -/
def twCell (x y : F32) : HPGCell F32 := ⟨⟨x, y, x + 1, y + 1⟩, ⟨x, y⟩, f32 2000, (f32 2000, .binExterior), (f32 2000, .binExterior), []⟩

/-- the generator chooses the last angle and the lower corner of the cell -/
def twLenv : LEnv F32 2 ℕ where
  choose k r := (k - 1, r + 1)
  uniform lo _ r := (lo, r + 1)
  normal mean _ r := (mean, r + 1)
  pi := twAngle
  powf _ _ := f32 (1 / 2)
  grid l := some [if l.isEmpty then twCell (f32 (-1000)) (f32 (-50)) else twCell twSample.tx twSample.ty]

noncomputable def twRun : Option (Solution F32 2 × BPProblem F32 2) := lbfSolveBP twLenv twEnv ⟨1, 0⟩ (fun a b => 1000 * a + b) 4 twInst 0

theorem tw_run : ∃ sol p, twRun = some (sol, p) ∧ sol.placed = [1, 1] ∧ ∃ sn ∈ sol.snapshots, ∃ a ∈ sn.placed.values, ∃ c ∈ sn.placed.values,
    a.itemId = 0 ∧ c.itemId = 1 ∧ c.dt = ⟨twBack, 0, 0⟩ ∧ a.shape.val.points = twFloor.shape.points ∧
    c.shape.val.points = (twTurned.shape.transform (Transf.fromDt twTrig ⟨twBack, 0, 0⟩)).points := by
  have h : twRun.map (fun s => decide (s.1.placed = [1, 1]) && s.1.snapshots.any fun sn => sn.placed.values.any fun a => sn.placed.values.any fun c =>
      decide (a.itemId = 0) && decide (c.itemId = 1) && decide (c.dt = ⟨twBack, 0, 0⟩) && decide (a.shape.val.points = twFloor.shape.points) &&
      decide (c.shape.val.points = (twTurned.shape.transform (Transf.fromDt twTrig ⟨twBack, 0, 0⟩)).points)) = some true := by decide +kernel
  obtain ⟨⟨sol, p⟩, hs, he⟩ := Option.map_eq_some_iff.1 h
  simp only [Bool.and_eq_true, decide_eq_true_eq, List.any_eq_true] at he
  obtain ⟨h1, sn, hsn, a, ha, c, hc, h2⟩ := he
  exact ⟨sol, p, hs, h1, sn, hsn, a, ha, c, hc, h2.1.1.1.1, h2.1.1.1.2, h2.1.1.2, h2.1.2, h2.2⟩

theorem tw_overlap : ∃ x, x ∈ interior twFloor.shape.exact ∧ x ∈ interior (twTurned.shape.transform (Transf.fromDt twTrig ⟨twBack, 0, 0⟩)).exact := by
  have f : ∀ s ∈ [twFloor.shape.exact, (twTurned.shape.transform (Transf.fromDt twTrig ⟨twBack, 0, 0⟩)).exact],
      (∀ t ∈ sides s, (1 / 1000000000 : ℚ) * (|t.2.x - t.1.x| + |t.2.y - t.1.y|) < |(⟨t.1, t.2⟩ : Edge ℚ).side ⟨-1000, -27 / 200000⟩|) ∧ s ≠ [] ∧
      ((boundingBox s).xMin < (boundingBox s).xMax ∧ (boundingBox s).yMin < (boundingBox s).yMax) ∧
      (⟨s, boundingBox s, 0, ⟨⟨0, 0⟩, 0⟩, none⟩ : SPoly ℚ).collidesPoint Fpa.exact ⟨-1000, -27 / 200000⟩ = true := by decide +kernel
  have g : ∀ s ∈ [twFloor.shape.exact, (twTurned.shape.transform (Transf.fromDt twTrig ⟨twBack, 0, 0⟩)).exact], (⟨-1000, -27 / 200000⟩ : Point ℚ) ∈ interior s := by
    intro s hs
    obtain ⟨h1, h2, h3, h4⟩ := f s hs
    refine odd_of_test (fun hb => ?_) h2 h3 h4
    have := far_of_sides h1 _ hb
    norm_num at this
  exact ⟨_, g _ (by simp), g _ (by simp)⟩

end Ex

/-- C75: a shape is not always placed where it was tested. In single precision, with sine, cosine and
`atan2` that are as accurate as single precision allows, there is a layout in which a rectangle is placed. The
engine is asked about a triangle turned by 180 degrees and finds no collision; the triangle is placed with
the rotation recovered from that transformation, and there it collides: the engine itself finds a collision, and the rectangle and the triangle have
interior points in common. -/
theorem C75_placed_elsewhere : ∃ (env : Env Ex.F32) (inst : BPInstance Ex.F32 2) (l l' : Layout Ex.F32 2) (ts : List (Trial Ex.F32 2)) (item : Item Ex.F32 × ℕ)
    (d dt : DTransf Ex.F32) (addr : ℕ) (key : SlotKey),
    env.tr.Accurate (1 / 2 ^ 20) ∧ inst.Built env ∧ l.Filled env inst ts ∧ inst.items[item.1.id]? = some item ∧ item.1.AllowsAngle d.rotation ∧
    dt = (item.1.sampleOf env.tr d).decompose env.tr ∧ (l.trial item.1 (item.1.sampleOf env.tr d)).Free env.f ∧
    l.placeItem env addr item.1 dt = some (key, l') ∧
    l.cde.polyCollides env.f (item.1.shape.transform (Transf.fromDt env.tr dt)) (lbfIrrelevant item.1 l) = some true ∧
    (∃ a ∈ l.placed.values, ∃ c ∈ l'.placed.values, c.itemId = item.1.id ∧ a.itemId ≠ item.1.id ∧ ∃ x, x ∈ interior a.shape.val.exact ∧ x ∈ interior c.shape.val.exact) ∧
    (∀ a ∈ [d.rotation, dt.rotation], |((env.tr.sin a).1 : ℝ) - Real.sin (a.1 : ℝ)| ≤ 1 / 2 ^ 47 ∧ |((env.tr.cos a).1 : ℝ) - Real.cos (a.1 : ℝ)| ≤ 1 / 2 ^ 44) ∧
    |(dt.rotation.1 : ℝ) - Complex.arg ⟨((item.1.sampleOf env.tr d).m00.1 : ℝ), ((item.1.sampleOf env.tr d).m10.1 : ℝ)⟩| ≤ 1 / 2 ^ 23 := by
  have hdt : Ex.twDt = ⟨Ex.twBack, 0, 0⟩ := by decide +kernel
  have hp : (Layout.new 0 Ex.twBin).placeItem Ex.twEnv 7 Ex.twFloor ⟨0, 0, 0⟩ = some (Ex.twLayout.1, Ex.twLayout.2) := (Option.some_get _).symm
  have hp' : Ex.twLayout.2.placeItem Ex.twEnv 8 Ex.twTurned Ex.twDt = some (Ex.twAfter.1, Ex.twAfter.2) := (Option.some_get _).symm
  have h0 : (Layout.new 0 Ex.twBin).Filled Ex.twEnv Ex.twInst [] := .empty 0 Ex.twBin 1 (by rw [show Ex.twBin.id = 0 by decide +kernel]; rfl)
  have h1 := Layout.Filled.place (item := (Ex.twFloor, 1)) (dt := ⟨0, 0, 0⟩) h0 rfl (.direct (.inl (show Ex.twFloor.AllowsAngle 0 from rfl))) (by unfold Trial.Free; decide +kernel) hp
  have e : (Ex.twTurned.sampleOf Ex.twTrig Ex.twSample).m00 = -1 ∧ (Ex.twTurned.sampleOf Ex.twTrig Ex.twSample).m10 = Ex.twSin ∧
      Ex.twTrig.sin Ex.twAngle = Ex.twSin ∧ Ex.twTrig.cos Ex.twAngle = -1 ∧ Ex.twTrig.sin Ex.twBack = Ex.twBackSin ∧ Ex.twTrig.cos Ex.twBack = -1 := by decide +kernel
  obtain ⟨e1, e2, e3, e4, e5, e6⟩ := e
  refine ⟨Ex.twEnv, Ex.twInst, Ex.twLayout.2, Ex.twAfter.2, _, (Ex.twTurned, 1), Ex.twSample, Ex.twDt, 8, Ex.twAfter.1, Ex.twTrig_accurate, Ex.twInst_built, h1, rfl, ?_, rfl, ?_, hp',
    ?_, ?_, ?_, ?_⟩
  · show Ex.twAngle ∈ [0, Ex.twAngle]
    simp
  · unfold Trial.Free
    decide +kernel
  · decide +kernel
  · have k : (Ex.twLayout.2.placed.values.any fun a => Ex.twAfter.2.placed.values.any fun c => decide (c.itemId = 1) && decide (a.itemId = 0) &&
        decide (a.shape.val.points = Ex.twFloor.shape.points) &&
        decide (c.shape.val.points = (Ex.twTurned.shape.transform (Transf.fromDt Ex.twTrig ⟨Ex.twBack, 0, 0⟩)).points)) = true := by decide +kernel
    simp only [Bool.and_eq_true, decide_eq_true_eq, List.any_eq_true] at k
    obtain ⟨a, ha, c, hc, k⟩ := k
    obtain ⟨x, x1, x2⟩ := Ex.tw_overlap
    refine ⟨a, ha, c, hc, k.1.1.1, by rw [k.1.1.2]; decide, x, ?_, ?_⟩
    · unfold SPoly.exact; rw [k.1.2]; exact x1
    · unfold SPoly.exact; rw [k.2]; exact x2
  · intro a ha
    rw [hdt] at ha
    simp only [List.mem_cons, List.not_mem_nil, or_false] at ha
    rcases ha with rfl | rfl
    · show |((Ex.twTrig.sin Ex.twAngle).1 : ℝ) - Real.sin (Ex.twAngle.1 : ℝ)| ≤ _ ∧ |((Ex.twTrig.cos Ex.twAngle).1 : ℝ) - Real.cos (Ex.twAngle.1 : ℝ)| ≤ _
      rw [e3, e4]
      exact Ex.twAngle_near
    · show |((Ex.twTrig.sin Ex.twBack).1 : ℝ) - Real.sin (Ex.twBack.1 : ℝ)| ≤ _ ∧ |((Ex.twTrig.cos Ex.twBack).1 : ℝ) - Real.cos (Ex.twBack.1 : ℝ)| ≤ _
      rw [e5, e6]
      exact Ex.twBack_near
  · show |(Ex.twDt.rotation.1 : ℝ) - Complex.arg ⟨((Ex.twTurned.sampleOf Ex.twTrig Ex.twSample).m00.1 : ℝ), ((Ex.twTurned.sampleOf Ex.twTrig Ex.twSample).m10.1 : ℝ)⟩| ≤ _
    rw [hdt, e1, e2]
    exact Ex.twArg_near

/-- C75: and so a solution of the optimizer can contain two items with interior points in common. -/
theorem C75_solution_overlaps : ∃ (lenv : LEnv Ex.F32 2 ℕ) (env : Env Ex.F32) (cfg : LbfConfig) (addr : ℕ → ℕ → ℕ) (fuel : ℕ) (inst : BPInstance Ex.F32 2) (g : ℕ)
    (sol : Solution Ex.F32 2) (p : BPProblem Ex.F32 2), env.tr.Accurate (1 / 2 ^ 20) ∧ inst.Built env ∧ lbfSolveBP lenv env cfg addr fuel inst g = some (sol, p) ∧
    ∃ sn ∈ sol.snapshots, ∃ a ∈ sn.placed.values, ∃ c ∈ sn.placed.values, a.itemId ≠ c.itemId ∧ ∃ x, x ∈ interior a.shape.val.exact ∧ x ∈ interior c.shape.val.exact := by
  obtain ⟨sol, p, hs, -, sn, hsn, a, ha, c, hc, h1, h2, -, h3, h4⟩ := Ex.tw_run
  obtain ⟨x, x1, x2⟩ := Ex.tw_overlap
  refine ⟨_, _, _, _, _, _, _, sol, p, Ex.twTrig_accurate, Ex.twInst_built, hs, sn, hsn, a, ha, c, hc, by rw [h1, h2]; decide, x, ?_, ?_⟩
  · unfold SPoly.exact; rw [h3]; exact x1
  · unfold SPoly.exact; rw [h4]; exact x2

/-! ## Concrete cases for the theorems of C75 -/

namespace Ex

-- the search in an empty layout comes up with a placement of the triangle
example : ∃ (b : Bin ℚ 2) (opt : PlacingOption ℚ) (r' : ℕ), sampleLayout lbfLenv lbfEnv lbfCfg (.template 0) (Layout.new 0 b) triItem 0 = some (some opt, r') ∧
    ∃ t, triItem.TrialOf lbfEnv.tr opt.dt t ∧ (Layout.new 0 b).cde.polyCollides lbfEnv.f (triItem.shape.transform t) (lbfIrrelevant triItem (Layout.new 0 b)) = some false := by
  obtain ⟨b, hb⟩ : ∃ b, Bin.new lbfEnv 2 0 ⟨103, bin⟩ 5 .empty [] [] = some b := Option.isSome_iff_exists.1 (by decide +kernel)
  have h : ((Bin.new lbfEnv 2 0 ⟨103, bin⟩ 5 .empty [] []).bind fun b =>
      (sampleLayout lbfLenv lbfEnv lbfCfg (.template 0) (Layout.new 0 b) triItem 0).bind fun x => x.1).isSome = true := by decide +kernel
  rw [hb, Option.bind_some] at h
  obtain ⟨opt, ho⟩ := Option.isSome_iff_exists.1 h
  obtain ⟨⟨o, r'⟩, hx, ho⟩ := Option.bind_eq_some_iff.1 ho
  dsimp only at ho
  subst ho
  exact ⟨b, opt, r', hx, (C75_placed_was_tested hx).2.2⟩

-- a layout of a solution, with a triangle and a square
example : ∃ (i : BPInstance ℚ 2) (sol : Solution ℚ 2) (p : BPProblem ℚ 2), i.Built lbfEnv ∧
    lbfSolveBP lbfLenv lbfEnv lbfCfg (fun a b => 1000 * a + b) 4 i 0 = some (sol, p) ∧ sol.placed = [1, 1] ∧
    ∀ sn ∈ sol.snapshots, ∃ (l : Layout ℚ 2) (ts : List (Trial ℚ 2)), l.Filled lbfEnv i ts ∧ sn.placed = l.placed := by
  obtain ⟨i, hi⟩ : ∃ i, lbfInst = some i := Option.isSome_iff_exists.1 (by decide +kernel)
  obtain ⟨h1, -, -⟩ := lbfInst_fine hi
  have h : lbfRun.map (fun s => decide (s.1.placed = [1, 1])) = some true := by decide +kernel
  obtain ⟨⟨sol, p⟩, hs, he⟩ := Option.map_eq_some_iff.1 h
  unfold lbfRun at hs
  rw [hi, Option.bind_some] at hs
  refine ⟨i, sol, p, h1, hs, by simpa using he, fun sn hsn => ?_⟩
  obtain ⟨l, ts, k1, -, k2, -⟩ := C75_layouts_were_filled h1.ids hs sn hsn
  exact ⟨l, ts, k1, k2⟩

-- the triangle of the witness: the rotation that is stored is not an allowed one, but turns almost as the allowed one
example : ¬ twTurned.AllowsAngle twDt.rotation ∧ ∃ b, twTurned.AllowsAngle b ∧ |Real.cos (twDt.rotation.1 : ℝ) - Real.cos (b.1 : ℝ)| ≤ 4 * (1 / 2 ^ 20) ∧
    |Real.sin (twDt.rotation.1 : ℝ) - Real.sin (b.1 : ℝ)| ≤ 4 * (1 / 2 ^ 20) := by
  have hd : twTurned.AllowsAngle twSample.rotation := by show twAngle ∈ [0, twAngle]; simp
  refine ⟨?_, C75_allowed_rotation Rounding.single_standard twTrig_accurate (by norm_num) (.inr ⟨twSample, hd, rfl⟩)⟩
  show ¬ twDt.rotation ∈ [0, twAngle]
  decide +kernel

-- its corners are at most a fiftieth away from where they were tested
example : List.Forall₂ (CloseTo (1 / 50)) (twTurned.shape.transform (Transf.fromDt twTrig twDt)).real (twTurned.shape.transform (twTurned.sampleOf twTrig twSample)).real := by
  have hd : twTurned.AllowsAngle twSample.rotation := by show twAngle ∈ [0, twAngle]; simp
  have h := C75_placed_near_tested Rounding.single_standard (by norm_num) twTrig_accurate (by norm_num) (.sample twSample hd rfl) (M := 1100) (T := 1)
    (by decide +kernel) (by decide +kernel)
  refine h.imp fun a b hab => ⟨hab.1.trans ?_, hab.2.trans ?_⟩ <;> norm_num

noncomputable def tvEnv : Env F32 := { twEnv with f := fTol }

noncomputable def tvBin : Bin F32 2 := (Bin.new tvEnv 2 0 ⟨1, gBin⟩ 5 .empty [] []).get (by decide +kernel)

def tvFirst : Item F32 := ⟨0, twPole gItem, .none, none, 1, .empty, none⟩

def tvSecond : Item F32 := ⟨1, twPole gFree, .none, none, 1, .empty, none⟩

-- an item that is not turned
example : ∃ d : DTransf F32, d.rotation = 0 ∧ tvFirst.sampleOf twTrig d ≠ .empty ∧ tvFirst.sampleOf twTrig d = Transf.fromDt twTrig ((tvFirst.sampleOf twTrig d).decompose twTrig) :=
  ⟨⟨0, f32 (1 / 3), f32 7⟩, rfl, by decide +kernel, C75_unturned_exactly Rounding.single_standard twTrig_accurate (by decide +kernel) rfl (.sample _ rfl rfl)⟩

noncomputable def tvInst : BPInstance F32 2 := ⟨[(tvFirst, 1), (tvSecond, 1)], [(tvBin, 1)]⟩

theorem tvInst_built : tvInst.Built tvEnv := by
  refine ⟨?_, ?_⟩
  · show BPInstance.new _ _ = _
    unfold BPInstance.new
    rw [if_pos (by decide +kernel)]
  · intro b hb
    rw [show b = (tvBin, 1) from List.mem_singleton.1 hb]
    exact ⟨_, _, _, _, _, _, (Option.some_get _).symm⟩

/-- where the poles go -/
def tvD (s : SPoly F32) : DTransf F32 := ⟨0, s.poi.center.x, s.poi.center.y⟩

noncomputable def tvOne : SlotKey × Layout F32 2 := ((Layout.new 0 tvBin).placeItem tvEnv 7 tvFirst ⟨0, 0, 0⟩).get (by decide +kernel)

noncomputable def tvTwo : SlotKey × Layout F32 2 := (tvOne.2.placeItem tvEnv 8 tvSecond ⟨0, 0, 0⟩).get (by decide +kernel)

theorem tv_filled : tvTwo.2.Filled tvEnv tvInst [tvOne.2.trial tvSecond (tvSecond.sampleOf twTrig (tvD gFree)), (Layout.new 0 tvBin).trial tvFirst (tvFirst.sampleOf twTrig (tvD gItem))] := by
  have hp : (Layout.new 0 tvBin).placeItem tvEnv 7 tvFirst ⟨0, 0, 0⟩ = some (tvOne.1, tvOne.2) := (Option.some_get _).symm
  have hp' : tvOne.2.placeItem tvEnv 8 tvSecond ⟨0, 0, 0⟩ = some (tvTwo.1, tvTwo.2) := (Option.some_get _).symm
  have h0 : (Layout.new 0 tvBin).Filled tvEnv tvInst [] := .empty 0 tvBin 1 (by rw [show tvBin.id = 0 by decide +kernel]; rfl)
  have h1 := Layout.Filled.place (item := (tvFirst, 1)) h0 rfl (.sample (tvD gItem) rfl (by decide +kernel)) (by unfold Trial.Free; decide +kernel) hp
  exact Layout.Filled.place (item := (tvSecond, 1)) h1 rfl (.sample (tvD gFree) rfl (by decide +kernel)) (by unfold Trial.Free; decide +kernel) hp'

def tvH1 : List (Hazard F32) := [⟨.binExterior, ⟨1, gBin⟩, true⟩]

def tvH2 : List (Hazard F32) := [⟨.binExterior, ⟨1, gBin⟩, true⟩, ⟨.placedItem 0 ⟨0, 0, 0⟩, ⟨7, twPole gItem⟩, true⟩]

theorem tv_tame : ∀ s ∈ [gBin, twPole gItem, twPole gFree], s.Tame (1 / 2 ^ 24) 16 (1 / 1000) := by
  intro s hs
  simp only [List.mem_cons, List.not_mem_nil, or_false] at hs
  rcases hs with rfl | rfl | rfl
  · exact g_tame gBin (by simp)
  · have h := g_tame gItem (by simp)
    exact ⟨h.1, h.2, h.3, h.4, h.5, h.6, h.7⟩
  · have h := g_tame gFree (by simp)
    exact ⟨h.1, h.2, h.3, h.4, h.5, h.6, h.7⟩

/-- the two queries are in general position -/
theorem tv_rounds {c : CDE F32 2} {s : SPoly F32} {H : List (Hazard F32)} (h1 : c.allHazards = H) (h2 : c.bbox = gBin.bbox.inflateToSquare)
    (hs : (s, H) ∈ [(twPole gItem, tvH1), (twPole gFree, tvH2)]) : c.Rounds s [] (1 / 2 ^ 24) 16 (1 / 1000) 16 (1 / 1000) := by
  have hT := tv_tame
  have e1 : s ∈ [gBin, twPole gItem, twPole gFree] := by
    simp only [List.mem_cons, List.not_mem_nil, or_false, Prod.mk.injEq] at hs ⊢
    tauto
  have e2 : ∀ h ∈ H, h ∈ tvH2 := by
    simp only [List.mem_cons, List.not_mem_nil, or_false, Prod.mk.injEq] at hs
    rcases hs with ⟨-, rfl⟩ | ⟨-, rfl⟩
    · intro h hh
      unfold tvH1 at hh
      rw [List.mem_singleton.1 hh]
      exact List.mem_cons_self
    · exact fun h hh => hh
  refine ⟨by norm_num, by norm_num, le_rfl, ?_, hT s e1, ?_, ?_, ?_, ?_, ?_, ?_, ?_, ?_⟩
  · rw [h2]; decide +kernel
  · rw [h1]
    intro h hh _
    have := e2 h hh
    simp only [tvH2, List.mem_cons, List.not_mem_nil, or_false] at this
    rcases this with rfl | rfl
    · exact hT gBin (by simp)
    · exact hT (twPole gItem) (by simp)
  · have k : ∀ h ∈ tvH2, h.active = true := by decide +kernel
    rw [h1]; exact fun h hh _ => k h (e2 h hh)
  · have k : ∀ h ∈ tvH2, h.entity.position = .exterior → gBin.bbox.inflateToSquare.exact.width ≤ h.shape.val.bbox.exact.width ∨
        gBin.bbox.inflateToSquare.exact.height ≤ h.shape.val.bbox.exact.height := by decide +kernel
    rw [h1, h2]; exact fun h hh _ => k h (e2 h hh)
  · have k : ∀ h ∈ tvH2, ∀ b ∈ gBin.bbox.inflateToSquare.exact.cells Rounding.single 2, ∀ e ∈ h.shape.val.exactEdges, b.Decided e (1 / 2 ^ 24) 16 := by decide +kernel
    rw [h1, h2]; exact fun h hh _ => k h (e2 h hh)
  · have k : ∀ s ∈ [gBin, twPole gItem, twPole gFree], ∀ b ∈ gBin.bbox.inflateToSquare.exact.cells Rounding.single 2, ∀ e ∈ s.exactEdges, b.Decided e (1 / 2 ^ 24) 16 := by decide +kernel
    rw [h2]; exact k s e1
  · have k : ∀ x ∈ [(twPole gItem, tvH1), (twPole gFree, tvH2)], ∀ h ∈ x.2, ∀ e ∈ x.1.exactEdges, h.shape.val.bbox.exact.Decided e (1 / 2 ^ 24) 16 := by decide +kernel
    rw [h1]; exact fun h hh _ => k _ hs h hh
  · have k : ∀ x ∈ [(twPole gItem, tvH1), (twPole gFree, tvH2)], ∀ h ∈ x.2, ∀ e ∈ x.1.exactEdges, ∀ e' ∈ h.shape.val.exactEdges, e.Decided e' (1 / 2 ^ 24) 16 := by decide +kernel
    rw [h1]; exact fun h hh _ => k _ hs h hh
  · have k : ∀ x ∈ [(twPole gItem, tvH1), (twPole gFree, tvH2)], ∀ h ∈ x.2, NotJustInside h.shape.val.bbox.exact x.1.bbox.exact (1 / 1000) := by decide +kernel
    rw [h1]; exact fun h hh _ _ _ => k _ hs h hh

-- two triangles in a bin: as they are meant, they overlap by less than a thousandth
example : tvTwo.2.placed.values.length = 2 ∧ NearlyFeasible (1 / 2 ^ 24 * (7 * 16 + 1) + 6 * (1 / 2 ^ 20) * 16) tvInst tvTwo.2.bin tvTwo.2.placed.values := by
  refine ⟨by decide +kernel, ?_⟩
  refine C75_nearly_feasible Rounding.single_standard (by norm_num) (env := tvEnv) twTrig_accurate (by norm_num) (M' := 16) (ε' := 1 / 1000) (w := 16) (δ := 1 / 1000)
    ⟨by simp [tvEnv, fTol], by intro a b _ _ h; simpa [tvEnv, fTol] using h⟩ tvInst_built (M := 16) (T := 1) (by decide +kernel) (by norm_num) tv_filled (by decide +kernel) (by decide +kernel) ?_
  intro q hq
  simp only [List.mem_cons, List.not_mem_nil, or_false] at hq
  rcases hq with rfl | rfl
  · have e : (tvOne.2.trial tvSecond (tvSecond.sampleOf twTrig (tvD gFree))).shape = twPole gFree := by decide +kernel
    rw [e]
    exact tv_rounds (H := tvH2) (by decide +kernel) (by decide +kernel) (by simp)
  · have e : ((Layout.new 0 tvBin).trial tvFirst (tvFirst.sampleOf twTrig (tvD gItem))).shape = twPole gItem := by decide +kernel
    rw [e]
    exact tv_rounds (H := tvH1) (by decide +kernel) (by decide +kernel) (by simp)

-- the run of the witness: its layout has two items and was filled by tests, so that the overlap is small if the tests were in general position
example : ∃ (sol : Solution F32 2) (p : BPProblem F32 2), twRun = some (sol, p) ∧ sol.placed = [1, 1] ∧ ∀ sn ∈ sol.snapshots, ∃ (l : Layout F32 2) (ts : List (Trial F32 2)),
    l.Filled twEnv twInst ts ∧ sn.bin = l.bin ∧ sn.placed = l.placed ∧
      ((sn.placed.values.map fun pi => (pi.itemId, pi.dt)).Nodup → (∀ pi ∈ sn.placed.values, pi.dt.UpTo 1) →
        (∀ q ∈ ts, q.engine.Rounds q.shape q.ignored (1 / 2 ^ 24) 2000 0 4000 (1 / 1000)) →
        NearlyFeasible (1 / 2 ^ 24 * (7 * 1100 + 1) + 6 * (1 / 2 ^ 20) * 1100) twInst sn.bin sn.placed.values) := by
  obtain ⟨sol, p, hs, h1, -⟩ := tw_run
  refine ⟨sol, p, hs, h1, C75_solutions_nearly_feasible Rounding.single_standard (by norm_num) (env := twEnv) twTrig_accurate (by norm_num)
    ⟨by simp [twEnv, fExact], by intro a b _ _ h; simp only [twEnv, fExact, decide_eq_true_eq] at h; rw [h]; simp⟩ twInst_built (M := 1100) (T := 1) (by decide +kernel) (by norm_num) hs⟩

end Ex

end Jagua
