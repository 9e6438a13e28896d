import Verif.Lemmas.ToleranceRun
import Verif.Props.LBF
import Verif.Props.Tolerance

/-!
# C68 for the optimizer: solutions are feasible although comparisons have a tolerance
-/

set_option linter.unusedSectionVars false

namespace Jagua

variable {K : Type*} [Field K] [LinearOrder K] [IsStrictOrderedRing K] {n : ℕ} {R : Type*}

/-- C68, bin packing: if the tolerance is small compared to the bins and the items, what the optimizer returns is as good as without
tolerance. Every layout is in a bin of the instance, its items are inside the bin, off the holes and the zones of too low a quality and
apart from each other, exactly; no item is placed more often than there is demand for, and no bin is used more often than it is in stock. -/
theorem C68_optimizer {lenv : LEnv K n R} {env : Env K} {cfg : LbfConfig} {addr : ℕ → ℕ → ℕ} {fuel : ℕ} {inst : BPInstance K n} {r : R}
    {M ε : K} (hf : env.f.Tolerant M ε) (ht : inst.Tolerates env.tr M ε) (hu : env.tr.Unit) (hp : env.tr.Polar) (hb : inst.Built env)
    (hbins : ∀ b ∈ inst.bins, b.1.Shapes) (hitems : ∀ x ∈ inst.items, x.1.shape.Proper ∧ signedArea x.1.shape.points ≠ 0)
    {sol : Solution K n} {p : BPProblem K n} (h : lbfSolveBP lenv env cfg addr fuel inst r = some (sol, p)) :
    (∀ sn ∈ sol.snapshots, (∃ q, inst.bins[sn.bin.id]? = some (sn.bin, q)) ∧ Feasible sn.bin sn.placed.values ∧
      ∀ pi ∈ sn.placed.values, ∃ x, inst.items[pi.itemId]? = some x ∧ pi.hazardFilter = x.1.hazardFilter ∧
        pi.shape.val = x.1.shape.transform (Transf.fromDt env.tr pi.dt) ∧ x.1.Allows env.tr pi.dt.rotation) ∧
    (∀ (i : ℕ) x, inst.items[i]? = some x → sol.placed[i]? = some (sol.copiesOf i) ∧ sol.copiesOf i ≤ x.2) ∧
    ∀ (b : ℕ) x, inst.bins[b]? = some x → sol.binsUsed b ≤ x.2 :=
  have hfine : ∀ x ∈ inst.items, x.1.Fine := fun x hx => ⟨(hitems x hx).1, (hitems x hx).2⟩
  lbfSolveBP_ok (ht.honest hf hu hbins hfine) hu hp hb hfine h

/-! ## A case -/

namespace Ex

/-- as in the other runs, with a relative tolerance of one thousandth -/
def tolEnv : Env ℚ := { lbfEnv with f := tol }

/-- a rectangle with sides 4 and 2 -/
def slab : SPoly ℚ :=
  { points := [⟨-2, -1⟩, ⟨2, -1⟩, ⟨2, 1⟩, ⟨-2, 1⟩], bbox := ⟨-2, -1, 2, 1⟩, area := 8, poi := ⟨⟨0, 0⟩, 1⟩,
    surrogate := some ⟨[0, 1, 2, 3], [⟨⟨0, 0⟩, 1⟩], ⟨⟨0, 0⟩, 1⟩, [⟨⟨-1, 0⟩, ⟨1, 0⟩⟩], 1, 8⟩ }

/-- slabs that can be turned by quarter turns -/
def slabItem : Item ℚ :=
  { id := 0, shape := slab, allowedRotation := .discrete [0, 2], baseQuality := none, value := 1, pretransform := .empty, hazardFilter := none }

theorem slab_proper : slab.Proper where
  wf := ⟨by decide +kernel, by unfold AARect.Valid; decide +kernel, by decide⟩
  noSpike := by unfold NoSpike; decide +kernel
  poi := (interior_rectPoly (x0 := -2) (y0 := -1) (x1 := 2) (y1 := 1) (by norm_num) (by norm_num) _).2 (by decide +kernel)

/-- two slabs and two squares, one bin -/
def tolInst : Option (BPInstance ℚ 2) :=
  (Bin.new tolEnv 2 0 ⟨103, bin⟩ 5 .empty [] []).bind fun b => BPInstance.new [(slabItem, 2), (sqItem, 2)] [(b, 1)]

def tolRun : Option (Solution ℚ 2 × BPProblem ℚ 2) :=
  tolInst.bind fun i => lbfSolveBP lbfLenv tolEnv lbfCfg (fun a b => 1000 * a + b) 4 i 0

theorem roomyDisc_rect {x0 y0 x1 y1 : ℚ} (hx : x0 < -1 / 2) (hx' : 1 / 2 < x1) (hy : y0 < -1 / 2) (hy' : 1 / 2 < y1) {s : SPoly ℚ}
    (hs : s.points = rectPoly x0 y0 x1 y1) (hc : s.poi.center = ⟨0, 0⟩) : s.RoomyDisc (1 / 125) := by
  intro w hw
  rw [hc] at hw
  simp only [sub_zero] at hw
  have h1 := abs_le_of_sq_le_sq' (a := w.x) (b := 1 / 2) (by nlinarith [sq_nonneg w.y]) (by norm_num)
  have h2 := abs_le_of_sq_le_sq' (a := w.y) (b := 1 / 2) (by nlinarith [sq_nonneg w.x]) (by norm_num)
  rw [hs]
  exact .inr ((interior_rectPoly (by linarith) (by linarith) w).2 ⟨by linarith [h1.1], by linarith [h1.2], by linarith [h2.1], by linarith [h2.2]⟩)

/-- a slab is never wider and higher than a square -/
theorem slab_overtops (d : DTransf ℚ) (hd : sqItem.Allows turns d.rotation) :
    slabItem.Overtops turns (sqItem.shape.transform (Transf.fromDt turns d)) (1 / 125) := by
  rintro - dt hdt hlt
  obtain ⟨c, s⟩ : turns.cos d.rotation = 1 ∧ turns.sin d.rotation = 0 := by
    have : SameTurn turns d.rotation 0 := hd
    rw [this.1, this.2]
    decide +kernel
  have hdt' : ∃ b ∈ [(0 : ℚ), 2], SameTurn turns dt.rotation b := hdt
  have h1 := hlt.narrow
  have h2 := hlt.low
  have ge : ∀ v ∈ lbfSq.points, ∀ w ∈ lbfSq.points, (v.transform (Transf.fromDt turns d)).x - (w.transform (Transf.fromDt turns d)).x ≤
      (sqItem.shape.transform (Transf.fromDt turns d)).bbox.width ∧
      (v.transform (Transf.fromDt turns d)).y - (w.transform (Transf.fromDt turns d)).y ≤
      (sqItem.shape.transform (Transf.fromDt turns d)).bbox.height := by
    intro v hv w hw
    obtain ⟨a1, a2, a3, a4⟩ := mem_boundingBox (List.mem_map_of_mem (f := fun p => p.transform (Transf.fromDt turns d)) hv)
    obtain ⟨b1, b2, b3, b4⟩ := mem_boundingBox (List.mem_map_of_mem (f := fun p => p.transform (Transf.fromDt turns d)) hw)
    exact ⟨sub_le_sub a2 b1, sub_le_sub a4 b3⟩
  obtain ⟨g1, g2⟩ := ge ⟨1, 1⟩ (by decide +kernel) ⟨-1, -1⟩ (by decide +kernel)
  have e : ∀ p q : Point ℚ, (p.transform (Transf.fromDt turns d)).x - (q.transform (Transf.fromDt turns d)).x = p.x - q.x ∧
      (p.transform (Transf.fromDt turns d)).y - (q.transform (Transf.fromDt turns d)).y = p.y - q.y := by
    intro p q
    simp only [Point.transform, Transf.fromDt, Transf.rotTranslM, c, s]
    constructor <;> ring
  rw [(e _ _).1] at g1
  rw [(e _ _).2] at g2
  obtain ⟨⟨p1, m1, e1⟩, ⟨p2, m2, e2⟩, ⟨p3, m3, e3⟩, ⟨p4, m4, e4⟩⟩ :=
    boundingBox_attained (pts := slab.points.map fun p => p.transform (Transf.fromDt turns dt)) (by simp [slab])
  obtain ⟨q1, n1, rfl⟩ := List.mem_map.1 m1
  obtain ⟨q2, n2, rfl⟩ := List.mem_map.1 m2
  obtain ⟨q3, n3, rfl⟩ := List.mem_map.1 m3
  obtain ⟨q4, n4, rfl⟩ := List.mem_map.1 m4
  have hb : ∀ q ∈ slab.points, -2 ≤ q.x ∧ q.x ≤ 2 ∧ -1 ≤ q.y ∧ q.y ≤ 1 := by decide +kernel
  have hw : (slabItem.shape.transform (Transf.fromDt turns dt)).bbox.width = (q3.transform (Transf.fromDt turns dt)).x - (q1.transform (Transf.fromDt turns dt)).x := by
    rw [e1, e3]; rfl
  have hh : (slabItem.shape.transform (Transf.fromDt turns dt)).bbox.height = (q4.transform (Transf.fromDt turns dt)).y - (q2.transform (Transf.fromDt turns dt)).y := by
    rw [e2, e4]; rfl
  rw [hw] at h1
  rw [hh] at h2
  replace h1 := lt_of_le_of_lt g1 h1
  replace h2 := lt_of_le_of_lt g2 h2
  clear g1 g2 ge hw hh e
  obtain ⟨b, hb', hs⟩ := hdt'
  simp only [List.mem_cons, List.not_mem_nil, or_false] at hb'
  rcases hb' with rfl | rfl
  · have c0 : turns.cos dt.rotation = 1 := by rw [hs.1]; decide +kernel
    have s0 : turns.sin dt.rotation = 0 := by rw [hs.2]; decide +kernel
    simp only [Point.transform, Transf.fromDt, Transf.rotTranslM, c0, s0] at h2
    have := hb q4 n4
    have := hb q2 n2
    linarith
  · have c0 : turns.cos dt.rotation = 0 := by rw [hs.1]; decide +kernel
    have s0 : turns.sin dt.rotation = 1 := by rw [hs.2]; decide +kernel
    simp only [Point.transform, Transf.fromDt, Transf.rotTranslM, c0, s0] at h1
    have := hb q3 n3
    have := hb q1 n1
    linarith

theorem sq_overtops (d : DTransf ℚ) : sqItem.Overtops turns (slabItem.shape.transform (Transf.fromDt turns d)) (1 / 125) := by
  intro hn
  have := hn.of_map_left (Transf.IsRigid.rotTransl turns_unit d.rotation d.tx d.ty).map
  exact absurd this (by unfold Narrower gap; decide +kernel)

theorem tolInst_fine {i : BPInstance ℚ 2} (h : tolInst = some i) : i.Built tolEnv ∧ (∀ b ∈ i.bins, b.1.Shapes) ∧
    i.items = [(slabItem, 2), (sqItem, 2)] ∧ i.Tolerates tolEnv.tr 8 (1 / 125) := by
  obtain ⟨b, hb, h⟩ := Option.bind_eq_some_iff.1 h
  have hbuilt : b.Built tolEnv := ⟨_, _, _, _, _, _, hb⟩
  have hbox := hbuilt.hazards.2
  have hparts : b.outer = ⟨103, bin⟩ ∧ b.holes = [] ∧ b.qualityZones = zoneTable [] := by
    unfold Bin.new at hb
    split_ifs at hb
    dsimp only at hb
    obtain ⟨cde, _, rfl⟩ := Option.map_eq_some_iff.1 hb
    exact ⟨rfl, rfl, rfl⟩
  obtain ⟨o1, o2, o3⟩ := hparts
  have hz : ∀ z, some z ∉ b.qualityZones := by
    intro z hz
    rw [o3] at hz
    have : ∀ z ∈ zoneTable ([] : List (QualityZone ℚ)), z.isNone = true := by decide +kernel
    exact absurd (this _ hz) (by simp)
  rw [o1] at hbox
  replace hbox : b.baseCde.bbox = ⟨0, 0, 8, 8⟩ := hbox.trans (by decide +kernel)
  have hnew := h
  unfold BPInstance.new at h
  split_ifs at h
  cases h
  refine ⟨⟨hnew, ?_⟩, ?_, rfl, by norm_num, ?_, ?_, ?_⟩
  · intro x hx
    rw [List.mem_singleton.1 hx]
    exact hbuilt
  · intro x hx
    rw [List.mem_singleton.1 hx]
    exact ⟨by rw [o1]; exact bin_proper, by rw [o2]; simp, fun z h => absurd h (hz z)⟩
  · intro x hx
    rw [List.mem_singleton.1 hx]
    dsimp only
    refine ⟨by rw [hbox]; unfold AARect.width; norm_num, by rw [hbox]; unfold AARect.height; norm_num, ?_, ?_, by rw [o2]; simp,
      fun z h => absurd h (hz z)⟩
    · rw [hbox]
      rintro p ⟨a1, a2, a3, a4⟩
      simp only at a1 a2 a3 a4
      rw [abs_le, abs_le]
      exact ⟨⟨by linarith, a2⟩, by linarith, a4⟩
    · rw [o1]
      exact ⟨by unfold Bounded; decide +kernel, roomy_rect (x0 := 0) (y0 := 0) (x1 := 8) (y1 := 8) (by norm_num) (by norm_num) rfl
        (by decide +kernel) (by decide +kernel) (by decide +kernel) (by decide +kernel)⟩
  · intro x hx
    simp only [List.mem_cons, List.not_mem_nil, or_false] at hx
    rcases hx with rfl | rfl
    · exact roomyDisc_rect (x0 := -2) (y0 := -1) (x1 := 2) (y1 := 1) (by norm_num) (by norm_num) (by norm_num) (by norm_num) rfl rfl
    · exact roomyDisc_rect (x0 := -1) (y0 := -1) (x1 := 1) (y1 := 1) (by norm_num) (by norm_num) (by norm_num) (by norm_num) rfl rfl
  · have self : ∀ (item : Item ℚ) (d : DTransf ℚ), item.Overtops turns (item.shape.transform (Transf.fromDt turns d)) (1 / 125) := by
      intro item d hn
      exact absurd (hn.of_map_left (Transf.IsRigid.rotTransl turns_unit d.rotation d.tx d.ty).map) (not_narrower_self _)
    intro x hx y hy d hd
    simp only [List.mem_cons, List.not_mem_nil, or_false] at hx hy
    rcases hx with rfl | rfl <;> rcases hy with rfl | rfl
    · exact self _ _
    · exact slab_overtops d hd
    · exact sq_overtops d
    · exact self _ _

end Ex

/-- Non-trivial case: two slabs, which may be turned, and two squares are packed in a bin with a tolerance of one thousandth. -/
example : ∃ (i : BPInstance ℚ 2) (sol : Solution ℚ 2) (p : BPProblem ℚ 2), Ex.tolEnv.f.Tolerant 8 (1 / 125) ∧
    i.Tolerates Ex.tolEnv.tr 8 (1 / 125) ∧ Ex.tolEnv.tr.Unit ∧ Ex.tolEnv.tr.Polar ∧
    i.Built Ex.tolEnv ∧ (∀ b ∈ i.bins, b.1.Shapes) ∧ (∀ x ∈ i.items, x.1.shape.Proper ∧ signedArea x.1.shape.points ≠ 0) ∧
    lbfSolveBP Ex.lbfLenv Ex.tolEnv Ex.lbfCfg (fun a b => 1000 * a + b) 4 i 0 = some (sol, p) ∧
    sol.target = [2, 2] ∧ sol.placed = [1, 1] ∧ sol.snapshots.length = 1 := by
  obtain ⟨i, hi⟩ : ∃ i, Ex.tolInst = some i := Option.isSome_iff_exists.1 (by decide +kernel)
  obtain ⟨h1, h2, h3, h4⟩ := Ex.tolInst_fine hi
  have h : Ex.tolRun.map (fun s => decide (s.1.target = [2, 2]) && decide (s.1.placed = [1, 1]) && decide (s.1.snapshots.length = 1)) = some true := by
    decide +kernel
  obtain ⟨⟨sol, p⟩, hs, he⟩ := Option.map_eq_some_iff.1 h
  unfold Ex.tolRun at hs
  rw [hi, Option.bind_some] at hs
  simp only [Bool.and_eq_true, decide_eq_true_eq] at he
  refine ⟨i, sol, p, Ex.tol_tolerant, h4, Ex.turns_unit, Ex.turns_polar, h1, h2, ?_, hs, he.1.1, he.1.2, he.2⟩
  rw [h3]
  intro x hx
  simp only [List.mem_cons, List.not_mem_nil, or_false] at hx
  rcases hx with rfl | rfl
  · exact ⟨Ex.slab_proper, show signedArea Ex.slab.points ≠ 0 by decide +kernel⟩
  · exact ⟨Ex.lbfSq_proper, show signedArea Ex.lbfSq.points ≠ 0 by decide +kernel⟩

end Jagua
