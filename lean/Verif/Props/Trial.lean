import Verif.Lemmas.TrialRounded

/-!
# C75: what the optimizer places was tested, up to the roundoff
-/

set_option linter.unusedSectionVars false

namespace Jagua

section Any
variable {K : Type*} [Arith K] [LinearOrder K] {n : ℕ} {R : Type*}

/-- C75, in any arithmetic: when the search in a layout comes up with a placement, the engine of the layout was
asked about the item under a transformation from which the placement was recovered, or that of the placement itself, and found no collision. -/
theorem C75_placed_was_tested {lenv : LEnv K n R} {env : Env K} {cfg : LbfConfig} {idx : LayoutIndex} {layout : Layout K n} {item : Item K} {r r' : R}
    {opt : PlacingOption K} (h : sampleLayout lenv env cfg idx layout item r = some (some opt, r')) :
    opt.layoutIdx = idx ∧ opt.itemId = item.id ∧ ∃ t, item.TrialOf env.tr opt.dt t ∧
      layout.cde.polyCollides env.f (item.shape.transform t) (lbfIrrelevant item layout) = some false :=
  sampleLayout_tested h rfl

/-- C75, in any arithmetic: every layout of a solution of the optimizer was filled item by item, each after a test in the layout as it was then. -/
theorem C75_layouts_were_filled {lenv : LEnv K n R} {env : Env K} {cfg : LbfConfig} {addr : ℕ → ℕ → ℕ} {fuel : ℕ} {inst : BPInstance K n} {r : R}
    (hids : idsCorrect inst.items inst.bins = true) {sol : Solution K n} {p : BPProblem K n} (h : lbfSolveBP lenv env cfg addr fuel inst r = some (sol, p)) :
    ∀ sn ∈ sol.snapshots, ∃ (l : Layout K n) (ts : List (Trial K n)), l.Filled env inst ts ∧ sn.bin = l.bin ∧ sn.placed = l.placed ∧
      (∃ q, inst.bins[sn.bin.id]? = some (sn.bin, q)) ∧
      ∀ pi ∈ sn.placed.values, ∃ x, inst.items[pi.itemId]? = some x ∧ pi.hazardFilter = x.1.hazardFilter ∧
        pi.shape.val = x.1.shape.transform (Transf.fromDt env.tr pi.dt) ∧ x.1.Turns env.tr pi.dt.rotation := by
  intro sn hsn
  obtain ⟨l, ts, hf, e1, e2⟩ := lbfSolveBP_filled hids h sn hsn
  refine ⟨l, ts, hf, e1, e2, ?_, ?_⟩
  · rw [e1]; exact hf.bin
  · rw [e2]; exact hf.items

end Any

variable {r : Rounding} {u : ℚ} {n : ℕ}

/-- C75: in arithmetic with rounding, a stored rotation turns almost as an allowed one. -/
theorem C75_allowed_rotation (st : r.Standard u) {tr : Trig (Rounded r)} {η : ℝ} (ht : tr.Accurate η) (hη : η < 1 / 2) {item : Item (Rounded r)} {a : Rounded r}
    (h : item.Turns tr a) : ∃ b, item.AllowsAngle b ∧ |Real.cos (a.1 : ℝ) - Real.cos (b.1 : ℝ)| ≤ 4 * η ∧ |Real.sin (a.1 : ℝ) - Real.sin (b.1 : ℝ)| ≤ 4 * η := by
  rcases h with h | ⟨d, hd, rfl⟩
  · have η0 : 0 ≤ η := (abs_nonneg _).trans (ht.cos_near 0)
    exact ⟨a, h, by simpa using η0, by simpa using η0⟩
  · obtain ⟨k1, k2⟩ := recovered_near st ht hη item d
    have k3 := ht.cos_near d.rotation
    have k4 := ht.sin_near d.rotation
    refine ⟨d.rotation, hd, ?_, ?_⟩
    · simp only [abs_le] at *
      constructor <;> linarith [k1.1, k1.2, k3.1, k3.2]
    · simp only [abs_le] at *
      constructor <;> linarith [k2.1, k2.2, k4.1, k4.2]

/-- C75: in arithmetic with rounding, the corners of the shape that was tested are close to those of the shape that is placed. -/
theorem C75_placed_near_tested (st : r.Standard u) (hu : u ≤ 1 / 256) {tr : Trig (Rounded r)} {η : ℝ} (ht : tr.Accurate η) (hη : η < 1 / 2) {item : Item (Rounded r)}
    {dt : DTransf (Rounded r)} {t : Transf (Rounded r)} (h : item.TrialOf tr dt t) {M T : ℚ} (hs : ∀ p ∈ item.shape.points, p.UpTo M) (hd : dt.UpTo T) :
    List.Forall₂ (CloseTo ((u : ℝ) * (14 * M + 2 * T) + 8 * η * M)) (item.shape.transform (Transf.fromDt tr dt)).real (item.shape.transform t).real := by
  unfold SPoly.real SPoly.transform
  simp only [List.map_map]
  refine forall2_map fun p hp => ?_
  have k1 := trial_vertex st hu ht hη h (hs p hp) hd
  have k2 := placed_vertex st hu ht (hs p hp) hd
  unfold CloseTo at *
  simp only [abs_le, Function.comp] at *
  constructor <;> constructor <;> linarith [k1.1.1, k1.1.2, k1.2.1, k1.2.2, k2.1.1, k2.1.2, k2.2.1, k2.2.2]

/-- C75: an item that is not turned is placed exactly where it was tested. -/
theorem C75_unturned_exactly (st : r.Standard u) {tr : Trig (Rounded r)} {η : ℝ} (ht : tr.Accurate η) (h0 : tr.atan2 0 1 = 0) {item : Item (Rounded r)}
    (hi : item.allowedRotation = .none) {dt : DTransf (Rounded r)} {t : Transf (Rounded r)} (h : item.TrialOf tr dt t) : t = Transf.fromDt tr dt := by
  cases h with
  | direct _ => rfl
  | sample d hd he =>
    have hd : d.rotation = 0 := by
      unfold Item.AllowsAngle at hd
      rwa [hi] at hd
    subst he
    rw [sample_matrix st, hd, ht.cos_zero, ht.sin_zero]
    unfold Transf.decompose Transf.fromDt Transf.rotTranslM
    simp only
    rw [h0, ht.cos_zero, ht.sin_zero]

theorem closeTo_refl_map {ε : ℝ} (h0 : 0 ≤ ε) (P : List (Point ℝ)) : List.Forall₂ (CloseTo ε) P P := by
  induction P with
  | nil => exact .nil
  | cons p l ih => exact .cons (by unfold CloseTo; simpa using h0) ih

/-- C75: a layout that was filled item by item in arithmetic with rounding, after tests with shapes in general position, is feasible up to the
error, for the placements as they are meant. -/
theorem C75_nearly_feasible (st : r.Standard u) (hu : u ≤ 1 / 256) {env : Env (Rounded r)} {η : ℝ} (ht : env.tr.Accurate η) (hη : η < 1 / 2) {M' ε' w δ : ℚ}
    (hf : env.f.TolerantIn M' ε') {inst : BPInstance (Rounded r) n} (hb : inst.Built env) {M T : ℚ} (hs : ∀ x ∈ inst.items, ∀ p ∈ x.1.shape.points, p.UpTo M)
    {ε : ℝ} (hε : ε = (u : ℝ) * (7 * M + T) + 6 * η * M) {l : Layout (Rounded r) n} {ts : List (Trial (Rounded r) n)} (h : l.Filled env inst ts)
    (hn : (l.placed.values.map fun pi => (pi.itemId, pi.dt)).Nodup) (hT : ∀ pi ∈ l.placed.values, pi.dt.UpTo T)
    (hr : ∀ q ∈ ts, q.engine.Rounds q.shape q.ignored u M' ε' w δ) : NearlyFeasible ε inst l.bin l.placed.values := by
  induction h with
  | empty => constructor <;> simp [Layout.new, SlotMap.empty, SlotMap.values]
  | @place l l' ts item dt t addr key hfill hi htr hq hp ih =>
    obtain ⟨hbin, hperm⟩ := Layout.placeItem_values hfill.slots hp
    have hn' := (hperm.map fun pi : PlacedItem (Rounded r) => (pi.itemId, pi.dt)).nodup_iff.1 hn
    rw [List.map_cons, List.nodup_cons] at hn'
    have hT' : ∀ pi ∈ l.placed.values, pi.dt.UpTo T := fun pi hpi => hT pi (hperm.mem_iff.2 (List.mem_cons_of_mem _ hpi))
    have hdt : dt.UpTo T := by
      have := hT (PlacedItem.new env addr item.1 dt) (hperm.mem_iff.2 List.mem_cons_self)
      exact this
    have IH := ih hn'.2 hT' fun q hq => hr q (List.mem_cons_of_mem _ hq)
    have hinv := hfill.inv hb hn'.2
    obtain ⟨b, g1, g2⟩ := C70_query_decides_feasibility st hu hf (c := (l.trial item.1 t).engine) hinv.reach (hr (l.trial item.1 t) List.mem_cons_self)
    unfold Trial.Free at hq
    rw [g1] at hq
    obtain rfl := Option.some.inj hq
    simp only [Bool.false_eq_true, false_iff, not_or, not_exists, not_and] at g2
    have g3 := g2.2
    have key1 : ∀ x ∈ inst.items, ∀ dt t, x.1.TrialOf env.tr dt t → dt.UpTo T →
        List.Forall₂ (CloseTo ε) (x.1.shape.real.map dt.move) ((x.1.shape.transform t).exact.map Point.cast) := by
      intro x hx dt t h1 h2
      rw [SPoly.exact_cast, hε]
      exact trial_close st hu ht hη h1 (hs x hx) h2
    have kt := key1 item (List.mem_of_getElem? hi) dt t htr hdt
    have hεne : ∀ x : Point ℝ, x ∈ region (item.1.shape.real.map dt.move) → 0 ≤ ε := by
      intro x hx
      have η0 : 0 ≤ η := (abs_nonneg _).trans (ht.cos_near 0)
      have T0 : 0 ≤ T := (abs_nonneg _).trans hdt.1
      have u0 := st.nonneg
      have : 0 ≤ M := by
        rcases hpt : item.1.shape.points with _ | ⟨p, l⟩
        · exfalso
          rw [show item.1.shape.real = [] by unfold SPoly.real; rw [hpt]; rfl] at hx
          rcases hx with ⟨t, ht, -⟩ | ⟨-, hx⟩
          · simp [sides] at ht
          · simp [rayCount, sides] at hx
        · exact (abs_nonneg _).trans (hs item (List.mem_of_getElem? hi) p (by rw [hpt]; exact List.mem_cons_self)).1
      rw [hε]
      positivity
    obtain ⟨hst, -⟩ := hinv.bin.hazards
    have hstat : ∀ x ∈ generateBinHazards l.bin.outer l.bin.holes l.bin.qualityZones, x ∈ l.cde.allHazards := by
      intro x hx
      refine List.mem_append.2 (.inl ?_)
      rw [hinv.statics, hst]
      exact hx
    have hdis : ∀ hz ∈ l.cde.allHazards, hz.entity ∉ lbfIrrelevant item.1 l → hz.entity.position = .interior →
        Disjoint (region (item.1.shape.transform t).exact) (region hz.shape.val.exact) := by
      intro hz h1 h2 h3
      rw [Set.disjoint_left]
      intro p hp1 hp2
      refine g3 hz h1 h2 p hp1 ?_
      rw [h3]
      exact hp2
    have hme : inst.meant (PlacedItem.new env addr item.1 dt) = item.1.shape.real.map dt.move := by
      unfold BPInstance.meant PlacedItem.new
      dsimp only
      rw [hi]
    have hshallow : ∀ hz ∈ l.cde.allHazards, hz.entity ∉ lbfIrrelevant item.1 l → hz.entity.position = .interior →
        ∀ x, ¬ (DeepIn ε (inst.meant (PlacedItem.new env addr item.1 dt)) x ∧ DeepIn ε hz.shape.val.real x) := by
      rintro hz h1 h2 h3 x ⟨d1, d2⟩
      rw [hme] at d1
      have e0 := hεne x (Or.inr d1.1)
      refine shallow (hdis hz h1 h2 h3) kt (Q' := hz.shape.val.real) ?_ x d1 d2
      rw [SPoly.exact_cast]
      exact closeTo_refl_map e0 _
    have hirr : ∀ {e : HazardEntity (Rounded r)}, e ∈ lbfIrrelevant item.1 l → ∃ q z i, item.1.hazardFilter = some q ∧ e = .inferiorQualityZone z i ∧ q ≤ z := fun h => mem_lbfIrrelevant h
    rw [hbin]
    refine ⟨?_, ?_, ?_, ?_⟩
    · intro pi hpi
      rcases List.mem_cons.1 (hperm.mem_iff.1 hpi) with rfl | hpi
      · intro x hx
        rw [hme] at hx
        have e0 := hεne x hx
        rw [← SPoly.exact_cast]
        refine region_moved (P := (item.1.shape.transform t).exact) ?_ e0 kt x hx
        intro p hp1
        have := g3 _ (hstat _ (mem_binHazards.2 (.inl rfl))) (fun hm => by obtain ⟨_, _, _, _, hz, _⟩ := hirr hm; cases hz) p hp1
        by_contra hc
        exact this (Or.inr hc)
      · exact IH.inside pi hpi
    · intro pi hpi
      rcases List.mem_cons.1 (hperm.mem_iff.1 hpi) with rfl | hpi
      · intro s hsm
        obtain ⟨i, hi'⟩ := List.mem_iff_getElem?.1 hsm
        exact hshallow ⟨.binHole i, s, true⟩ (hstat _ (mem_binHazards.2 (.inr (.inl ⟨i, s, hi', rfl⟩))))
          (fun hm => by obtain ⟨_, _, _, _, hz, _⟩ := hirr hm; cases hz) rfl
      · exact IH.holes pi hpi
    · intro pi hpi
      rcases List.mem_cons.1 (hperm.mem_iff.1 hpi) with rfl | hpi
      · intro z hz hq s hsm
        obtain ⟨i, hi'⟩ := List.mem_iff_getElem?.1 hsm
        refine hshallow ⟨.inferiorQualityZone z.quality i, s, true⟩ (hstat _ (mem_binHazards.2 (.inr (.inr ⟨z, hz, i, s, hi', rfl⟩)))) (fun hm => ?_) rfl
        obtain ⟨q, z', i', hq', hz', hle⟩ := hirr hm
        cases hz'
        exact absurd hle (not_le.2 (hq q hq'))
      · exact IH.zones pi hpi
    · refine (hperm.symm.pairwise_iff (fun hab x hx => hab x hx.symm)).1 (List.pairwise_cons.2 ⟨?_, IH.apart⟩)
      rintro pi hpi x ⟨d1, d2⟩
      obtain ⟨y, hy, e1, e2, e3⟩ := hfill.items pi hpi
      obtain ⟨hz, hhz, he⟩ := List.mem_map.1 (hinv.hazards.mem_iff.2 (List.mem_map_of_mem (f := fun pi : PlacedItem (Rounded r) => pi.haz.erase) hpi))
      have f1 : hz.shape.val = pi.shape.val := congrArg (fun h : Hazard (Rounded r) => h.shape.val) he
      have f2 : hz.entity = pi.entity := congrArg (fun h : Hazard (Rounded r) => h.entity) he
      rw [hme] at d1
      have hd := hdis hz (List.mem_append.2 (.inr hhz)) (by
        intro hm
        obtain ⟨_, _, _, _, hz', _⟩ := hirr hm
        rw [f2] at hz'
        cases hz') (by rw [f2]; rfl)
      rw [f1, e2] at hd
      refine shallow hd kt (Q' := inst.meant pi) ?_ x d1 d2
      unfold BPInstance.meant
      rw [hy]
      exact key1 y (List.mem_of_getElem? hy) pi.dt _ (.direct e3) (hT' pi hpi)

/-- C75: the layouts in a solution of the optimizer are feasible up to the roundoff: for every layout there are the
tests after which its items were placed, and if what was compared in them was in general position and no two placements are equal, then
the placements as they are meant overlap nothing, and stick out, by no more than the error. -/
theorem C75_solutions_nearly_feasible {R : Type*} (st : r.Standard u) (hu : u ≤ 1 / 256) {lenv : LEnv (Rounded r) n R} {env : Env (Rounded r)} {η : ℝ} (ht : env.tr.Accurate η)
    (hη : η < 1 / 2) {M' ε' w δ : ℚ} (hf : env.f.TolerantIn M' ε') {cfg : LbfConfig} {addr : ℕ → ℕ → ℕ} {fuel : ℕ} {inst : BPInstance (Rounded r) n} (hb : inst.Built env)
    {M T : ℚ} (hs : ∀ x ∈ inst.items, ∀ p ∈ x.1.shape.points, p.UpTo M) {ε : ℝ} (hε : ε = (u : ℝ) * (7 * M + T) + 6 * η * M) {g : R} {sol : Solution (Rounded r) n}
    {p : BPProblem (Rounded r) n} (h : lbfSolveBP lenv env cfg addr fuel inst g = some (sol, p)) :
    ∀ sn ∈ sol.snapshots, ∃ (l : Layout (Rounded r) n) (ts : List (Trial (Rounded r) n)), l.Filled env inst ts ∧ sn.bin = l.bin ∧ sn.placed = l.placed ∧
      ((sn.placed.values.map fun pi => (pi.itemId, pi.dt)).Nodup → (∀ pi ∈ sn.placed.values, pi.dt.UpTo T) →
        (∀ q ∈ ts, q.engine.Rounds q.shape q.ignored u M' ε' w δ) → NearlyFeasible ε inst sn.bin sn.placed.values) := by
  intro sn hsn
  obtain ⟨l, ts, hfill, e1, e2⟩ := lbfSolveBP_filled hb.ids h sn hsn
  refine ⟨l, ts, hfill, e1, e2, fun h1 h2 h3 => ?_⟩
  rw [e1, e2] at *
  exact C75_nearly_feasible st hu ht hη hf hb hs hε hfill h1 h2 h3

end Jagua
