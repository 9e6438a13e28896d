import Verif.Lemmas.DebugProblem
import Verif.Props.Layout
import Verif.Spec.ProblemExamples
import Verif.Spec.StripExamples

/-!
# C57: a debug build behaves like a release build

The functions with `Dbg` in their name make all checks of the `debug_assert!`s of the
code; see `Model/Debug.lean`. The grid is in `Props/DebugGrid.lean`.
-/

set_option linter.unusedSectionVars false

namespace Jagua

variable {K : Type*} [Field K] [LinearOrder K] [IsStrictOrderedRing K] {n : ℕ}

theorem runAllDbg_cons {σ ω : Type*} {run : ω → σ → Option σ} {st st' : σ} {op : ω} (h : run op st = some st') (ops : List ω) :
    runAllDbg run st (op :: ops) = runAllDbg run st' ops := by
  unfold runAllDbg
  rw [List.foldlM_cons, h]
  rfl

theorem CDEOp.runDbg_eq {f : Fpa K} {o : SearchOracle K} {c : CDE K n} (hi : c.Inv f) (hv : c.bbox.Valid) {op : CDEOp K} (hp : op.Pre c) :
    op.runDbg f o c = op.run f o c := by
  cases op with
  | register h =>
    refine CDE.registerDbg_eq hi hv ?_ ?_
    · intro hm
      obtain ⟨x, hx, he⟩ := List.mem_map.1 hm
      exact hp x (List.mem_append.2 (.inl hx)) he
    · intro hm
      obtain ⟨x, hx, he⟩ := List.mem_map.1 hm
      exact hp x (List.mem_append.2 (.inr hx)) he
  | deregister e ci =>
    obtain ⟨h, hh, he⟩ := hp
    exact CDE.deregisterDbg_eq hi hh he ci
  | commit => exact CDE.commitDbg_eq hi
  | restore snap =>
    refine CDE.restoreDbg_eq hi hv hp.1 ?_
    intro h hh hm
    obtain ⟨s, hs, he⟩ := List.mem_map.1 hm
    exact hp.2 h hh s hs he

/-- C57: no assertion of the collision detection engine fails. Building it and any
sequence of operations has the same outcome as in a release build. -/
theorem C57_engine {f : Fpa K} {o : SearchOracle K} {bbox : AARect K} (hv : bbox.Valid) {statics : List (Hazard K)}
    (hn : (statics.map (·.entity)).Nodup) {c₀ c : CDE K n} {ops : List (CDEOp K)} (h0 : CDE.new f o n bbox statics = some c₀)
    (hr : CDERun f o c₀ ops c) :
    CDE.newDbg f o n bbox statics = some c₀ ∧ runAllDbg (CDEOp.runDbg f o) c₀ ops = some c := by
  refine ⟨(CDE.newDbg_eq hv hn).trans h0, ?_⟩
  obtain ⟨c1, h1, hi, -, -, -, hb⟩ := CDE.new_inv (n := n) (f := f) (o := o) (r := bbox) hn
  rw [h0] at h1
  obtain rfl := Option.some.inj h1
  have hv0 : c₀.bbox.Valid := by rw [hb]; exact hv
  clear h0 h1 hb
  induction hr with
  | nil c => rfl
  | @cons c op c' ops c'' hp hrun _ ih =>
    obtain ⟨c1, e1, i1, -, b1⟩ := CDEOp.run_inv (o := o) hi hp
    rw [hrun] at e1
    obtain rfl := Option.some.inj e1
    rw [runAllDbg_cons ((CDEOp.runDbg_eq hi hv0 hp).trans hrun)]
    exact ih i1 (by rw [b1]; exact hv0)

-- an engine with a registered and a lazily removed item
example : ∃ c₀ c : CDE ℚ 2, (⟨0, 0, 8, 8⟩ : AARect ℚ).Valid ∧ ([Ex.hBin].map (·.entity)).Nodup ∧
    CDE.new Fpa.exact SearchOracle.first 2 ⟨0, 0, 8, 8⟩ [Ex.hBin] = some c₀ ∧ CDERun Fpa.exact SearchOracle.first c₀ Ex.ops c ∧
    c.dynamics = [Ex.hSq] ∧ c.uncommitted = [Ex.hTri] := by
  obtain ⟨c, _, _, h1, h2, _, _, h⟩ := Ex.exists_engine
  obtain ⟨c₀, hc₀⟩ : ∃ c₀, Ex.start = some c₀ := Option.isSome_iff_exists.1 (by decide +kernel)
  rw [hc₀, Option.bind_some] at h
  exact ⟨c₀, c, ⟨by norm_num, by norm_num⟩, by decide, hc₀, Ex.runChecked_run h, h1, h2⟩

/-- C57: no assertion fails in a query, and the answers are those of a release build. -/
theorem C57_queries {f : Fpa K} {o : SearchOracle K} {c : CDE K n} (hr : c.Reachable f o) (irr det : List (HazardEntity K)) :
    (∀ shape, c.polyCollidesDbg f shape irr = c.polyCollides f shape irr) ∧
    (∀ poles piers, c.surrogateCollidesDbg poles piers irr = c.surrogateCollides poles piers irr) ∧
    (∀ poles piers shape, c.surrogateOrPolyCollidesDbg f poles piers shape irr = c.surrogateOrPolyCollides f poles piers shape irr) ∧
    (∀ e, c.edgeDefinitelyCollidesDbg e irr = c.edgeDefinitelyCollides e irr) ∧
    (∀ ci, c.circleDefinitelyCollidesDbg ci irr = c.circleDefinitelyCollides ci irr) ∧
    (∀ q, c.hazardsWithinDbg q irr det = c.hazardsWithin q irr det) ∧
    (∀ shape, c.collectPolyCollisionsDbg f shape irr det = c.collectPolyCollisions f shape irr det) ∧
    (∀ poles piers, c.collectSurrogateCollisionsDbg poles piers irr det = c.collectSurrogateCollisions poles piers irr det) :=
  ⟨fun _ => CDE.polyCollidesDbg_eq hr.inv _ _, fun _ _ => CDE.surrogateCollidesDbg_eq hr.inv _ _ _,
    fun _ _ _ => CDE.surrogateOrPolyCollidesDbg_eq hr.inv _ _ _ _, fun _ => CDE.edgeDefinitelyCollidesDbg_eq hr.inv _ _,
    fun _ => CDE.circleDefinitelyCollidesDbg_eq hr.inv _ _, fun _ => CDE.hazardsWithinDbg_eq hr.inv _ _ _,
    fun _ => CDE.collectPolyCollisionsDbg_eq hr.inv _ _ _, fun _ _ => CDE.collectSurrogateCollisionsDbg_eq hr.inv _ _ _ _⟩

-- with both answers
example : ∃ c : CDE ℚ 2, c.Reachable Fpa.exact SearchOracle.first ∧ c.polyCollidesDbg Fpa.exact Ex.tri [] = some false ∧
    c.polyCollidesDbg Fpa.exact Ex.zone [] = some true := by
  obtain ⟨c, h, _, _, _, _, _, hc⟩ := Ex.exists_engine
  have h1 : (Ex.start.bind (Ex.runChecked Ex.ops)).map (fun c => (c.polyCollidesDbg Fpa.exact Ex.tri [], c.polyCollidesDbg Fpa.exact Ex.zone []))
      = some (some false, some true) := by decide +kernel
  rw [hc] at h1
  simp only [Option.map_some, Option.some.injEq, Prod.mk.injEq] at h1
  exact ⟨c, h, h1.1, h1.2⟩

/-! ## Layouts -/

/-- C57: the operations of a layout. In a debug build, they have the same outcome as in a
release build, except that restoring a snapshot of another bin panics. (In a release
build, it leaves the layout with the wrong bin, see `C27_change_bin_is_not_undone`.) -/
theorem C57_layout {env : Env K} {cat : ℕ → Item K} {st : LayoutState K n} (hr : st.Reachable env cat)
    (hv : st.layout.bin.outer.val.bbox.Valid) {op : LayoutOp K n} (hp : op.Pre env cat st) (hb : op.BinOk) :
    (¬ op.MovesBack st → op.runDbg env st = op.run env st) ∧
    (op.MovesBack st → op.runDbg env st = none ∧ ∃ st', op.run env st = some st') := by
  have hi := hr.inv
  cases op with
  | place addr item dt =>
    refine ⟨fun _ => ?_, fun h => h.elim⟩
    show Option.map _ _ = Option.map _ _
    rw [hi.layout.placeItemDbg hv addr hp.1 hp.2]
  | remove key ci =>
    refine ⟨fun _ => ?_, fun h => h.elim⟩
    show Option.map _ _ = Option.map _ _
    rw [hi.layout.removeItemDbg hv key ci]
  | snapshot =>
    refine ⟨fun _ => ?_, fun h => h.elim⟩
    show Option.map _ _ = Option.map _ _
    rw [hi.layout.createSnapshotDbg]
  | restore i =>
    have hlt : i < st.snaps.length := hp
    have hs := List.getElem?_eq_getElem hlt
    obtain ⟨hsv, hid⟩ := hi.snaps _ (List.getElem_mem hlt)
    have hrest := hi.layout.restoreDbg hv hsv
    constructor
    · intro hm
      have hbin : st.layout.bin.id = st.snaps[i].bin.id := by
        by_contra hne
        exact hm ⟨_, hs, hne⟩
      unfold LayoutOp.runDbg LayoutOp.run
      dsimp only
      rw [hs]
      dsimp only
      rw [hi.layout.restoreDbg_eq hv hsv hbin]
    · rintro ⟨s, hs', hne⟩
      rw [hs] at hs'
      obtain rfl := Option.some.inj hs'
      constructor
      · unfold LayoutOp.runDbg
        dsimp only
        rw [hs]
        dsimp only
        rw [hrest, decide_eq_false hne]
        cases st.layout.restore env st.snaps[i] <;> rfl
      · obtain ⟨st', h1, _⟩ := LayoutOp.run_inv hi (op := .restore i) hlt
        exact ⟨st', h1⟩
  | changeBin bin =>
    refine ⟨fun _ => ?_, fun h => h.elim⟩
    show Option.map _ _ = Option.map _ _
    rw [hi.layout.changeBinDbg hp hb]

-- a layout with two items, in which a third can be placed
example : ∃ st : LayoutState ℚ 2, st.Reachable Ex.env Ex.cat ∧ st.layout.bin.outer.val.bbox.Valid ∧ st.layout.placed.values.length = 2 ∧
    (LayoutOp.restore 0).Pre Ex.env Ex.cat st ∧ ¬ (LayoutOp.restore 0).MovesBack st ∧ ((LayoutOp.restore 0).runDbg Ex.env st).isSome = true := by
  obtain ⟨st, h1, h2, h3, hst⟩ := Ex.exists_layout
  have h : (Ex.mkPlain.bind (fun b => Ex.layoutRun Ex.layoutOps ⟨Layout.new 0 b, []⟩)).map (fun st =>
      decide (st.layout.bin.outer.val.bbox.xMin < st.layout.bin.outer.val.bbox.xMax) &&
      decide (st.layout.bin.outer.val.bbox.yMin < st.layout.bin.outer.val.bbox.yMax) &&
      (st.snaps[0]?.map fun s => decide (st.layout.bin.id = s.bin.id)).getD false && ((LayoutOp.restore 0).runDbg Ex.env st).isSome) = some true := by
    decide +kernel
  rw [hst] at h
  simp only [Option.map_some, Option.some.injEq, Bool.and_eq_true, decide_eq_true_eq] at h
  obtain ⟨⟨⟨a, b⟩, c⟩, d⟩ := h
  refine ⟨st, h1, ⟨a, b⟩, by simpa using congrArg List.length h2, by show 0 < st.snaps.length; rw [h3]; exact one_pos, ?_, d⟩
  rintro ⟨s, hs, hne⟩
  rw [hs] at c
  simp at c
  exact hne c

/-- C57 fails for snapshots of another bin: taking a snapshot, changing the bin and
restoring the snapshot panics in a debug build, but not in a release build. -/
theorem C57_change_bin_and_restore_panics : ∃ (st st₁ st₂ : LayoutState ℚ 2) (b : Bin ℚ 2), st.Reachable Ex.env Ex.cat ∧
    LayoutOp.snapshot.runDbg Ex.env st = some st₁ ∧ (LayoutOp.changeBin b).runDbg Ex.env st₁ = some st₂ ∧
    (LayoutOp.restore 0).Pre Ex.env Ex.cat st₂ ∧ ((LayoutOp.restore 0).run Ex.env st₂).isSome = true ∧
    (LayoutOp.restore 0).runDbg Ex.env st₂ = none := by
  obtain ⟨b0, hb0, hbb0⟩ := Ex.exists_plain
  have hr : (⟨Layout.new 0 b0, []⟩ : LayoutState ℚ 2).Reachable Ex.env Ex.cat := ⟨0, b0, [], hbb0, .nil _⟩
  have h : (Ex.mkPlain.bind fun b0 => Ex.mkBin.bind fun b => (LayoutOp.snapshot.runDbg Ex.env ⟨Layout.new 0 b0, []⟩).bind fun s1 =>
      ((LayoutOp.changeBin b).runDbg Ex.env s1).map fun s2 => decide (0 < s2.snaps.length) && ((LayoutOp.restore 0).run Ex.env s2).isSome &&
        ((LayoutOp.restore 0).runDbg Ex.env s2).isNone) = some true := by decide +kernel
  rw [hb0, Option.bind_some] at h
  obtain ⟨b, _, h⟩ := Option.bind_eq_some_iff.1 h
  obtain ⟨st₁, h1, h⟩ := Option.bind_eq_some_iff.1 h
  obtain ⟨st₂, h2, h⟩ := Option.map_eq_some_iff.1 h
  simp only [Bool.and_eq_true, decide_eq_true_eq, Option.isNone_iff_eq_none] at h
  exact ⟨_, st₁, st₂, b, hr, h1, h2, h.1.1, h.1.2, h.2⟩

/-- Placing an item twice with the same transformation panics in a debug build. -/
theorem C57_same_placement_twice_panics {env : Env K} {cat : ℕ → Item K} {st : LayoutState K n} (hr : st.Reachable env cat)
    {item : Item K} {dt : DTransf K} {pi : PlacedItem K} (hpi : pi ∈ st.layout.placed.values) (hid : pi.itemId = item.id) (hdt : pi.dt = dt)
    (addr : ℕ) : (LayoutOp.place addr item dt).runDbg env st = none := by
  have hi := hr.inv.layout
  obtain ⟨x, hx, he⟩ := List.mem_map.1 (hi.ents.mem_iff.2 (List.mem_map_of_mem (f := PlacedItem.entity) hpi))
  have hany : (st.layout.cde.dynamics.any fun x => x.entity = (PlacedItem.new env addr item dt).entity) = true := by
    rw [List.any_eq_true]
    refine ⟨x, hx, ?_⟩
    rw [decide_eq_true_eq, he]
    show HazardEntity.placedItem pi.itemId pi.dt = HazardEntity.placedItem item.id dt
    rw [hid, hdt]
  have : st.layout.cde.registerDbg env.f env.o (Hazard.new (PlacedItem.new env addr item dt).entity (PlacedItem.new env addr item dt).shape) = none := by
    unfold CDE.registerDbg
    rw [show (Hazard.new (PlacedItem.new env addr item dt).entity (PlacedItem.new env addr item dt).shape).entity =
      (PlacedItem.new env addr item dt).entity from rfl, hany]
    rfl
  show Option.map _ (Layout.placeItemDbg _ _ _ _ _) = none
  unfold Layout.placeItemDbg
  dsimp only
  rw [this]
  rfl

-- a release build accepts the second copy
example : ∃ (st : LayoutState ℚ 2) (pi : PlacedItem ℚ), st.Reachable Ex.env Ex.cat ∧ pi ∈ st.layout.placed.values ∧ pi.itemId = (Ex.cat 1).id ∧
    pi.dt = Ex.shift 6 2 ∧ ((LayoutOp.place 9 (Ex.cat 1) (Ex.shift 6 2)).run Ex.env st).isSome = true := by
  obtain ⟨st, h1, h2, h3, hst⟩ := Ex.exists_layout
  have h : (Ex.mkPlain.bind (fun b => Ex.layoutRun Ex.layoutOps ⟨Layout.new 0 b, []⟩)).map (fun st =>
      ((LayoutOp.place 9 (Ex.cat 1) (Ex.shift 6 2)).run Ex.env st).isSome && st.layout.placed.values.any fun pi =>
        decide (pi.itemId = 1) && decide (pi.dt = Ex.shift 6 2)) = some true := by decide +kernel
  rw [hst] at h
  simp only [Option.map_some, Option.some.injEq, Bool.and_eq_true, List.any_eq_true, decide_eq_true_eq] at h
  obtain ⟨ha, pi, hpi, hb, hc⟩ := h
  exact ⟨st, pi, h1, hpi, hb, hc, ha⟩

/-! ## Problems -/

/-- C57: no assertion fails in a bin packing problem. -/
theorem C57_bin_packing {env : Env K} {inst : BPInstance K n} (hb : inst.Built env) (hz : inst.Sized) {ops : List (BPOp K n)} {st : BPState K n}
    (hr : BPRun env ⟨BPProblem.new inst, []⟩ ops st) : runAllDbg (BPOp.runDbg env) ⟨BPProblem.new inst, []⟩ ops = some st := by
  have hi := BPState.inv_new hb
  have hz' : (BPState.mk (BPProblem.new inst) []).p.inst.Sized := hz
  generalize BPState.mk (BPProblem.new inst) [] = st0 at hi hr hz' ⊢
  induction hr with
  | nil st => rfl
  | @cons st op st' ops st'' hp hrun _ ih =>
    obtain ⟨st1, e1, i1, s1, -⟩ := BPOp.run_inv hi hp
    rw [hrun] at e1
    obtain rfl := Option.some.inj e1
    rw [runAllDbg_cons ((BPOp.runDbg_eq hi hz' hp).trans hrun)]
    exact ih i1 (by rw [s1]; exact hz')

-- two layouts, a solution, a restored solution
example : ∃ (inst : BPInstance ℚ 2) (st : BPState ℚ 2), inst.Built Ex.env ∧ inst.Sized ∧
    BPRun Ex.env ⟨BPProblem.new inst, []⟩ (Ex.bpOps2 ++ [.restore 0]) st ∧ st.p.layouts.length = 2 := by
  obtain ⟨inst, hi, hb⟩ := Ex.exists_inst
  have h : (Ex.mkInst.bind fun inst => (Ex.bpRun (Ex.bpOps2 ++ [.restore 0]) ⟨BPProblem.new inst, []⟩).map fun st =>
      decide (st.p.layouts.length = 2) && inst.bins.all fun b => decide (b.1.outer.val.bbox.xMin < b.1.outer.val.bbox.xMax) &&
        decide (b.1.outer.val.bbox.yMin < b.1.outer.val.bbox.yMax)) = some true := by decide +kernel
  rw [hi, Option.bind_some] at h
  obtain ⟨st, h1, h⟩ := Option.map_eq_some_iff.1 h
  simp only [Bool.and_eq_true, decide_eq_true_eq, List.all_eq_true] at h
  exact ⟨inst, st, hb, fun b hb => ⟨(h.2 b hb).1, (h.2 b hb).2⟩, Ex.bpRun_run h1, h.1⟩

/-- C57: no assertion fails in a strip packing problem. (Debug builds check for overflow,
so operations that panic for this reason panic in both.) -/
theorem C57_strip_packing {env : StripEnv K} (hoc : env.overflowChecks = true) {inst : SPInstance K} (hb : inst.Built) {addr : ℕ} {width : K}
    {p : SPProblem K n} (hp : SPProblem.new env n addr inst width = some p) {ops : List (SPOp K)} {st : SPState K n} (hr : SPRun env ⟨p, []⟩ ops st) :
    SPProblem.newDbg env n addr inst width = some p ∧ runAllDbg (SPOp.runDbg env) ⟨p, []⟩ ops = some st := by
  refine ⟨(SPProblem.newDbg_eq hoc addr inst width).trans hp, ?_⟩
  have hi := (SPState.inv_new hb hp).1
  clear hp
  generalize SPState.mk p [] = st0 at hi hr ⊢
  induction hr with
  | nil st => rfl
  | @cons st op st' ops st'' hp hrun _ ih =>
    rw [runAllDbg_cons ((SPOp.runDbg_eq hi hoc hp).trans hrun)]
    exact ih (SPOp.run_inv hi hp hrun).1

-- two items, the strip is shrunk and a solution is made
example : ∃ (p : SPProblem ℚ 2) (st : SPState ℚ 2), Ex.senv.overflowChecks = true ∧ Ex.stripInst.Built ∧
    SPProblem.new Ex.senv 2 100 Ex.stripInst 20 = some p ∧ SPRun Ex.senv ⟨p, []⟩ (Ex.spOps ++ [.solution, .fit 7 id, .restore 0]) st ∧
    st.p.layout.placed.values.length = 2 := by
  have h : ((SPProblem.new Ex.senv 2 100 Ex.stripInst 20).bind fun p =>
      (Ex.spRun (Ex.spOps ++ [.solution, .fit 7 id, .restore 0]) ⟨p, []⟩).map fun st => st.p.layout.placed.values.length) = some 2 := by decide +kernel
  obtain ⟨p, hp, h⟩ := Option.bind_eq_some_iff.1 h
  obtain ⟨st, hst, h⟩ := Option.map_eq_some_iff.1 h
  exact ⟨p, st, rfl, Ex.stripInst_built, hp, (Ex.spRun_run hst).run, h⟩

end Jagua
