import Verif.Lemmas.Rebuild
import Verif.Props.Compose
import Verif.Props.Parser
import Verif.Spec.RebuildExamples

/-!
# C56: solutions can be written and read again
-/

set_option linter.unusedSectionVars false

namespace Jagua

variable {K : Type*} [Field K] [LinearOrder K] [IsStrictOrderedRing K] {n : ℕ}

theorem Rebuilt.same {env : Env K} {inst : BPInstance K n} {t : Transf K} (rt : t.IsRigid) {a b : PlacedItem K} (h : Rebuilt env inst.items t t a b)
    (ha : a.itemId < inst.items.length) (hok : a.Ok env inst.cat) : a.Same env.tr b := by
  obtain ⟨x, hx⟩ : ∃ x, inst.items[a.itemId]? = some x := ⟨_, List.getElem?_eq_getElem ha⟩
  obtain ⟨h1, h2⟩ := h.ok x hx
  have hcat : inst.cat a.itemId = x.1 := by unfold BPInstance.cat catOf; rw [hx]
  have hdt : Transf.fromDt env.tr b.dt = Transf.fromDt env.tr a.dt := by rw [h.dt, rt.cancel_inverse]
  refine ⟨h.item, by rw [h1, hok.1, hcat], hdt, by rw [h2, hok.2, hcat, hdt]⟩

theorem rebuild_bp {env : StripEnv K} (hu : env.tr.Unit) (hp : env.tr.Polar) {inst : BPInstance K n} (hbuilt : inst.Built env.toEnv)
    (hpre : ∀ x ∈ inst.items, x.1.pretransform.IsRigid) (hpreb : ∀ x ∈ inst.bins, x.1.pretransform.IsRigid)
    {sol : Solution K n} (hS : SolutionIn env.toEnv inst sol) (hne : ∀ sn ∈ sol.snapshots, sn.placed.values ≠ [] ∧ NoDoubles env.tr sn.placed.values)
    (addr0 : ℕ) (addr : ℕ → ℕ → ℕ) :
    ∃ js sol', composeSolution env.tr (.bp inst) sol = some js ∧
      buildSolution env addr0 addr (.bp inst) js.layouts = some sol' ∧
      List.Forall₂ (fun sn sn' : LayoutSnapshot K n => sn'.bin = sn.bin ∧ sn'.usage = sn.usage ∧
        List.Forall₂ (PlacedItem.Same env.tr) sn.placed.values sn'.placed.values) sol.snapshots sol'.snapshots ∧
      sol'.usage = sol.usage ∧ sol'.placed = sol.placed ∧ sol'.target = sol.target ∧ sol'.binQtys = sol.binQtys := by
  obtain ⟨jls, p', e1, e2, e3, e4, e5⟩ := buildBP_ok hu hp hbuilt hpre hpreb addr sol.snapshots [] 0 ⟨BPProblem.new inst, []⟩
    (BPState.inv_new hbuilt) rfl
    (fun sn hsn => ⟨(hS.snaps sn hsn).bin, (hne sn hsn).1, (hS.snaps sn hsn).items, (hne sn hsn).2⟩)
    (by
      intro b x hx
      have := hS.stock b
      rw [hx, Option.map_some] at this
      obtain ⟨c, -, hc⟩ := Option.map_eq_some_iff.1 this
      rw [List.nil_append]
      dsimp only at hc
      omega) .nil
  rw [List.nil_append] at e5
  obtain ⟨rs, sol', p'', f1, f2, f3, f4, f5⟩ := e3.createSolution none (by simp)
  dsimp only at f1 f2 f3 f4 f5
  rw [e4] at f1 f4
  have hS' : SolutionIn env.toEnv inst sol' := by
    have := f5.sols sol' (by simp)
    have hi : p''.inst = inst := by rw [f3]; exact e4
    rw [hi] at this
    exact this
  have hF : List.Forall₂ (fun sn sn' : LayoutSnapshot K n => sn'.bin = sn.bin ∧ sn'.usage = sn.usage ∧
        List.Forall₂ (PlacedItem.Same env.tr) sn.placed.values sn'.placed.values) sol.snapshots sol'.snapshots := by
    rw [f4]
    dsimp only
    rw [List.forall₂_map_right_iff]
    refine forall₂_trans hS.snaps e5 f1 ?_
    intro sn l r hsn hl hr
    have hv := hr.snapView
    unfold LayoutSnapshot.view Layout.view at hv
    simp only [Prod.mk.injEq] at hv
    obtain ⟨q, hq⟩ := hsn.bin
    have hplaced : List.Forall₂ (PlacedItem.Same env.tr) sn.placed.values r.2.placed.values := by
      rw [hv.2.2]
      exact forall₂_imp_mem hl.2 fun a b ha _ hR => hR.same (hpreb _ (List.mem_of_getElem? hq)) (hsn.items a ha) (hsn.valid.ok a ha)
    refine ⟨hv.2.1.trans hl.1, ?_, hplaced⟩
    rw [hr.snap.valid.usage, hsn.valid.usage, hv.2.1, hl.1]
    rw [Forall₂.map_eq hplaced (f := fun a => a.shape.val.area) (g := fun a => a.shape.val.area) fun a b h => by rw [h.shape]]
  refine ⟨⟨sol.usage, jls⟩, sol', ?_, ?_, hF, ?_, ?_, ?_, ?_⟩
  · unfold composeSolution
    rw [e1]; rfl
  · unfold buildSolution buildBP
    dsimp only
    rw [e2, Option.bind_some, f2]
    rfl
  · rw [hS.usage, hS'.usage]
    rw [Forall₂.map_eq hF (f := fun sn => sn.bin.area * sn.usage) (g := fun sn => sn.bin.area * sn.usage) fun a b h => by rw [h.1, h.2.1],
      Forall₂.map_eq hF (f := fun sn => sn.bin.area) (g := fun sn => sn.bin.area) fun a b h => by rw [h.1]]
  · apply List.ext_getElem?
    intro i
    rw [hS.placed, hS'.placed]
    rw [Forall₂.map_eq hF (f := fun sn => copiesIn sn.placed i) (g := fun sn => copiesIn sn.placed i) fun a b h => by
      unfold copiesIn
      exact Forall₂.countP (fun x y hxy => by rw [hxy.item]) h.2.2]
  · rw [hS.target, hS'.target]
  · refine hS'.stock.unique ?_
    have := hS.stock
    have e : (fun b => sol.snapshots.countP fun sn => decide (sn.bin.id = b)) = fun b => sol'.snapshots.countP fun sn => decide (sn.bin.id = b) := by
      funext b
      exact Forall₂.countP (fun x y hxy => by rw [hxy.1]) hF
    rw [← e]
    exact this

/-- C56, bin packing: a solution of a problem can be written, and what is written can be read. The solution that is read has the same layouts in
the same order, with the same items at the same places in the same bins, and the same statistics. Layouts must not be empty, and no item may be at the
same place as another copy of it. -/
theorem C56_bin_packing {env : StripEnv K} (hu : env.tr.Unit) (hp : env.tr.Polar) {st : BPState K n} (h : st.Reachable env.toEnv)
    (hpre : ∀ x ∈ st.p.inst.items, x.1.pretransform.IsRigid) (hpreb : ∀ x ∈ st.p.inst.bins, x.1.pretransform.IsRigid)
    {sol : Solution K n} (hsol : sol ∈ st.sols) (hne : ∀ sn ∈ sol.snapshots, sn.placed.values ≠ [] ∧ NoDoubles env.tr sn.placed.values)
    (addr0 : ℕ) (addr : ℕ → ℕ → ℕ) :
    ∃ js sol', composeSolution env.tr (.bp st.p.inst) sol = some js ∧
      buildSolution env addr0 addr (.bp st.p.inst) js.layouts = some sol' ∧
      List.Forall₂ (fun sn sn' : LayoutSnapshot K n => sn'.bin = sn.bin ∧ sn'.usage = sn.usage ∧
        List.Forall₂ (PlacedItem.Same env.tr) sn.placed.values sn'.placed.values) sol.snapshots sol'.snapshots ∧
      sol'.usage = sol.usage ∧ sol'.placed = sol.placed ∧ sol'.target = sol.target ∧ sol'.binQtys = sol.binQtys :=
  rebuild_bp hu hp h.inv.built hpre hpreb (h.inv.sols sol hsol) hne addr0 addr

/-- What one layout becomes, strip packing. -/
theorem Rebuilt.moved {env : Env K} (hu : env.tr.Unit) {inst : SPInstance K} {x y : K} {a b : PlacedItem K}
    (h : Rebuilt env inst.items (Transf.translM x y) (Transf.translM 0 0) a b)
    (ha : a.itemId < inst.items.length) (hok : a.Ok env inst.cat) : a.SameMoved env.tr (-x) (-y) b := by
  obtain ⟨z, hz⟩ : ∃ z, inst.items[a.itemId]? = some z := ⟨_, List.getElem?_eq_getElem ha⟩
  obtain ⟨h1, h2⟩ := h.ok z hz
  have hcat : inst.cat a.itemId = z.1 := by unfold SPInstance.cat catOf; rw [hz]
  have rd : (Transf.fromDt env.tr a.dt).IsRigid := .rotTransl hu _ _ _
  have hinv : (Transf.translM x y).inverse = Transf.translM (-x) (-y) := by
    rw [(Transf.IsRigid.transl x y).inverse_eq]
    simp [Transf.translM]
  have hdt : Transf.fromDt env.tr b.dt = Transf.dotProd (Transf.translM (-x) (-y)) (Transf.fromDt env.tr a.dt) := by
    rw [h.dt, ← empty_eq_translM, empty_dotProd, hinv]
  have hpl : ∀ v : Point K, v.transform (Transf.fromDt env.tr b.dt) = transPt (-x) (-y) (v.transform (Transf.fromDt env.tr a.dt)) := by
    intro v
    rw [hdt, transform_dot rd, transform_translM]
  refine ⟨h.item, by rw [h1, hok.1, hcat], hpl, ?_, ?_⟩
  · rw [h2, hok.2, hcat]
    unfold SPoly.transform
    dsimp only
    rw [List.map_map]
    exact List.map_congr_left fun v _ => hpl v
  · rw [h2, hok.2, hcat]
    rfl

/-- the area of a strip -/
theorem Bin.IsStrip.area {env : StripEnv K} {b : Bin K n} (h : b.IsStrip env) : b.area = b.outer.val.bbox.width * b.outer.val.bbox.height := by
  obtain ⟨addr, rect, h⟩ := h
  obtain ⟨poly, h1, _, h2, _, _, _, _, _, h3⟩ := Bin.fromStrip_spec h
  rw [sub_zero] at h3
  rw [h3, h2]
  obtain ⟨hv, hs⟩ := SPoly.ofRect_spec h1
  obtain ⟨-, -, k3, k4, k5, -⟩ := SPoly.new_spec h1
  have e : signedArea poly.points = signedArea (rectPoly poly.bbox.xMin poly.bbox.yMin poly.bbox.xMax poly.bbox.yMax) := by
    unfold signedArea
    rw [(hs.map _).sum_eq]
  have e2 : signedArea (rectPoly poly.bbox.xMin poly.bbox.yMin poly.bbox.xMax poly.bbox.yMax) = poly.bbox.width * poly.bbox.height := by
    rw [← calculateArea_eq]
    exact calculateArea_rect poly.bbox
  have hpos : 0 < poly.bbox.width * poly.bbox.height := mul_pos (sub_pos.2 hv.1) (sub_pos.2 hv.2)
  rw [← e2, ← e] at hpos ⊢
  rw [k4, k5]
  rw [k5] at hpos
  split_ifs at hpos ⊢ with hc
  · rw [signedArea_reverse, abs_of_neg hc]
  · exact abs_of_nonneg (not_lt.1 hc)

theorem rebuild_sp {env : StripEnv K} (hu : env.tr.Unit) (hp : env.tr.Polar) {inst : SPInstance K} (hbuilt : inst.Built)
    (hpre : ∀ x ∈ inst.items, x.1.pretransform.IsRigid) (hh : 0 < inst.stripHeight)
    {sol : Solution K n} {sn : LayoutSnapshot K n} (hS : SPSolIn env inst sol sn)
    (hbin : sn.bin.pretransform = Transf.translM sn.bin.outer.val.bbox.xMin sn.bin.outer.val.bbox.yMin) (hne : NoDoubles env.tr sn.placed.values)
    (addr0 : ℕ) (addr : ℕ → ℕ → ℕ) :
    ∃ js sol' sn', composeSolution env.tr (.sp (n := n) inst) sol = some js ∧
      buildSolution env addr0 addr (.sp (n := n) inst) js.layouts = some sol' ∧ sol'.snapshots = [sn'] ∧
      sn'.bin.outer.val.points = rectPoly 0 0 sn.bin.outer.val.bbox.width inst.stripHeight ∧
      List.Forall₂ (PlacedItem.SameMoved env.tr (-sn.bin.outer.val.bbox.xMin) (-sn.bin.outer.val.bbox.yMin)) sn.placed.values sn'.placed.values ∧
      sol'.placed = sol.placed ∧ sol'.target = sol.target ∧
      (sn.bin.outer.val.bbox.height = inst.stripHeight → sn'.usage = sn.usage ∧ sol'.usage = sol.usage) := by
  have hrect := hS.snap.strip.bbox_valid
  have hw : 0 < sn.bin.outer.val.bbox.width := sub_pos.2 hrect.1
  have hv : (⟨0, 0, sn.bin.outer.val.bbox.width, inst.stripHeight⟩ : AARect K).Valid := ⟨hw, hh⟩
  obtain ⟨b', hb', k1, k2, k3⟩ := Bin.fromStrip_valid (n := n) env.toEnv addr0 env.stripValue hv
  have hpb' := Bin.fromStrip_pre hb'
  dsimp only at hpb' k1 k3
  have hnew : SPProblem.new env n addr0 inst sn.bin.outer.val.bbox.width = some
      { inst := inst, layout := Layout.new 0 b', missing := inst.items.map fun (x : Item K × ℕ) => (x.2 : ℤ), layoutCounter := 0
        solutionCounter := 0 } := by
    unfold SPProblem.new AARect.new
    rw [if_pos (.inl hv)]
    dsimp only
    rw [hb']
    rfl
  obtain ⟨hI0, -⟩ := SPState.inv_new hbuilt hnew
  obtain ⟨qs, p', r1, r2, r3, r4, r5, r6, r7, r8⟩ := foldlM_readPlacedSP (b := sn.bin) (b' := b') hu hp hpre (by rw [hbin]; exact .transl _ _)
    (by rw [hpb']; exact .transl _ _) (addr 0) sn.placed.values [] 0 _ hI0.core rfl rfl rfl .nil hS.snap.items (by simpa using hne)
  rw [List.nil_append, hbin, hpb'] at r8
  have hI1 : SPState.Inv env ⟨p', []⟩ := hI0.update r3 r4 r7.ge (.inl (by
    rw [r5, r6]
    exact List.mem_cons_self))
  obtain ⟨sol', l, g1, g2, g3, g4, sn', g5, g6⟩ := hI1.createSolution
  dsimp only at g1 g5 g6
  rw [r4] at g5
  unfold LayoutSnapshot.view Layout.view at g6
  simp only [Prod.mk.injEq] at g6
  have hF : List.Forall₂ (PlacedItem.SameMoved env.tr (-sn.bin.outer.val.bbox.xMin) (-sn.bin.outer.val.bbox.yMin)) sn.placed.values sn'.placed.values := by
    rw [g6.2.2]
    exact forall₂_imp_mem r8 fun a b ha _ hR => hR.moved hu (hS.snap.items a ha) (hS.snap.valid.ok a ha)
  refine ⟨⟨sol.usage, [⟨.strip sn.bin.outer.val.bbox.width inst.stripHeight, qs, sn.usage⟩]⟩, sol', sn', ?_, ?_, g5.snaps, ?_, hF, ?_, ?_, ?_⟩
  · unfold composeSolution composeLayout
    rw [hS.snaps, List.mapM_cons]
    have : sn.placed.values.mapM (composePlaced env.tr (Instance.sp (n := n) inst).items sn.bin) = some qs := r1
    rw [this]
    rfl
  · unfold buildSolution buildSP
    dsimp only
    rw [hnew, Option.bind_some, r2, Option.bind_some, g1]
    rfl
  · rw [g6.2.1, r5]; exact k1
  · apply List.ext_getElem?
    intro i
    rw [hS.placed, g5.placed]
    congr 1
    funext _
    unfold copiesIn
    exact (Forall₂.countP (fun x y hxy => by rw [hxy.item]) hF).symm
  · rw [hS.target, g5.target]
  · intro he
    have harea : sn'.bin.area = sn.bin.area := by
      rw [g6.2.1, r5, k3, hS.snap.strip.area, he]; ring
    have hus : sn'.usage = sn.usage := by
      rw [g5.snap.valid.usage, hS.snap.valid.usage, harea]
      rw [Forall₂.map_eq hF (f := fun a => a.shape.val.area) (g := fun a => a.shape.val.area) fun a b h => by rw [h.area]]
    exact ⟨hus, by rw [g5.usage, hS.usage, hus, harea]⟩

/-- C56, strip packing: a solution of a problem can be written, and what is written can be read. The solution that is read has one strip,
from the origin, as wide as the written one and with the height of the instance. In it are the same items in the same order, moved as the strip was. The
statistics of items are the same, and so is the usage if the strip that was written has the height of the instance. No item may be at the same
place as another copy of it. (The origin of a strip is its lower left corner, unless a strip was made with the sides of its rectangle swapped.) -/
theorem C56_strip_packing {env : StripEnv K} (hu : env.tr.Unit) (hp : env.tr.Polar) {st : SPState K n} (h : st.Reachable env)
    (hpre : ∀ x ∈ st.p.inst.items, x.1.pretransform.IsRigid) (hh : 0 < st.p.inst.stripHeight)
    {sol : Solution K n} (hsol : sol ∈ st.sols) {sn : LayoutSnapshot K n} (hsn : sol.snapshots = [sn])
    (hbin : sn.bin.pretransform = Transf.translM sn.bin.outer.val.bbox.xMin sn.bin.outer.val.bbox.yMin) (hne : NoDoubles env.tr sn.placed.values)
    (addr0 : ℕ) (addr : ℕ → ℕ → ℕ) :
    ∃ js sol' sn', composeSolution env.tr (.sp (n := n) st.p.inst) sol = some js ∧
      buildSolution env addr0 addr (.sp (n := n) st.p.inst) js.layouts = some sol' ∧ sol'.snapshots = [sn'] ∧
      sn'.bin.outer.val.points = rectPoly 0 0 sn.bin.outer.val.bbox.width st.p.inst.stripHeight ∧
      List.Forall₂ (PlacedItem.SameMoved env.tr (-sn.bin.outer.val.bbox.xMin) (-sn.bin.outer.val.bbox.yMin)) sn.placed.values sn'.placed.values ∧
      sol'.placed = sol.placed ∧ sol'.target = sol.target ∧
      (sn.bin.outer.val.bbox.height = st.p.inst.stripHeight → sn'.usage = sn.usage ∧ sol'.usage = sol.usage) := by
  have hI := h.inv
  obtain ⟨sn0, hS⟩ := hI.sols sol hsol
  obtain rfl : sn0 = sn := by have := hS.snaps.symm.trans hsn; simpa using this
  exact rebuild_sp hu hp hI.core.built hpre hh hS hbin hne addr0 addr

/-! ## From the file with the instance to a solution that is read again -/

theorem noDoubles_of_feasible {env : Env K} {items : List (Item K × ℕ)} (hfine : ∀ x ∈ items, x.1.shape.points ≠ []) {b : Bin K n}
    {placed : List (PlacedItem K)} (hf : Feasible b placed) (hitems : ∀ pi ∈ placed, ∃ x, items[pi.itemId]? = some x ∧
      pi.shape.val = x.1.shape.transform (Transf.fromDt env.tr pi.dt)) : NoDoubles env.tr placed := by
  refine List.Pairwise.imp_of_mem ?_ hf.apart
  rintro p q hp hq hd ⟨e1, e2⟩
  obtain ⟨x, hx, ex⟩ := hitems p hp
  obtain ⟨y, hy, ey⟩ := hitems q hq
  rw [← e1, hx] at hy
  cases hy
  rw [ex, ey, e2] at hd
  obtain ⟨v, hv⟩ := List.exists_mem_of_ne_nil _ (hfine x (List.mem_of_getElem? hx))
  have : v.transform (Transf.fromDt env.tr q.dt) ∈ region (x.1.shape.transform (Transf.fromDt env.tr q.dt)).points :=
    .inl (vertex_mem_bdry (List.mem_map_of_mem hv))
  exact Set.disjoint_left.1 hd this this

variable {R : Type*}

theorem lbfSolveBP_in {lenv : LEnv K n R} {env : Env K} {cfg : LbfConfig} {addr : ℕ → ℕ → ℕ} {fuel : ℕ} {inst : BPInstance K n} {r : R}
    (hf : env.f = Fpa.exact) (hu : env.tr.Unit) (hp : env.tr.Polar) (hb : inst.Built env)
    (hbins : ∀ b ∈ inst.bins, b.1.Shapes) (hitems : ∀ x ∈ inst.items, x.1.shape.Proper ∧ signedArea x.1.shape.points ≠ 0)
    {sol : Solution K n} {p : BPProblem K n} (h : lbfSolveBP lenv env cfg addr fuel inst r = some (sol, p)) :
    SolutionIn env inst sol ∧ ∀ sn ∈ sol.snapshots, sn.placed.values ≠ [] := by
  have hfine : ∀ x ∈ inst.items, x.1.Fine := fun x hx => ⟨(hitems x hx).1, (hitems x hx).2⟩
  unfold lbfSolveBP at h
  split_ifs at h
  obtain ⟨order, ho, h⟩ := Option.bind_eq_some_iff.1 h
  obtain ⟨s, hs, h⟩ := Option.bind_eq_some_iff.1 h
  have hL := lbfFoldBP_ok (BPInstance.honest_exact hf hu hbins hfine) hu hp hfine order (LbfBP.start hb) hs
  obtain ⟨rs, sol', p', hF, e1, e2, e3, e4⟩ := hL.inv.createSolution none (by simp)
  dsimp only at hF e1 e2 e3 e4
  rw [h] at e1
  simp only [Option.some.injEq, Prod.mk.injEq] at e1
  obtain ⟨rfl, rfl⟩ := e1
  constructor
  · have := e4.sols sol (by simp)
    rw [show p.inst = inst by rw [e2]; exact hL.same] at this
    exact this
  · intro sn hsn
    rw [e3] at hsn
    obtain ⟨r, hr, rfl⟩ := List.mem_map.1 hsn
    obtain ⟨l, hl, hR⟩ := Forall₂.exists_left hF hr
    have hv := hR.snapView
    unfold LayoutSnapshot.view Layout.view at hv
    simp only [Prod.mk.injEq] at hv
    rw [hv.2.2]
    exact hL.nonempty l hl

theorem lbfSolveSP_in {lenv : LEnv K n R} {env : StripEnv K} {cfg : LbfConfig} {addr : ℕ → ℕ → ℕ} {addrs : ℕ → ℕ → ℕ → ℕ}
    {addr0 addr1 : ℕ} {addrs1 : ℕ → ℕ} {fuel : ℕ} {inst : SPInstance K} {r : R}
    (hf : env.f = Fpa.exact) (hpoi : PoiOfRects env.poi) (hu : env.tr.Unit) (hp : env.tr.Polar) (htol : 0 < env.tolerance) (hb : inst.Built)
    (hitems : ∀ x ∈ inst.items, x.1.shape.Proper ∧ signedArea x.1.shape.points ≠ 0)
    {sol : Solution K n} {p : SPProblem K n}
    (h : lbfSolveSP lenv env cfg addr addrs addr0 addr1 addrs1 fuel inst r = some (sol, p)) : ∃ sn, SPSolIn env inst sol sn := by
  have hfine : ∀ x ∈ inst.items, x.1.Fine := fun x hx => ⟨(hitems x hx).1, (hitems x hx).2⟩
  unfold lbfSolveSP at h
  split_ifs at h
  dsimp only at h
  obtain ⟨p0, hp0, h⟩ := Option.bind_eq_some_iff.1 h
  obtain ⟨order, ho, h⟩ := Option.bind_eq_some_iff.1 h
  obtain ⟨s, hs, h⟩ := Option.bind_eq_some_iff.1 h
  obtain ⟨p1, hp1, h⟩ := Option.bind_eq_some_iff.1 h
  obtain ⟨hL, hdone⟩ := lbfFoldSP_ok hf hpoi hu hp hfine order (LbfSP.start hb hp0) hs
  obtain ⟨hL1, -, -, -, -⟩ := hL.fit hf hpoi hu htol hfine hp1
  obtain ⟨sol', l, e1, -, -, -, sn', hsol, -⟩ := hL1.inv.createSolution
  dsimp only at e1 hsol
  rw [h] at e1
  simp only [Option.some.injEq, Prod.mk.injEq] at e1
  obtain ⟨rfl, rfl⟩ := e1
  rw [hL1.same] at hsol
  exact ⟨sn', hsol⟩

/-- C56, bin packing: what is written for a solution of the optimizer can be read again, and gives the same solution. -/
theorem C56_optimizer_bins {penv : PEnv K} {env : StripEnv K} (henv : env.toEnv = penv.toEnv) {cfg : ParserConfig K} (hpoi : PoiInside penv.poi)
    (hsurr : KeepsShape penv.surr) (hz : penv.tr.AtZero)
    (hf : penv.f = Fpa.exact) (hu : penv.tr.Unit) (hp : penv.tr.Polar)
    (ht : ∀ tol, cfg.tolerance = some tol → tol < 1)
    {ji : JsonInstance K} (h : ji.Sound) {bs : List (JsonBin K)} (hb : ji.bins = some bs) {addr addr' : ℕ → ℕ → ℕ → ℕ} {inst : BPInstance K n}
    (hparse : parseInstance penv cfg n addr addr' ji = some (.bp inst))
    {lenv : LEnv K n R} {lcfg : LbfConfig} {addr₁ : ℕ → ℕ → ℕ} {fuel : ℕ} {r : R} {sol : Solution K n} {p : BPProblem K n}
    (hsol : lbfSolveBP lenv penv.toEnv lcfg addr₁ fuel inst r = some (sol, p)) (addr0 : ℕ) (addr₂ : ℕ → ℕ → ℕ) :
    ∃ js sol', composeSolution penv.tr (.bp inst) sol = some js ∧
      buildSolution env addr0 addr₂ (.bp inst) js.layouts = some sol' ∧
      List.Forall₂ (fun sn sn' : LayoutSnapshot K n => sn'.bin = sn.bin ∧ sn'.usage = sn.usage ∧
        List.Forall₂ (PlacedItem.Same penv.tr) sn.placed.values sn'.placed.values) sol.snapshots sol'.snapshots ∧
      sol'.usage = sol.usage ∧ sol'.placed = sol.placed ∧ sol'.target = sol.target ∧ sol'.binQtys = sol.binQtys := by
  obtain ⟨h1, h2⟩ := parse_qualities hparse hb
  obtain ⟨i, e1, hri, hrb, hnew⟩ := parse_bp (n := n) (cfg := cfg) hpoi hsurr hz ht h hb h1 h2 addr addr'
  rw [hparse] at e1
  have := logParsed_some e1.symm
  simp only [Instance.bp.injEq] at this
  subst this
  have hB : inst.Built penv.toEnv := ⟨hnew, fun x hx => (hrb.fine x hx).1⟩
  obtain ⟨k1, -, -⟩ := C44_bin_packing hf hu hp hB (fun x hx => (hrb.fine x hx).2) hri.fine hsol
  obtain ⟨m1, m2⟩ := lbfSolveBP_in hf hu hp hB (fun x hx => (hrb.fine x hx).2) hri.fine hsol
  have e : env.tr = penv.tr := by rw [henv]
  rw [← henv] at hB m1
  rw [← e] at hu hp k1 ⊢
  refine rebuild_bp hu hp hB hri.rigid hrb.rigid m1 (fun sn hsn => ⟨m2 sn hsn, ?_⟩) addr0 addr₂
  obtain ⟨-, g2, g3⟩ := k1 sn hsn
  exact noDoubles_of_feasible (env := env.toEnv) (items := inst.items) (fun x hx => (hri.fine x hx).1.wf.nonempty) g2 fun pi hpi => by
    obtain ⟨x, a1, -, a2, -⟩ := g3 pi hpi
    exact ⟨x, a1, a2⟩

/-- C56, strip packing: what is written for a solution of the optimizer can be read again, and gives the same solution with the strip moved
to the origin. -/
theorem C56_optimizer_strip {penv : PEnv K} {env : StripEnv K} (henv : env.toEnv = penv.toEnv) {cfg : ParserConfig K} (hpoi : PoiInside penv.poi)
    (hsurr : KeepsShape penv.surr) (hz : penv.tr.AtZero)
    (hf : penv.f = Fpa.exact) (hu : penv.tr.Unit) (hp : penv.tr.Polar) (htol : 0 < env.tolerance)
    {ji : JsonInstance K} (h : ji.Sound) {height : K} (hs : ji.strip = some height) (hh : 0 < height) {addr addr' : ℕ → ℕ → ℕ → ℕ} {inst : SPInstance K}
    (hparse : parseInstance penv cfg n addr addr' ji = some (.sp inst))
    {lenv : LEnv K n R} {lcfg : LbfConfig} {addr₁ : ℕ → ℕ → ℕ} {addrs : ℕ → ℕ → ℕ → ℕ} {addr₂ addr₃ : ℕ} {addrs₁ : ℕ → ℕ} {fuel : ℕ} {r : R}
    {sol : Solution K n} {p : SPProblem K n}
    (hsol : lbfSolveSP lenv env lcfg addr₁ addrs addr₂ addr₃ addrs₁ fuel inst r = some (sol, p)) (addr0 : ℕ) (addr₄ : ℕ → ℕ → ℕ) :
    ∃ js sol' sn sn', composeSolution penv.tr (.sp (n := n) inst) sol = some js ∧ sol.snapshots = [sn] ∧
      buildSolution env addr0 addr₄ (.sp (n := n) inst) js.layouts = some sol' ∧ sol'.snapshots = [sn'] ∧
      sn'.bin.outer.val.points = rectPoly 0 0 sn.bin.outer.val.bbox.width height ∧
      List.Forall₂ (PlacedItem.SameMoved penv.tr (-sn.bin.outer.val.bbox.xMin) 0) sn.placed.values sn'.placed.values ∧
      sol'.placed = sol.placed ∧ sol'.target = sol.target ∧ sn'.usage = sn.usage ∧ sol'.usage = sol.usage := by
  obtain ⟨hstrip, hbins⟩ := C53_strip hparse inst rfl
  obtain ⟨i, e1, hri, -, hbuilt⟩ := parse_sp (n := n) (cfg := cfg) hpoi hsurr hz h.items hbins hstrip addr addr'
  rw [hparse] at e1
  have := logParsed_some e1.symm
  simp only [Instance.sp.injEq] at this
  subst this
  obtain rfl : height = inst.stripHeight := by rw [hs] at hstrip; simpa using hstrip
  have hf' : env.f = Fpa.exact := by rw [henv]; exact hf
  have e : env.tr = penv.tr := by rw [henv]
  rw [← e] at hu hp ⊢
  have hr' : PoiOfRects env.poi := by rw [henv]; exact hpoi.rects
  obtain ⟨sn, hsn, hfeas, -, hit, hcop⟩ := C44_strip_packing hf' hr' hu hp htol hbuilt hri.fine hsol
  obtain ⟨hst, hpre, hhigh⟩ := lbfSolveSP_strip hf' hr' hu hp htol hbuilt hri.fine hsol hsn
  obtain ⟨sn0, hS⟩ := lbfSolveSP_in hf' hr' hu hp htol hbuilt hri.fine hsol
  obtain rfl : sn0 = sn := by have := hS.snaps.symm.trans hsn; simpa using this
  obtain ⟨js, sol', sn', a1, a2, a3, a4, a5, a6, a7, a8⟩ := rebuild_sp hu hp hbuilt hri.rigid hh hS hpre
    (noDoubles_of_feasible (env := env.toEnv) (items := inst.items) (fun x hx => (hri.fine x hx).1.wf.nonempty) hfeas fun pi hpi => by
      obtain ⟨x, a1, -, a2, -⟩ := hit pi hpi
      exact ⟨x, a1, a2⟩) addr0 addr₄
  obtain ⟨y0, y1⟩ := hhigh hh
  obtain ⟨u1, u2⟩ := a8 (by unfold AARect.height; rw [y0, y1, sub_zero])
  rw [y0, neg_zero] at a5
  exact ⟨js, sol', sn0, sn', a1, hsn, a2, a3, a4, a5, a6, a7, u1, u2⟩

theorem exists_of_mapM {α β : Type*} {f : α → Option β} {l : List α} {bs : List β} (h : l.mapM f = some bs) {a : α} (ha : a ∈ l) :
    ∃ b ∈ bs, f a = some b := by
  induction l generalizing bs with
  | nil => cases ha
  | cons x xs ih =>
    rw [List.mapM_cons] at h
    obtain ⟨y, hy, h⟩ := Option.bind_eq_some_iff.1 h
    obtain ⟨ys, hys, h⟩ := Option.bind_eq_some_iff.1 h
    cases h
    rcases List.mem_cons.1 ha with rfl | ha
    · exact ⟨y, List.mem_cons_self, hy⟩
    · obtain ⟨b, hb, e⟩ := ih hys ha
      exact ⟨b, List.mem_cons_of_mem _ hb, e⟩

/-- C56: a layout without items is written, but a solution with such a layout is not read again: reading it panics. -/
theorem C56_empty_layout_refused {env : StripEnv K} {inst : BPInstance K n} {sol : Solution K n} {js : JsonSolution K}
    (h : composeSolution env.tr (.bp inst) sol = some js) {sn : LayoutSnapshot K n} (hsn : sn ∈ sol.snapshots) (hempty : sn.placed.values = [])
    (addr0 : ℕ) (addr : ℕ → ℕ → ℕ) : buildSolution env addr0 addr (.bp inst) js.layouts = none := by
  unfold composeSolution at h
  obtain ⟨jls, hm, rfl⟩ := Option.map_eq_some_iff.1 h
  obtain ⟨jl, hjl, hc⟩ := exists_of_mapM hm hsn
  have hnil : jl.placedItems = [] := by
    unfold composeLayout at hc
    rw [hempty] at hc
    cases hc
    rfl
  unfold buildSolution buildBP
  dsimp only
  clear h
  have key : ∀ (jls : List (JsonLayout K)) (k : ℕ) (p : BPProblem K n), jl ∈ jls → (jls.zipIdx k).foldlM (readLayoutBP env.toEnv addr) p = none := by
    intro jls
    induction jls with
    | nil => intro _ _ h; cases h
    | cons j js ih =>
      intro k p hm
      rw [List.zipIdx_cons, List.foldlM_cons]
      cases hr : readLayoutBP env.toEnv addr p (j, k) with
      | none => rfl
      | some p' =>
        rcases List.mem_cons.1 hm with rfl | hm
        · exfalso
          unfold readLayoutBP at hr
          rw [hnil] at hr
          dsimp only at hr
          split at hr
          · cases hr
          · obtain ⟨_, -, hr⟩ := Option.bind_eq_some_iff.1 hr
            split at hr <;> cases hr
        · exact ih _ _ hm
  rw [key _ _ _ hjl]
  rfl

/-! ## Concrete cases -/

/-- Non-trivial case for C56, bin packing: two layouts, one with a turned triangle and a square. -/
example : ∃ (st : BPState ℚ 2) (sol : Solution ℚ 2), Ex.lbfSenv.tr.Unit ∧ Ex.lbfSenv.tr.Polar ∧ st.Reachable Ex.lbfSenv.toEnv ∧
    (∀ x ∈ st.p.inst.items, x.1.pretransform.IsRigid) ∧ (∀ x ∈ st.p.inst.bins, x.1.pretransform.IsRigid) ∧ sol ∈ st.sols ∧
    (∀ sn ∈ sol.snapshots, sn.placed.values ≠ [] ∧ NoDoubles Ex.lbfSenv.tr sn.placed.values) ∧
    (sol.snapshots.map fun sn => sn.placed.values.length) = [2, 1] := by
  obtain ⟨st, hst⟩ : ∃ st, Ex.turnAfter Ex.turnOps = some st := Option.isSome_iff_exists.1 (by decide +kernel)
  have h : (Ex.turnAfter Ex.turnOps).bind (fun st => st.sols[0]?.map fun s => decide ((s.snapshots.map fun sn => sn.placed.values.length) = [2, 1]) &&
      decide (∀ x ∈ st.p.inst.items, x.1.pretransform = .translM 0 0) && decide (∀ x ∈ st.p.inst.bins, x.1.pretransform = .translM 0 0) &&
      decide (∀ sn ∈ s.snapshots, sn.placed.values ≠ [] ∧
        sn.placed.values.Pairwise fun a b => ¬ (a.itemId = b.itemId ∧ Transf.fromDt Ex.turns a.dt = Transf.fromDt Ex.turns b.dt))) = some true := by
    decide +kernel
  rw [hst, Option.bind_some] at h
  obtain ⟨s, hs, h⟩ := Option.map_eq_some_iff.1 h
  simp only [Bool.and_eq_true, decide_eq_true_eq] at h
  obtain ⟨⟨⟨h1, h2⟩, h3⟩, h4⟩ := h
  exact ⟨st, s, Ex.turns_unit, Ex.turns_polar, Ex.turnAfter_reachable hst, fun x hx => by rw [h2 x hx]; exact .transl _ _,
    fun x hx => by rw [h3 x hx]; exact .transl _ _, List.mem_of_getElem? hs, h4, h1⟩

/-- Non-trivial case for C56, strip packing: a strip from -4 to 14 with a turned triangle and a square. -/
example : ∃ (st : SPState ℚ 2) (sol : Solution ℚ 2) (sn : LayoutSnapshot ℚ 2), Ex.lbfSenv.tr.Unit ∧ Ex.lbfSenv.tr.Polar ∧ st.Reachable Ex.lbfSenv ∧
    (∀ x ∈ st.p.inst.items, x.1.pretransform.IsRigid) ∧ 0 < st.p.inst.stripHeight ∧ sol ∈ st.sols ∧ sol.snapshots = [sn] ∧
    sn.bin.pretransform = Transf.translM sn.bin.outer.val.bbox.xMin sn.bin.outer.val.bbox.yMin ∧ NoDoubles Ex.lbfSenv.tr sn.placed.values ∧
    sn.placed.values.length = 2 ∧ sn.bin.outer.val.bbox.xMin = -4 := by
  obtain ⟨st, hst⟩ : ∃ st, Ex.turnAfterSP Ex.turnOpsSP = some st := Option.isSome_iff_exists.1 (by decide +kernel)
  have h : (Ex.turnAfterSP Ex.turnOpsSP).bind (fun st => st.sols[0]?.bind fun s => s.snapshots.head?.map fun sn => decide (s.snapshots.length = 1) &&
      decide (∀ x ∈ st.p.inst.items, x.1.pretransform = .translM 0 0) && decide (0 < st.p.inst.stripHeight) &&
      decide (sn.bin.pretransform = Transf.translM sn.bin.outer.val.bbox.xMin sn.bin.outer.val.bbox.yMin) &&
      decide (sn.placed.values.Pairwise fun a b => ¬ (a.itemId = b.itemId ∧ Transf.fromDt Ex.turns a.dt = Transf.fromDt Ex.turns b.dt)) &&
      decide (sn.placed.values.length = 2) && decide (sn.bin.outer.val.bbox.xMin = -4)) = some true := by
    decide +kernel
  rw [hst, Option.bind_some] at h
  obtain ⟨s, hs, h⟩ := Option.bind_eq_some_iff.1 h
  obtain ⟨sn, hsn, h⟩ := Option.map_eq_some_iff.1 h
  simp only [Bool.and_eq_true, decide_eq_true_eq] at h
  obtain ⟨⟨⟨⟨⟨⟨h1, h2⟩, h3⟩, h4⟩, h5⟩, h6⟩, h7⟩ := h
  refine ⟨st, s, sn, Ex.turns_unit, Ex.turns_polar, Ex.turnAfterSP_reachable hst, fun x hx => by rw [h2 x hx]; exact .transl _ _,
    h3, List.mem_of_getElem? hs, ?_, h4, h5, h6, h7⟩
  obtain ⟨a, ha⟩ := List.length_eq_one_iff.1 h1
  rw [ha] at hsn ⊢
  simpa using hsn

/-- The cases for `C54_bin_packing` and `C54_strip_packing` also meet the hypotheses of `C56_optimizer_bins` and `C56_optimizer_strip`. -/
example : Ex.jInst.bins = some [Ex.jBin] ∧ Ex.jStrip.strip = some 4 ∧ Ex.jSenv.toEnv = Ex.jEnv.toEnv ∧ Ex.jRun.isSome ∧ Ex.jStripRun.isSome :=
  ⟨rfl, rfl, rfl, by decide +kernel, by decide +kernel⟩

/-- Non-trivial case for `C56_empty_layout_refused`: the solution of a problem in which a layout without items was registered. -/
example : ∃ (inst : BPInstance ℚ 2) (sol : Solution ℚ 2) (js : JsonSolution ℚ) (sn : LayoutSnapshot ℚ 2),
    ((inst.bins[0]?.bind fun b => (BPProblem.new inst).registerLayout (Layout.new 0 b.1)).bind fun r => r.2.createSolution none).map (·.1) = some sol ∧
    composeSolution Ex.lbfSenv.tr (.bp inst) sol = some js ∧ sn ∈ sol.snapshots ∧ sn.placed.values = [] := by
  have h : (Ex.mkInst.bind fun inst =>
      (((inst.bins[0]?.bind fun b => (BPProblem.new inst).registerLayout (Layout.new 0 b.1)).bind fun r => r.2.createSolution none).map (·.1)).bind
        fun sol => (composeSolution Ex.lbfSenv.tr (.bp inst) sol).bind fun _ => sol.snapshots.head?.map fun sn => decide (sn.placed.values.length = 0))
      = some true := by decide +kernel
  obtain ⟨inst, -, h⟩ := Option.bind_eq_some_iff.1 h
  obtain ⟨sol, hsol, h⟩ := Option.bind_eq_some_iff.1 h
  obtain ⟨js, hjs, h⟩ := Option.bind_eq_some_iff.1 h
  obtain ⟨sn, hsn, h⟩ := Option.map_eq_some_iff.1 h
  exact ⟨inst, sol, js, sn, hsol, hjs, List.mem_of_mem_head? hsn, List.length_eq_zero_iff.1 (of_decide_eq_true h)⟩

end Jagua
