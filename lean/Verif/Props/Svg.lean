import Verif.Lemmas.Svg
import Verif.Props.Rebuild
import Verif.Spec.SvgExamples

/-!
# Property C58: the picture shows the solution
-/

set_option linter.unusedSectionVars false

namespace Jagua

variable {K : Type*} [Field K] [LinearOrder K] [IsStrictOrderedRing K] {n : ℕ} {R : Type*}

/-! ## Layouts -/

/-- the base qualities of the parsed items -/
theorem ReadItems.qualities {penv : PEnv K} {cfg : ParserConfig K} {js : List (JsonItem K)} {items : List (Item K × ℕ)}
    (h : ReadItems penv cfg js items) (hq : ∀ j ∈ js, ∀ q, j.baseQuality = some q → q < nQualities) :
    ∀ x ∈ items, ∀ q, x.1.baseQuality = some q → q < nQualities := by
  intro x hx q hb
  obtain ⟨k, hk⟩ := List.mem_iff_getElem?.1 hx
  obtain ⟨j, hj, -, hr⟩ := h.get hk
  rw [hr.quality] at hb
  exact hq j (List.mem_of_getElem? hj) q hb

/-- writing the placed items -/
theorem composePlaced_mapM {tr : Trig K} {items : List (Item K × ℕ)} {b : Bin K n} {vals : List (PlacedItem K)}
    (h : ∀ pi ∈ vals, pi.itemId < items.length) : ∃ placed, vals.mapM (composePlaced tr items b) = some placed := by
  obtain ⟨bs, e, -⟩ := mapM_rel (l := vals) (f := composePlaced tr items b) (R := fun _ _ => True) fun pi hpi => by
    unfold composePlaced
    rw [List.getElem?_eq_getElem (h pi hpi)]
    exact ⟨_, rfl, trivial⟩
  exact ⟨bs, e⟩

/-- drawing a snapshot -/
theorem LayoutSnapshot.Valid.draw {env : SvgEnv K} (hk : KeepsShape env.surr) {opts : SvgOptions} {hpg : Option (HPG K)} (ho : opts.Drawable env hpg)
    (addr : ℕ → ℕ → ℕ) {inst : Instance K n} {cat : ℕ → Item K} {sn : LayoutSnapshot K n} (hv : sn.Valid env.toEnv cat) {bx b_y : K}
    (hb : sn.bin.pretransform = Transf.translM bx b_y) (hq : ∀ x ∈ inst.items, ∀ q, x.1.baseQuality = some q → q < nQualities)
    (hi : ∀ pi ∈ sn.placed.values, pi.itemId < inst.items.length) :
    ∃ svg, snapshotToSvg env opts addr inst hpg sn = some svg ∧ Drawn env inst.items bx b_y sn.bin sn.placed.values svg ∧
      (svg.quadtree = none ↔ opts.quadtree = false) := by
  obtain ⟨l, e, hl, -, h2, h3⟩ := hv.fromSnapshot
  obtain ⟨svg, e2, hd, -, hn, -, -⟩ := layoutToSvg_ok hk ho addr (inst := inst) hl (by rw [h2]; exact hb) hq (by rw [h3]; exact hi)
  refine ⟨svg, ?_, ?_, hn⟩
  · unfold snapshotToSvg
    rw [e, Option.bind_some, e2]
  · rw [← h2, ← h3]
    exact hd

/-- C58, partial: a snapshot of a layout in a bin of the parsed instance can be drawn, and the picture shows it, in the coordinates of the
input: the bin with its holes and zones, in view, and the placed items, each of them where the written output puts it.
What is missing: items with a base quality of `N_QUALITIES`, which the parser accepts, make drawing panic. -/
theorem C58_layout_partial {env : SvgEnv K} {cfg : ParserConfig K} (hpoi : PoiInside env.poi) (hsurr : KeepsShape env.surr) (hz : env.tr.AtZero)
    (hdeg : env.DegreesBack) (ht : ∀ tol, cfg.tolerance = some tol → tol < 1)
    {ji : JsonInstance K} (h : ji.Sound) (hq : ∀ j ∈ ji.items, ∀ q, j.baseQuality = some q → q < nQualities)
    {bs : List (JsonBin K)} (hb : ji.bins = some bs) {addr addr' : ℕ → ℕ → ℕ → ℕ} {inst : BPInstance K n}
    (hparse : parseInstance env.toPEnv cfg n addr addr' ji = some (.bp inst)) {opts : SvgOptions} {hpg : Option (HPG K)} (ho : opts.Drawable env hpg)
    (addr₁ : ℕ → ℕ → ℕ) {st : LayoutState K n} (hr : st.Reachable env.toEnv inst.cat) {sn : LayoutSnapshot K n} (hsn : sn ∈ st.snaps)
    (hbin : ∃ q, inst.bins[sn.bin.id]? = some (sn.bin, q)) (hi : ∀ pi ∈ sn.placed.values, pi.itemId < inst.items.length) :
    ∃ svg jl b, snapshotToSvg env opts addr₁ (.bp inst) hpg sn = some svg ∧ composeLayout env.tr (.bp inst) sn = some jl ∧
      bs[sn.bin.id]? = some b ∧ ji.ShownIn env.tr env.toRadians (cfg.tolerance = none) jl.placedItems svg ∧
      b.ShownIn (cfg.tolerance = none) svg ∧ svg.InView ∧ svg.binId = sn.bin.id ∧ (svg.quadtree = none ↔ opts.quadtree = false) := by
  obtain ⟨h1, h2⟩ := parse_qualities hparse hb
  obtain ⟨i, e1, hri, hrb, -⟩ := parse_bp (n := n) (cfg := cfg) hpoi hsurr hz ht h hb h1 h2 addr addr'
  rw [hparse] at e1
  have := logParsed_some e1.symm
  simp only [Instance.bp.injEq] at this
  subst this
  obtain ⟨q, hq'⟩ := hbin
  obtain ⟨b, hbk, -, bx, b_y, hrd⟩ := hrb.get hq'
  obtain ⟨svg, e, hd, hn⟩ := ((hr.inv.snaps sn hsn).1).draw hsurr ho addr₁ (inst := .bp inst) hrd.pre (hri.qualities hq) hi
  obtain ⟨placed, ep⟩ := composePlaced_mapM (tr := env.tr) (b := sn.bin) hi
  refine ⟨svg, ⟨.bin sn.bin.id, placed, sn.usage⟩, b, e, ?_, hbk, hd.items_shown hdeg hri ep, hd.bin_shown hrd, hd.view, hd.binId, hn⟩
  unfold composeLayout Instance.items
  dsimp only
  rw [ep]
  rfl

/-! ## Solutions -/

/-- C58, bin packing, partial: every layout of a solution of the optimizer can be drawn. The picture shows what is written, and what is seen
is a packing: the shown items are apart, inside the drawn outline of the bin and off the drawn holes and zones of too low a quality.
What is missing: items with a base quality of `N_QUALITIES`, which the parser accepts, make drawing panic. -/
theorem C58_bin_packing_partial {env : SvgEnv K} {cfg : ParserConfig K} (hpoi : PoiInside env.poi) (hsurr : KeepsShape env.surr) (hz : env.tr.AtZero)
    (hf : env.f = Fpa.exact) (hu : env.tr.Unit) (hp : env.tr.Polar) (hdeg : env.DegreesBack) (ht : ∀ tol, cfg.tolerance = some tol → tol < 1)
    {ji : JsonInstance K} (h : ji.Sound) (hq : ∀ j ∈ ji.items, ∀ q, j.baseQuality = some q → q < nQualities)
    {bs : List (JsonBin K)} (hb : ji.bins = some bs) {addr addr' : ℕ → ℕ → ℕ → ℕ} {inst : BPInstance K n}
    (hparse : parseInstance env.toPEnv cfg n addr addr' ji = some (.bp inst))
    {lenv : LEnv K n R} {lcfg : LbfConfig} {addr₁ : ℕ → ℕ → ℕ} {fuel : ℕ} {r : R} {sol : Solution K n} {p : BPProblem K n}
    (hsol : lbfSolveBP lenv env.toEnv lcfg addr₁ fuel inst r = some (sol, p))
    {opts : SvgOptions} {hpg : Option (HPG K)} (ho : opts.Drawable env hpg) (addr₂ : ℕ → ℕ → ℕ) {sn : LayoutSnapshot K n} (hsn : sn ∈ sol.snapshots) :
    ∃ svg jl b, snapshotToSvg env opts addr₂ (.bp inst) hpg sn = some svg ∧ composeLayout env.tr (.bp inst) sn = some jl ∧
      bs[sn.bin.id]? = some b ∧ ji.ShownIn env.tr env.toRadians (cfg.tolerance = none) jl.placedItems svg ∧
      b.ShownIn (cfg.tolerance = none) svg ∧ svg.InView ∧ svg.Packed env.tr env.toRadians ji ∧ svg.uses ≠ [] ∧ svg.binId = sn.bin.id := by
  obtain ⟨h1, h2⟩ := parse_qualities hparse hb
  obtain ⟨i, e1, hri, hrb, hnew⟩ := parse_bp (n := n) (cfg := cfg) hpoi hsurr hz ht h hb h1 h2 addr addr'
  rw [hparse] at e1
  have := logParsed_some e1.symm
  simp only [Instance.bp.injEq] at this
  subst this
  have hbuilt : inst.Built env.toEnv := ⟨hnew, fun x hx => (hrb.fine x hx).1⟩
  obtain ⟨k1, -, -⟩ := C44_bin_packing hf hu hp hbuilt (fun x hx => (hrb.fine x hx).2) hri.fine hsol
  obtain ⟨hin, hne⟩ := lbfSolveBP_in hf hu hp hbuilt (fun x hx => (hrb.fine x hx).2) hri.fine hsol
  have hs := hin.snaps sn hsn
  obtain ⟨q, hq'⟩ := hs.bin
  obtain ⟨b, hbk, -, bx, b_y, hrd⟩ := hrb.get hq'
  obtain ⟨svg, e, hd, -⟩ := hs.valid.draw hsurr ho addr₂ (inst := .bp inst) hrd.pre (hri.qualities hq) hs.items
  obtain ⟨placed, ep⟩ := composePlaced_mapM (tr := env.tr) (b := sn.bin) hs.items
  obtain ⟨-, hfeas, hit⟩ := k1 sn hsn
  refine ⟨svg, ⟨.bin sn.bin.id, placed, sn.usage⟩, b, e, ?_, hbk, hd.items_shown hdeg hri ep, hd.bin_shown hrd, hd.view,
    hd.packed hdeg hu hp hri hrd.pre (fun pi hpi => ?_) hfeas, fun h0 => hne sn hsn ?_, hd.binId⟩
  · unfold composeLayout Instance.items
    dsimp only
    rw [ep]
    rfl
  · obtain ⟨x, a1, a2, a3, -⟩ := hit pi hpi
    exact ⟨x, a1, a2, a3⟩
  · have := hd.uses.length_eq
    rw [h0] at this
    exact List.eq_nil_of_length_eq_zero this

/-- C58, strip packing, partial: the layout of a solution of the optimizer can be drawn. The picture shows what is written, in the strip from the
origin with the written width and the given height, and what is seen is a packing.
What is missing: items with a base quality of `N_QUALITIES`, which the parser accepts, make drawing panic. -/
theorem C58_strip_packing_partial {env : SvgEnv K} {senv : StripEnv K} (henv : senv.toEnv = env.toEnv) {cfg : ParserConfig K}
    (hpoi : PoiInside env.poi) (hsurr : KeepsShape env.surr) (hz : env.tr.AtZero)
    (hf : env.f = Fpa.exact) (hu : env.tr.Unit) (hp : env.tr.Polar) (hdeg : env.DegreesBack) (hrad : env.toRadians 0 = 0) (htol : 0 < senv.tolerance)
    {ji : JsonInstance K} (h : ji.Sound) (hq : ∀ j ∈ ji.items, ∀ q, j.baseQuality = some q → q < nQualities)
    {addr addr' : ℕ → ℕ → ℕ → ℕ} {inst : SPInstance K}
    (hparse : parseInstance env.toPEnv cfg n addr addr' ji = some (.sp inst))
    {lenv : LEnv K n R} {lcfg : LbfConfig} {addr₁ : ℕ → ℕ → ℕ} {addrs : ℕ → ℕ → ℕ → ℕ} {addr₂ addr₃ : ℕ} {addrs₁ : ℕ → ℕ} {fuel : ℕ} {r : R}
    {sol : Solution K n} {p : SPProblem K n}
    (hsol : lbfSolveSP lenv senv lcfg addr₁ addrs addr₂ addr₃ addrs₁ fuel inst r = some (sol, p))
    {opts : SvgOptions} {hpg : Option (HPG K)} (ho : opts.Drawable env hpg) (addr₄ : ℕ → ℕ → ℕ) :
    ∃ sn svg jl width height, sol.snapshots = [sn] ∧ snapshotToSvg env opts addr₄ (.sp (n := n) inst) hpg sn = some svg ∧
      composeLayout env.tr (.sp (n := n) inst) sn = some jl ∧ jl.container = .strip width height ∧ ji.strip = some height ∧
      ji.ShownIn env.tr env.toRadians (cfg.tolerance = none) jl.placedItems svg ∧ svg.holes = [] ∧ svg.zones = [] ∧ svg.InView ∧
      (0 < height → ∀ v, v ∈ interior svg.outer.points ↔ 0 < v.x ∧ v.x < width ∧ 0 < v.y ∧ v.y < height) ∧
      svg.Packed env.tr env.toRadians ji := by
  obtain ⟨js, l, width, height, -, -, -, hstrip', -⟩ := C54_strip_packing (penv := env.toPEnv) henv hpoi hsurr hz hf hu hp hrad htol h hparse hsol
  obtain ⟨i, e1, hri, e2, hbuilt⟩ : ∃ i : SPInstance K, parseInstance env.toPEnv cfg n addr addr' ji = logParsed env.toPEnv (.sp (n := n) i) ∧
      ReadItems env.toPEnv cfg ji.items i.items ∧ i.stripHeight = height ∧ i.Built := by
    cases hb : ji.bins with
    | some bs =>
      obtain ⟨h1, h2⟩ := parse_qualities hparse hb
      rw [hstrip'] at h1
      cases h1
    | none => exact parse_sp (n := n) (cfg := cfg) hpoi hsurr hz h.items hb hstrip' addr addr'
  rw [hparse] at e1
  have := logParsed_some e1.symm
  simp only [Instance.sp.injEq] at this
  subst this
  have hf' : senv.f = Fpa.exact := by rw [henv]; exact hf
  have hu' : senv.tr.Unit := by rw [henv]; exact hu
  have hp' : senv.tr.Polar := by rw [henv]; exact hp
  have hr' : PoiOfRects senv.poi := by rw [henv]; exact hpoi.rects
  obtain ⟨sn, hin⟩ := lbfSolveSP_in hf' hr' hu' hp' htol hbuilt hri.fine hsol
  obtain ⟨sn', hsn, hfeas, -, hit, -⟩ := C44_strip_packing hf' hr' hu' hp' htol hbuilt hri.fine hsol
  obtain rfl : sn = sn' := by
    have := hin.snaps
    rw [hsn] at this
    simpa using this.symm
  obtain ⟨hst, hpre, hhigh⟩ := lbfSolveSP_strip hf' hr' hu' hp' htol hbuilt hri.fine hsol hsn
  have hv := hin.snap.valid
  rw [henv] at hit hv
  obtain ⟨svg, e, hd, -⟩ := hv.draw hsurr ho addr₄ (inst := .sp (n := n) inst) hpre (hri.qualities hq) hin.snap.items
  obtain ⟨placed, ep⟩ := composePlaced_mapM (tr := env.tr) (b := sn.bin) hin.snap.items
  have hpl := hst.plain
  refine ⟨sn, svg, ⟨.strip sn.bin.outer.val.bbox.width inst.stripHeight, placed, sn.usage⟩, _, _, hsn, e, ?_, rfl, e2 ▸ hstrip',
    hd.items_shown hdeg hri ep, ?_, ?_, hd.view, ?_, hd.packed hdeg hu hp hri hpre (fun pi hpi => ?_) hfeas⟩
  · unfold composeLayout Instance.items
    dsimp only
    rw [ep]
    rfl
  · have := hd.holes
    rw [hpl.1] at this
    simpa using this
  · rw [List.eq_nil_iff_forall_not_mem]
    intro s hs
    obtain ⟨z, hz', -⟩ := (hd.zones _ _).1 ⟨s, hs, rfl, rfl⟩
    exact hpl.2 z hz'
  · intro hH v
    obtain ⟨g1, g2⟩ := hhigh hH
    rw [hd.outer, interior_unmove, hst.interior]
    unfold transPt AARect.width
    dsimp only
    rw [g1, g2]
    constructor
    · rintro ⟨a1, a2, a3, a4⟩
      exact ⟨by linarith, by linarith, by linarith, by linarith⟩
    · rintro ⟨a1, a2, a3, a4⟩
      exact ⟨by linarith, by linarith, by linarith, by linarith⟩
  · obtain ⟨x, a1, a2, a3, -⟩ := hit pi hpi
    exact ⟨x, a1, a2, a3⟩

/-! ## Panics -/

/-- what stops drawing -/
theorem layoutToSvg_quality {env : SvgEnv K} {opts : SvgOptions} (hc : opts.theme.qzFill.length = nQualities) (addr : ℕ → ℕ → ℕ) {inst : Instance K n}
    {x : Item K × ℕ} (hx : x ∈ inst.items) {q : ℕ} (hq : x.1.baseQuality = some q) (hle : nQualities ≤ q) (hpg : Option (HPG K)) (s : LayoutSnapshot K n) :
    snapshotToSvg env opts addr inst hpg s = none := by
  have hd : drawItem env opts.theme x.1 = none := by
    unfold drawItem pretransformItem Item.new
    dsimp only
    rw [hq]
    dsimp only
    rw [List.getElem?_eq_none (by rw [hc]; exact hle)]
    rfl
  have hm : (inst.items.mapM fun (x : Item K × ℕ) => drawItem env opts.theme x.1) = none := by
    generalize inst.items = l at hx
    induction l with
    | nil => cases hx
    | cons a l ih =>
      rw [List.mapM_cons]
      rcases List.mem_cons.1 hx with rfl | hx
      · rw [hd]; rfl
      · rw [ih hx]
        cases drawItem env opts.theme a.1 <;> rfl
  unfold snapshotToSvg
  cases Layout.fromSnapshot env.toEnv s with
  | none => rfl
  | some l =>
    rw [Option.bind_some]
    unfold layoutToSvg
    dsimp only
    rw [hm]
    cases pretransformBin env.toEnv addr l.bin l.bin.pretransform.inverse with
    | none => rfl
    | some b =>
      rw [Option.bind_some]
      cases drawZones opts.theme b <;> rfl

/-- C58: the full claim fails. A sound instance with an item that asks for a base quality of `N_QUALITIES` (one more than any zone can have)
is read and solved, and the solution is written, but drawing it panics, whatever the options. -/
theorem C58_quality_panics : ∃ (ji : JsonInstance ℚ) (addr addr' : ℕ → ℕ → ℕ → ℕ) (inst : BPInstance ℚ 2) (sol : Solution ℚ 2) (p : BPProblem ℚ 2)
    (js : JsonSolution ℚ), ji.Sound ∧ parseInstance Ex.sEnv.toPEnv Ex.jCfg 2 addr addr' ji = some (.bp inst) ∧
    (∃ lenv lcfg addr fuel, lbfSolveBP (R := ℕ) lenv Ex.sEnv.toEnv lcfg addr fuel inst 0 = some (sol, p)) ∧
    composeSolution Ex.sEnv.tr (.bp inst) sol = some js ∧ (js.layouts.map fun l => l.placedItems.map (·.index)) = [[0, 1]] ∧
    ∀ (opts : SvgOptions) (addr : ℕ → ℕ → ℕ) (hpg : Option (HPG ℚ)), opts.theme.qzFill.length = nQualities →
      ∀ sn ∈ sol.snapshots, snapshotToSvg Ex.sEnv opts addr (.bp inst) hpg sn = none := by
  have h : Ex.tenRun.map (fun r => (r.1.items.map (·.1.baseQuality), r.2.2.layouts.map fun l => l.placedItems.map (·.index))) =
      some ([some 10, some 10], [[0, 1]]) := by decide +kernel
  obtain ⟨⟨i, sol, js⟩, hr, he⟩ := Option.map_eq_some_iff.1 h
  simp only [Prod.mk.injEq] at he
  unfold Ex.tenRun at hr
  obtain ⟨i', hi, hr⟩ := Option.bind_eq_some_iff.1 hr
  cases i' with
  | sp _ => cases hr
  | bp inst =>
    obtain ⟨⟨sol', p⟩, hs, hr⟩ := Option.bind_eq_some_iff.1 hr
    obtain ⟨js', hjs, hr⟩ := Option.map_eq_some_iff.1 hr
    simp only [Prod.mk.injEq] at hr
    obtain ⟨rfl, rfl, rfl⟩ := hr
    refine ⟨Ex.tenInst, _, _, inst, sol', p, js', ?_, hi, ⟨_, _, _, _, hs⟩, hjs, he.2, ?_⟩
    · refine ⟨fun j hj => ?_, Ex.jInst_sound.bins⟩
      obtain ⟨k, hk, rfl⟩ := List.mem_map.1 hj
      exact Ex.jItems_plain 2 k hk
    · intro opts addr hpg ho sn _
      have hq : some 10 ∈ (Instance.bp inst).items.map (·.1.baseQuality) := by rw [he.1]; simp
      obtain ⟨x, hx, e⟩ := List.mem_map.1 hq
      exact layoutToSvg_quality ho addr hx e le_rfl hpg sn

/-! ## The quadtree and colors -/

/-- C58: the picture of the quadtree of an engine shows which parts of the box are free of hazards and which are inside one: the drawn
rectangles cover the box, the green ones are disjoint from all hazards, each red one is inside a hazard. -/
theorem C58_quadtree {o : SearchOracle K} {c : CDE K n} (hr : c.Reachable Fpa.exact o) (hg : c.Good) :
    ∃ d, c.tree.draw [] ⟨[], [], []⟩ = some d ∧ d.Shows c :=
  CDE.draws hr hg

/-- C58: the pictures of the quadtree and of the grid are drawn if asked for, for the engine of the drawn layout, and over the bin: they
are moved exactly as the outline of the bin is. -/
theorem C58_overlays {env : SvgEnv K} (hp : env.tr.Polar) (hdeg : env.DegreesBack) (hk : KeepsShape env.surr) {opts : SvgOptions} {hpg : Option (HPG K)}
    (ho : opts.Drawable env hpg) (addr : ℕ → ℕ → ℕ) {inst : Instance K n} {cat : ℕ → Item K} {st : LayoutState K n} (hr : st.Reachable env.toEnv cat)
    {sn : LayoutSnapshot K n} (hsn : sn ∈ st.snaps) {bx b_y : K} (hb : sn.bin.pretransform = Transf.translM bx b_y)
    (hq : ∀ x ∈ inst.items, ∀ q, x.1.baseQuality = some q → q < nQualities) (hi : ∀ pi ∈ sn.placed.values, pi.itemId < inst.items.length) :
    ∃ svg l, snapshotToSvg env opts addr inst hpg sn = some svg ∧ Layout.fromSnapshot env.toEnv sn = some l ∧
      (opts.quadtree = true → ∃ t d, svg.quadtree = some (t, d) ∧ l.cde.tree.draw [] ⟨[], [], []⟩ = some d ∧
        (env.f = Fpa.exact → l.cde.Good → d.Shows l.cde) ∧
        svg.outer.points = l.bin.outer.val.points.map (t.apply env.tr env.toRadians) ∧ ∀ v, t.apply env.tr env.toRadians (transPt bx b_y v) = v) ∧
      (opts.hazProxGrid = true → ∃ t d, svg.hazProxGrid = some (t, d) ∧ drawGrid hpg = some d ∧
        svg.outer.points = l.bin.outer.val.points.map (t.apply env.tr env.toRadians) ∧ ∀ v, t.apply env.tr env.toRadians (transPt bx b_y v) = v) := by
  obtain ⟨l, e, hl, -, h2, h3⟩ := (hr.inv.snaps sn hsn).1.fromSnapshot
  have hb' : l.bin.pretransform = Transf.translM bx b_y := by rw [h2]; exact hb
  obtain ⟨svg, e2, hd, q1, q2, g1, g2⟩ := layoutToSvg_ok hk ho addr (inst := inst) hl hb' hq (by rw [h3]; exact hi)
  have hmove : ∀ v, (env.transformToSvg l.bin.pretransform.inverse).apply env.tr env.toRadians v = v.transform (Transf.translM bx b_y).inverse := by
    rw [hb']
    exact overlay_apply hp hdeg bx b_y
  have hout : svg.outer.points = l.bin.outer.val.points.map ((env.transformToSvg l.bin.pretransform.inverse).apply env.tr env.toRadians) := by
    rw [hd.outer]
    exact List.map_congr_left fun v _ => (hmove v).symm
  have hback : ∀ v, (env.transformToSvg l.bin.pretransform.inverse).apply env.tr env.toRadians (transPt bx b_y v) = v := fun v => by
    rw [hmove, transform_unmove]
  refine ⟨svg, l, by unfold snapshotToSvg; rw [e, Option.bind_some, e2], e, fun hopt => ?_, fun hopt => ?_⟩
  · rcases hx : svg.quadtree with _ | ⟨t, d⟩
    · rw [q2, hopt] at hx
      cases hx
    · obtain ⟨ht, hdr⟩ := q1 _ hx
      dsimp only at ht hdr
      subst ht
      refine ⟨_, d, rfl, hdr, fun hf hg => ?_, hout, hback⟩
      have hre := hl.reach
      rw [show env.toEnv.f = Fpa.exact from hf] at hre
      obtain ⟨d', e', hs⟩ := CDE.draws hre hg
      rw [hdr] at e'
      cases e'
      exact hs
  · rcases hx : svg.hazProxGrid with _ | ⟨t, d⟩
    · rw [g2, hopt] at hx
      cases hx
    · obtain ⟨ht, hdr⟩ := g1 _ hx
      dsimp only at ht hdr
      subst ht
      exact ⟨_, d, rfl, hdr, hout, hback⟩

/-- C58: an item with a base quality has the color halfway between that of items and that of zones of this quality, rounded down. -/
theorem C58_blend (a b : Color) : (∀ f ∈ [Color.r, Color.g, Color.b], 2 * (f (a.blend b)).val ≤ (f a).val + (f b).val ∧
    (f a).val + (f b).val ≤ 2 * (f (a.blend b)).val + 1 ∧ 2 * (f a.darker).val ≤ (f a).val ∧ (f a).val ≤ 2 * (f a.darker).val + 1) := by
  intro f hf
  have hm : ∀ x y : Fin 256, (Color.mean x y).val = (x.val + y.val) / 2 := fun x y => rfl
  have h0 : ((0 : Fin 256) : ℕ) = 0 := rfl
  simp only [List.mem_cons, List.not_mem_nil, or_false] at hf
  rcases hf with rfl | rfl | rfl <;> unfold Color.blend Color.darker <;> simp only [hm, h0] <;> omega

theorem Color.parseByte_showByte (v : Fin 256) : ∃ a b, Color.showByte v = [a, b] ∧ Color.parseByte a b = some v := by
  refine ⟨_, _, rfl, ?_⟩
  revert v
  decide +kernel

/-- C58: a color is read back as it was written, so the theme in a configuration that was written is the one that is used. -/
theorem C58_colors (c : Color) : Color.parse c.show = some c := by
  obtain ⟨a, b, e1, p1⟩ := Color.parseByte_showByte c.r
  obtain ⟨a', b', e2, p2⟩ := Color.parseByte_showByte c.g
  obtain ⟨a'', b'', e3, p3⟩ := Color.parseByte_showByte c.b
  unfold Color.show
  rw [e1, e2, e3]
  unfold Color.parse
  simp [p1, p2, p3]

/-! ## Concrete cases -/

theorem Ex.jDegrees_jDegrees (d : ℚ) : Ex.jDegrees (Ex.jDegrees d) = d := by
  unfold Ex.jDegrees
  split_ifs <;> simp_all

theorem Ex.sEnv_degrees : Ex.sEnv.DegreesBack := by
  intro a
  have : Ex.sEnv.toRadians (Ex.sEnv.toDegrees a) = a := Ex.jDegrees_jDegrees a
  rw [this]
  exact ⟨rfl, rfl⟩

theorem Ex.sOpts_drawable : Ex.sOpts.Drawable Ex.sEnv none :=
  ⟨rfl, fun _ _ => ⟨_, rfl, List.cons_ne_nil _ _⟩, fun h => by cases h⟩

theorem Ex.jItems_quality (k : ℕ) : ∀ j ∈ Ex.jItems k, ∀ q, j.baseQuality = some q → q < nQualities := by
  intro j hj q hq
  simp only [Ex.jItems, List.mem_cons, List.not_mem_nil, or_false] at hj
  rcases hj with rfl | rfl <;> cases hq <;> decide

/-- Non-trivial case for C58, layouts: a triangle is placed twice, once turned and outside the bin (not a packing), and a snapshot is taken. -/
example : ∃ (inst : BPInstance ℚ 2) (st : LayoutState ℚ 2) (sn : LayoutSnapshot ℚ 2), PoiInside Ex.sEnv.poi ∧ KeepsShape Ex.sEnv.surr ∧
    Ex.sEnv.tr.AtZero ∧ Ex.sEnv.DegreesBack ∧ (∀ tol, Ex.jCfg.tolerance = some tol → tol < 1) ∧ Ex.jInst.Sound ∧
    (∀ j ∈ Ex.jInst.items, ∀ q, j.baseQuality = some q → q < nQualities) ∧ Ex.jParsed = some (.bp inst) ∧ Ex.sOpts.Drawable Ex.sEnv none ∧
    st.Reachable Ex.sEnv.toEnv inst.cat ∧ sn ∈ st.snaps ∧ (∃ q, inst.bins[sn.bin.id]? = some (sn.bin, q)) ∧
    (∀ pi ∈ sn.placed.values, pi.itemId < inst.items.length) ∧ sn.placed.values.length = 2 ∧
    Ex.sEnv.tr.Polar ∧ Ex.sOpts.quadtree = true ∧ ∃ bx b_y, sn.bin.pretransform = Transf.translM bx b_y := by
  have hsome : Ex.jParsed.isSome := by decide +kernel
  obtain ⟨i, hi⟩ := Option.isSome_iff_exists.1 hsome
  obtain ⟨inst, e1, hri, hrb, -⟩ := parse_bp (penv := Ex.jEnv) (n := 2) (cfg := Ex.jCfg) Ex.jPoi_inside Ex.jEnv_keeps Ex.turns_zero Ex.jCfg_tolerance Ex.jInst_sound
    (bs := [Ex.jBin]) rfl rfl (by decide) (fun i j k => 10000 * i + 100 * j + k) (fun i j k => 20000 + 10000 * i + 100 * j + k)
  have e2 : Ex.jParsed = logParsed Ex.jEnv (.bp inst) := e1
  rw [hi] at e2
  obtain rfl := logParsed_some e2.symm
  obtain ⟨hlen, hg⟩ := forall₂_zipIdx_get hri
  obtain ⟨hlenb, hgb⟩ := forall₂_zipIdx_get hrb
  obtain ⟨x, hx, -, hrx⟩ := hg 0 _ rfl
  obtain ⟨b, hb, -, ⟨bx, b_y, hrd⟩, -⟩ := hgb 0 _ rfl
  have hcat : inst.cat 0 = x.1 := by
    unfold BPInstance.cat catOf
    rw [hx]
  have hid : (inst.cat 0).id = 0 := by rw [hcat]; exact hrx.id
  have s0 : LayoutState.Inv Ex.sEnv.toEnv inst.cat ⟨Layout.new 0 b.1, []⟩ := ⟨Layout.inv_new inst.cat 0 hrd.built, by simp⟩
  have p1 : (LayoutOp.place 1 (inst.cat 0) ⟨2, 20, 3⟩ : LayoutOp ℚ 2).Pre Ex.sEnv.toEnv inst.cat ⟨Layout.new 0 b.1, []⟩ :=
    ⟨by rw [hid], fun pi hpi => by cases hpi⟩
  obtain ⟨st1, r1, i1, -, f1⟩ := LayoutOp.run_inv s0 p1
  have p2 : (LayoutOp.place 2 (inst.cat 0) ⟨0, 0, 0⟩ : LayoutOp ℚ 2).Pre Ex.sEnv.toEnv inst.cat st1 := ⟨by rw [hid], fun pi hpi h => by
    have := f1.2.2.2.mem_iff.1 hpi
    rcases List.mem_cons.1 this with rfl | h'
    · have := congrArg DTransf.tx h.2
      revert this
      show (20 : ℚ) = 0 → False
      norm_num
    · cases h'⟩
  obtain ⟨st2, r2, i2, -, f2⟩ := LayoutOp.run_inv i1 p2
  obtain ⟨st3, r3, i3, -, f3⟩ := LayoutOp.run_inv i2 (op := .snapshot) trivial
  obtain ⟨g1, g2, sn, g3, g4, g5, g6, g7⟩ := f3
  have hbin : sn.bin = b.1 := by rw [g5, f2.1, f1.1]; rfl
  have hvals : sn.placed.values.Perm [PlacedItem.new Ex.sEnv.toEnv 2 (inst.cat 0) ⟨0, 0, 0⟩, PlacedItem.new Ex.sEnv.toEnv 1 (inst.cat 0) ⟨2, 20, 3⟩] := by
    rw [g6]
    exact f2.2.2.2.trans (f1.2.2.2.cons _)
  refine ⟨inst, st3, sn, Ex.jPoi_inside, Ex.jEnv_keeps, Ex.turns_zero, Ex.sEnv_degrees, Ex.jCfg_tolerance, Ex.jInst_sound, Ex.jItems_quality 2, hi,
    Ex.sOpts_drawable, ⟨0, b.1, _, hrd.built,  .cons p1 r1 (.cons p2 r2 (.cons (op := .snapshot) trivial r3 (.nil _)))⟩, ?_, ?_, ?_, ?_, ?_⟩
  · rw [g3]; simp
  · rw [hbin, hrd.id]
    exact ⟨b.2, hb⟩
  · intro pi hpi
    have : pi.itemId = 0 := by
      have := hvals.mem_iff.1 hpi
      simp only [List.mem_cons, List.not_mem_nil, or_false] at this
      rcases this with rfl | rfl <;> exact hid
    rw [this]
    exact (List.getElem?_eq_some_iff.1 hx).1
  · rw [hvals.length_eq]
    rfl
  · exact ⟨Ex.turns_polar, rfl, bx, b_y, by rw [hbin]; exact hrd.pre⟩

/-- Non-trivial case for C58, bin packing: a triangle, turned by a quarter, a square, a hole and a zone are drawn. -/
example : ∃ (inst : BPInstance ℚ 2) (sol : Solution ℚ 2) (p : BPProblem ℚ 2) (sn : LayoutSnapshot ℚ 2) (svg : Svg ℚ),
    PoiInside Ex.sEnv.poi ∧ KeepsShape Ex.sEnv.surr ∧ Ex.sEnv.tr.AtZero ∧ Ex.sEnv.f = Fpa.exact ∧ Ex.sEnv.tr.Unit ∧ Ex.sEnv.tr.Polar ∧
    Ex.sEnv.DegreesBack ∧ (∀ tol, Ex.jCfg.tolerance = some tol → tol < 1) ∧ Ex.jInst.Sound ∧
    (∀ j ∈ Ex.jInst.items, ∀ q, j.baseQuality = some q → q < nQualities) ∧ Ex.jParsed = some (.bp inst) ∧
    lbfSolveBP Ex.jLenv Ex.sEnv.toEnv Ex.lbfCfg (fun a b => 100000 + 1000 * a + b) 4 inst 0 = some (sol, p) ∧
    Ex.sOpts.Drawable Ex.sEnv none ∧ sn ∈ sol.snapshots ∧
    snapshotToSvg Ex.sEnv Ex.sOpts (fun a b => 500000 + 1000 * a + b) (.bp inst) none sn = some svg ∧
    Ex.sBrief svg = ([0, 1], [(0, 90), (1, 0)], [0]) := by
  have h : Ex.sRun.map (fun l => l.map Ex.sBrief) = some [([0, 1], [(0, 90), (1, 0)], [0])] := by decide +kernel
  obtain ⟨l, hl, he⟩ := Option.map_eq_some_iff.1 h
  unfold Ex.sRun at hl
  obtain ⟨i, hi, hl⟩ := Option.bind_eq_some_iff.1 hl
  cases i with
  | sp _ => cases hl
  | bp inst =>
    obtain ⟨⟨sol, p⟩, hs, hl⟩ := Option.bind_eq_some_iff.1 hl
    obtain ⟨svg, rfl, hsvg⟩ : ∃ svg, l = [svg] ∧ Ex.sBrief svg = ([0, 1], [(0, 90), (1, 0)], [0]) := by
      rcases l with _ | ⟨a, _ | ⟨b, l⟩⟩
      · simp at he
      · exact ⟨a, rfl, by simpa using he⟩
      · simp at he
    dsimp only at hl
    obtain ⟨sn, hsn, e⟩ := mapM_mem hl svg (List.mem_singleton_self svg)
    exact ⟨inst, sol, p, sn, svg, Ex.jPoi_inside, Ex.jEnv_keeps, Ex.turns_zero, rfl, Ex.turns_unit, Ex.turns_polar, Ex.sEnv_degrees,
      Ex.jCfg_tolerance, Ex.jInst_sound, Ex.jItems_quality 2, hi, hs, Ex.sOpts_drawable, hsn, e, hsvg⟩

/-- Non-trivial case for C58, strip packing. -/
example : ∃ (inst : SPInstance ℚ) (sol : Solution ℚ 2) (p : SPProblem ℚ 2) (sn : LayoutSnapshot ℚ 2) (svg : Svg ℚ),
    Ex.jSenv.toEnv = Ex.sEnv.toEnv ∧ PoiInside Ex.sEnv.poi ∧ KeepsShape Ex.sEnv.surr ∧ Ex.sEnv.tr.AtZero ∧ Ex.sEnv.f = Fpa.exact ∧
    Ex.sEnv.tr.Unit ∧ Ex.sEnv.tr.Polar ∧ Ex.sEnv.DegreesBack ∧ Ex.sEnv.toRadians 0 = 0 ∧ 0 < Ex.jSenv.tolerance ∧ Ex.jStrip.Sound ∧
    (∀ j ∈ Ex.jStrip.items, ∀ q, j.baseQuality = some q → q < nQualities) ∧ Ex.jParsedStrip = some (.sp inst) ∧
    lbfSolveSP (n := 2) Ex.lbfLenv Ex.jSenv Ex.lbfCfg (fun a b => 1000 * a + b) (fun a b c => 10000 * a + 100 * b + c) 1 2 id 4 inst 0 = some (sol, p) ∧
    Ex.sOpts.Drawable Ex.sEnv none ∧ sn ∈ sol.snapshots ∧
    snapshotToSvg Ex.sEnv Ex.sOpts (fun a b => 500000 + 1000 * a + b) (.sp (n := 2) inst) none sn = some svg ∧
    Ex.sBrief svg = ([0, 1], [(0, 90), (1, 0)], []) := by
  have h : Ex.sStripRun.map (fun l => l.map Ex.sBrief) = some [([0, 1], [(0, 90), (1, 0)], [])] := by decide +kernel
  obtain ⟨l, hl, he⟩ := Option.map_eq_some_iff.1 h
  unfold Ex.sStripRun at hl
  obtain ⟨i, hi, hl⟩ := Option.bind_eq_some_iff.1 hl
  cases i with
  | bp _ => cases hl
  | sp inst =>
    obtain ⟨⟨sol, p⟩, hs, hl⟩ := Option.bind_eq_some_iff.1 hl
    obtain ⟨svg, rfl, hsvg⟩ : ∃ svg, l = [svg] ∧ Ex.sBrief svg = ([0, 1], [(0, 90), (1, 0)], []) := by
      rcases l with _ | ⟨a, _ | ⟨b, l⟩⟩
      · simp at he
      · exact ⟨a, rfl, by simpa using he⟩
      · simp at he
    dsimp only at hl
    obtain ⟨sn, hsn, e⟩ := mapM_mem hl svg (List.mem_singleton_self svg)
    exact ⟨inst, sol, p, sn, svg, rfl, Ex.jPoi_inside, Ex.jEnv_keeps, Ex.turns_zero, rfl, Ex.turns_unit, Ex.turns_polar, Ex.sEnv_degrees,
      by decide +kernel, by decide +kernel, Ex.jStrip_sound, Ex.jItems_quality 1, hi, hs, Ex.sOpts_drawable, hsn, e, hsvg⟩

/-- Non-trivial case for the quadtree: in the example engine three rectangles are free of hazards, with a zone many are inside it. -/
example : ∃ (c : CDE ℚ 2) (d : SvgTree ℚ), c.Reachable Fpa.exact SearchOracle.first ∧ c.Good ∧ c.tree.draw [] ⟨[], [], []⟩ = some d ∧
    (d.entire.length, d.part.length, d.free.length) = (0, 13, 3) := by
  obtain ⟨c, h1, h2, h3, h4, h5, _, hc⟩ := Ex.exists_engine
  have h : ((Ex.start.bind (Ex.runChecked Ex.ops)).bind fun c => c.tree.draw [] ⟨[], [], []⟩).map
      (fun d => (d.entire.length, d.part.length, d.free.length)) = some (0, 13, 3) := by decide +kernel
  rw [hc, Option.bind_some] at h
  obtain ⟨d, hd, he⟩ := Option.map_eq_some_iff.1 h
  exact ⟨c, d, h1, Ex.good h2 h3 h5, hd, he⟩

example : ((CDE.new Fpa.exact SearchOracle.first 3 ⟨0, 0, 8, 8⟩ [Ex.hBin, Ex.hZone]).bind fun c => c.tree.draw [] ⟨[], [], []⟩).map
    (fun d => (d.entire.length, d.part.length, d.free.length)) = some (24, 28, 0) := by decide +kernel

/-- Non-trivial case for blended colors. -/
example : Color.blend ⟨0xCC, 0x82, 0x4A⟩ ⟨0xFF, 0, 0x4B⟩ = ⟨0xE5, 0x41, 0x4A⟩ := by decide +kernel

/-- Non-trivial case for colors. -/
example : Color.show ⟨0xCC, 0x82, 0x4A⟩ = "#CC824A".toList ∧ Color.parse "#CC824A".toList = some ⟨0xCC, 0x82, 0x4A⟩ := by decide +kernel

end Jagua
