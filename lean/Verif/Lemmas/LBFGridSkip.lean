import Verif.Lemmas.LBFGridTotal
import Verif.Lemmas.SelfCheck
import Verif.Lemmas.HPGRect
import Verif.Props.HPGCover

/-! # Layouts with room for an item are not skipped -/

set_option linter.unusedSectionVars false

namespace Jagua

variable {K : Type*} [Field K] [LinearOrder K] [IsStrictOrderedRing K] {n : ℕ} {R : Type*}

/-! ## The grid of a layout is that of an engine -/

theorem HReach.registers {henv : HEnv K} {o : SearchOracle K} {bbox : AARect K} {statics : List (Hazard K)} (hst : (statics.map (·.entity)).Nodup) {nCells : ℕ}
    {φ : HazardEntity K → Hazard K} : ∀ (hs : List (Hazard K)) {c : HCDE K n} {g g' : HPG K}, HReach henv o bbox statics nCells φ (.inl c) → c.hpg = some g →
    c.cde.uncommitted = [] → (∀ h ∈ hs, h.erase = φ h.entity) → ((statics ++ (c.cde.dynamics ++ hs)).map (·.entity)).Nodup →
    hs.foldlM (HPG.register henv) g = some g' →
    ∃ c' : HCDE K n, HReach henv o bbox statics nCells φ (.inl c') ∧ c'.hpg = some g' ∧ c'.cde.uncommitted = [] ∧ c'.cde.dynamics = c.cde.dynamics ++ hs
  | [], c, g, g', hr, hg, hu, _, _, h => by
    rw [List.foldlM_nil] at h
    cases h
    exact ⟨c, hr, hg, hu, by simp⟩
  | h :: hs, c, g, g', hr, hg, hu, hc, hnd, hf => by
    rw [List.foldlM_cons] at hf
    obtain ⟨g1, h1, hf⟩ := Option.bind_eq_some_iff.1 hf
    have hi : HInv henv o statics φ c := hr.inv hst
    have hpre : (CDEOp.register h).Pre c.cde := by
      intro x hx he
      have e : statics ++ (c.cde.dynamics ++ h :: hs) = c.cde.allHazards ++ h :: hs := by
        rw [← List.append_assoc, ← hi.stat]; rfl
      rw [e, List.map_append, List.nodup_append] at hnd
      exact hnd.2.2 _ (List.mem_map_of_mem hx) _ (List.mem_map_of_mem List.mem_cons_self) he
    obtain ⟨c1, hc1, -, -, -⟩ := CDEOp.run_inv (o := o) hi.reach.inv hpre
    have hc1 : c.cde.register henv.f o h = some c1 := hc1
    have hd : c1.uncommitted = [] ∧ c1.dynamics = c.cde.dynamics ++ [h] := by
      unfold CDE.register at hc1
      rw [hu, List.findIdx?_nil] at hc1
      dsimp only at hc1
      split at hc1
      · cases hc1
      · cases hc1
        exact ⟨rfl, rfl⟩
    have hreg : c.register henv o h = some ⟨c1, some g1⟩ := by
      unfold HCDE.register
      dsimp only
      rw [hc1, hu, hg]
      show (HCDE.onGrid (some g) fun g => g.register henv h).map _ = _
      unfold HCDE.onGrid
      dsimp only
      rw [h1]
      rfl
    obtain ⟨c', a1, a2, a3, a4⟩ := HReach.registers hst hs (hr.register hpre (hc h List.mem_cons_self) hreg) rfl hd.1
      (fun x hx => hc x (List.mem_cons_of_mem _ hx)) (by
        show ((statics ++ (c1.dynamics ++ hs)).map (·.entity)).Nodup
        rw [hd.2, List.append_assoc]
        exact hnd) hf
    refine ⟨c', a1, a2, a3, ?_⟩
    rw [a4]
    show c1.dynamics ++ hs = _
    rw [hd.2, List.append_assoc]
    rfl

/-- the grid of a layout together with an engine that has the same hazards -/
theorem Layout.Inv.gridReach {env : Env K} {cat : ℕ → Item K} {l : Layout K n} (h : l.Inv env cat) {henv : HEnv K} (hf : henv.f = env.f) {nCells : ℕ} {g : HPG K}
    (hg : l.Fresh henv nCells (some g)) :
    ∃ c : HCDE K n, HReach henv env.o l.cde.bbox l.cde.statics nCells (catHaz env cat) (.inl c) ∧ c.hpg = some g ∧ g.isDirty = false ∧
      c.cde.dynamics = l.cde.dynamics ∧ c.cde.statics = l.cde.statics ∧ c.cde.bbox = l.cde.bbox := by
  rcases hg.cases with ⟨_, e⟩ | ⟨g0, g1, hn, h1, h2, e, -, hd⟩
  · cases e
  cases e
  have hnd := h.reach.inv.distinct
  rw [List.append_assoc, List.nodup_append] at hnd
  have hst := hnd.1
  obtain ⟨id, outer, value, pre, holes, zones, hb⟩ := h.bin
  have hnew : CDE.new henv.f env.o n l.cde.bbox l.cde.statics = some l.bin.baseCde := by
    rw [hf, h.bbox, h.statics]
    unfold Bin.new at hb
    split_ifs at hb
    obtain ⟨c, hc, he⟩ := Option.map_eq_some_iff.1 hb
    rw [← he]
    dsimp only
    have := hc
    unfold CDE.new at this
    split at this
    · cases this
    · cases this
      exact hc
  have hn1 : HCDE.new henv env.o n l.cde.bbox l.cde.statics nCells = some ⟨l.bin.baseCde, some g0⟩ := by
    unfold HCDE.new
    rw [if_neg hn, h1]
    show (CDE.new henv.f env.o n l.cde.bbox l.cde.statics).map _ = _
    rw [hnew]
    rfl
  obtain ⟨-, b2, b3, -⟩ := h.bin.base
  obtain ⟨c, a1, a2, a3, a4⟩ := HReach.registers hst l.cde.dynamics (HReach.new (φ := catHaz env cat) hn1) rfl b3
    (fun x hx => h.cons x (List.mem_append.2 (.inl hx))) (by
      show ((l.cde.statics ++ (l.bin.baseCde.dynamics ++ l.cde.dynamics)).map (·.entity)).Nodup
      rw [b2, List.nil_append]
      have := h.reach.inv.distinct
      rw [List.nodup_append] at this
      rw [List.map_append]
      exact this.1) h2
  have hi : HInv henv env.o l.cde.statics (catHaz env cat) c := a1.inv hst
  refine ⟨c, a1, a2, hd, ?_, hi.stat, a1.bbox_eq hst⟩
  rw [a4]
  show l.bin.baseCde.dynamics ++ _ = _
  rw [b2, List.nil_append]

/-! ## Discs that are moved -/

theorem Circle.moved_subset {t : Transf K} (ht : t.IsRigid) {c : Circle K} {pts : List (Point K)} (h : c.pts ⊆ region pts) :
    (c.transform t).pts ⊆ region (pts.map (·.transform t)) := by
  intro q hq
  have e : (q.transform t.inverse).transform t = q := by
    rw [← transform_dot ht.inverse, ht.mul_inverse]
    unfold Transf.empty Point.transform
    simp
  rw [← e]
  refine ht.map.region.2 (h ?_)
  have hm := ht.map
  have hx := hm.dx c.center (q.transform t.inverse)
  have hy := hm.dy c.center (q.transform t.inverse)
  rw [e] at hx hy
  have hq : (q.x - (c.center.transform t).x) ^ 2 + (q.y - (c.center.transform t).y) ^ 2 ≤ c.radius ^ 2 := hq
  have hu := hm.unit
  rw [hx, hy] at hq
  show ((q.transform t.inverse).x - c.center.x) ^ 2 + ((q.transform t.inverse).y - c.center.y) ^ 2 ≤ c.radius ^ 2
  refine le_trans (le_of_eq ?_) hq
  linear_combination -(((q.transform t.inverse).x - c.center.x) ^ 2 + ((q.transform t.inverse).y - c.center.y) ^ 2) * hu

/-! ## The sampler of a layout with room -/

theorem mem_lbfIrrelevant_iff {item : Item K} {l : Layout K n} {x : Hazard K} (hx : x ∈ l.cde.allHazards) :
    x.entity ∈ lbfIrrelevant item l ↔ ∃ q z i, item.hazardFilter = some q ∧ x.entity = .inferiorQualityZone z i ∧ q ≤ z := by
  refine ⟨mem_lbfIrrelevant, ?_⟩
  rintro ⟨q, z, i, hq, he, hle⟩
  unfold lbfIrrelevant
  rw [hq]
  dsimp only
  unfold generateIrrelevant
  refine List.mem_filterMap.2 ⟨x, hx, ?_⟩
  rw [he, if_pos (by simpa [HazardFilter.isIrrelevant] using hle)]

/-- a cell of a grid has a positive size -/
theorem HReach.cell_pos {henv : HEnv K} (hmono : ∀ x y, 0 ≤ x → x < y → henv.sqrt x < henv.sqrt y) (h0 : 0 ≤ henv.sqrt 0) {o : SearchOracle K} {bbox : AARect K}
    (hbox : bbox.Valid) {statics : List (Hazard K)} {nCells : ℕ} {φ : HazardEntity K → Hazard K} {c : HCDE K n} (hr : HReach henv o bbox statics nCells φ (.inl c))
    {g : HPG K} (hg : c.hpg = some g) {x : HPGCell K} (hx : some x ∈ g.grid.cells) : x.bbox.xMin < x.bbox.xMax ∧ x.bbox.yMin < x.bbox.yMax := by
  obtain ⟨g0, h1, h2⟩ := hr.rel g hg
  obtain ⟨y, hy, hxy⟩ := h2.left hx
  rw [hxy.fields.1]
  obtain ⟨⟨rects, h3, -, h4⟩, -, -⟩ := HPG.new_cells h1
  obtain ⟨r, hr, hn⟩ := h4 y hy
  have e : y.bbox = r := by
    unfold HPGCell.new at hn
    obtain ⟨st, _, rfl⟩ := Option.map_eq_some_iff.1 hn
    rfl
  have hn0 : nCells ≠ 0 := by
    rintro rfl
    unfold HPG.new at h1
    simp at h1
  have hT : (0 : K) < nCells := by exact_mod_cast Nat.pos_of_ne_zero hn0
  have harea : 0 < bbox.area / nCells := by
    have bx : bbox.xMin < bbox.xMax := hbox.1
    have by' : bbox.yMin < bbox.yMax := hbox.2
    unfold AARect.area
    have a1 : 0 < bbox.xMax - bbox.xMin := by linarith
    have a2 : 0 < bbox.yMax - bbox.yMin := by linarith
    positivity
  obtain ⟨dim, hd, h5⟩ := GridGen.generate_pos (h0.trans_lt (hmono 0 _ le_rfl harea)) h3
  obtain ⟨⟨i, j, rfl⟩, -⟩ := GridGen.attempt_kept h5 hr
  rw [e]
  unfold GridGen.cellRect
  dsimp only
  constructor <;> linarith

/-- the sampler keeps every cell that does not refuse the item and meets the bin -/
theorem HPGSampler.keeps {lenv : LEnv K n R} {item : Item K} {l : Layout K n} {x : Option (HPGSampler K)} (h : HPGSampler.new lenv item l = some x)
    {all : List (HPGCell K)} (hall : lenv.grid l = some all) {c : HPGCell K} (hc : c ∈ all) (hacc : c.couldAccommodate item.shape.poi.radius item.baseQuality = some true)
    {r : AARect K} (hr : AARect.fromIntersection c.bbox l.bin.outer.val.bbox = some r) : ∃ s, x = some s ∧ (∃ d ∈ s.cells, d.bbox = r ∧ UniformRot.ofItem lenv item = some d.rot) ∧
    s.pretransform = Transf.fromTranslation (-item.shape.poi.center.x) (-item.shape.poi.center.y) := by
  unfold HPGSampler.new at h
  dsimp only at h
  rw [hall, Option.bind_some] at h
  obtain ⟨marked, hm, h⟩ := Option.bind_eq_some_iff.1 h
  obtain ⟨cells, hcells, h⟩ := Option.map_eq_some_iff.1 h
  obtain ⟨m, hmm, hmb⟩ := forall₂_right_mem (mapM_forall₂_of hm) hc
  rw [hacc] at hmb
  cases hmb
  obtain ⟨d, hd, hdb⟩ := forall₂_right_mem (mapM_forall₂_of hcells) (a := r)
    (List.mem_filterMap.2 ⟨(c, true), List.mem_filter.2 ⟨hmm, rfl⟩, hr⟩)
  rw [if_neg (by rw [List.isEmpty_iff]; exact List.ne_nil_of_mem hd)] at h
  refine ⟨_, h.symm, ⟨d, hd, ?_⟩, rfl⟩
  unfold RectSampler.new at hdb
  split_ifs at hdb
  obtain ⟨_, hrot, rfl⟩ := Option.map_eq_some_iff.1 hdb
  exact ⟨rfl, hrot⟩

theorem AARect.fromIntersection_mem {a b : AARect K} {p : Point K} (ha : a.xMin < a.xMax ∧ a.yMin < a.yMax)
    (hp : a.xMin ≤ p.x ∧ p.x < a.xMax ∧ a.yMin ≤ p.y ∧ p.y < a.yMax)
    (hb : b.xMin < p.x ∧ p.x < b.xMax ∧ b.yMin < p.y ∧ p.y < b.yMax) :
    ∃ r, AARect.fromIntersection a b = some r ∧ r.xMin ≤ p.x ∧ p.x < r.xMax ∧ r.yMin ≤ p.y ∧ p.y < r.yMax := by
  obtain ⟨p1, p2, p3, p4⟩ := hp
  obtain ⟨b1, b2, b3, b4⟩ := hb
  unfold AARect.fromIntersection
  dsimp only
  rw [if_pos ⟨max_lt (lt_min ha.1 (p1.trans_lt b2)) (lt_min (b1.trans p2) (b1.trans b2)),
    max_lt (lt_min ha.2 (p3.trans_lt b4)) (lt_min (b3.trans p4) (b3.trans b4))⟩]
  exact ⟨_, rfl, max_le p1 b1.le, lt_min p2 b2, max_le p3 b3.le, lt_min p4 b4⟩

theorem SameTurn.fromDt {tr : Trig K} {a b : K} (h : SameTurn tr a b) (x y : K) : Transf.fromDt tr ⟨a, x, y⟩ = Transf.fromDt tr ⟨b, x, y⟩ := by
  unfold Transf.fromDt Transf.rotTranslM
  rw [h.1, h.2]

/-- a transformation is that of the sampler for the image of the pole -/
theorem Transf.drawn_eq {tr : Trig K} (item : Item K) (dt : DTransf K) {q : Point K} (hq : item.shape.poi.center.transform (Transf.fromDt tr dt) = q) :
    (Transf.fromTranslation (-item.shape.poi.center.x) (-item.shape.poi.center.y)).transformFromDecomposed tr ⟨dt.rotation, q.x, q.y⟩ = Transf.fromDt tr dt := by
  subst hq
  unfold Transf.transformFromDecomposed Transf.rotateTranslate Transf.fromDt Transf.rotTranslM Transf.fromTranslation Transf.translM Point.transform Transf.dotProd
  simp only [Transf.mk.injEq]
  refine ⟨?_, ?_, ?_, ?_, ?_, ?_, ?_, ?_, ?_⟩ <;> ring

/-- a place in a cell of a sampler can be drawn if the item allows the rotation -/
theorem HPGSampler.canDraw {lenv : LEnv K n R} {tr : Trig K} {item : Item K} {s : HPGSampler K}
    (hpre : s.pretransform = Transf.fromTranslation (-item.shape.poi.center.x) (-item.shape.poi.center.y)) {d : RectSampler K} (hd : d ∈ s.cells)
    (hrot : UniformRot.ofItem lenv item = some d.rot) {dt : DTransf K} (hall : item.Allows tr dt.rotation)
    (hturn : item.allowedRotation = .continuous → ∃ b, 0 ≤ b ∧ b < 2 * lenv.pi ∧ SameTurn tr dt.rotation b) {q : Point K}
    (hq : item.shape.poi.center.transform (Transf.fromDt tr dt) = q) (h : d.bbox.xMin ≤ q.x ∧ q.x < d.bbox.xMax ∧ d.bbox.yMin ≤ q.y ∧ q.y < d.bbox.yMax) :
    s.CanDraw tr (Transf.fromDt tr dt) := by
  obtain ⟨a, ha, hst⟩ : ∃ a, (match d.rot with
      | .none => a = 0
      | .range lo hi => lo ≤ a ∧ a < hi
      | .discrete as => a ∈ as) ∧ SameTurn tr dt.rotation a := by
    unfold UniformRot.ofItem at hrot
    unfold Item.Allows at hall
    cases hr : item.allowedRotation with
    | none =>
      rw [hr] at hrot hall
      dsimp only at hrot hall
      rw [← Option.some.inj hrot]
      exact ⟨0, rfl, hall⟩
    | continuous =>
      obtain ⟨b, b1, b2, b3⟩ := hturn hr
      rw [hr] at hrot
      dsimp only at hrot
      split_ifs at hrot
      rw [← Option.some.inj hrot]
      exact ⟨b, ⟨b1, b2⟩, b3⟩
    | discrete as =>
      rw [hr] at hrot hall
      dsimp only at hrot hall
      rw [← Option.some.inj hrot]
      exact hall
  have e := hst.fromDt dt.tx dt.ty
  refine ⟨d, hd, a, q.x, q.y, ha, h.1, h.2.1, h.2.2.1, h.2.2.2, ?_⟩
  rw [hpre]
  have e2 : Transf.fromDt tr dt = Transf.fromDt tr ⟨a, dt.tx, dt.ty⟩ := e
  rw [e2]
  rw [e2] at hq
  exact (Transf.drawn_eq item ⟨a, dt.tx, dt.ty⟩ hq).symm

/-- **A layout with room for an item is searched**, and so is the place where the item fits, if the grid is that of an engine with the same hazards. -/
theorem Layout.Inv.searchedIn {env : Env K} (hf : env.f = Fpa.exact) (hu : env.tr.Unit) {cat : ℕ → Item K} {l : Layout K n} (h : l.Inv env cat)
    (hb : l.bin.Shapes) {items : List (Item K × ℕ)} (hcat : ∀ pi ∈ l.placed.values, ∃ x ∈ items, cat pi.itemId = x.1)
    (hfine : ∀ x ∈ items, x.1.Fine) (hins : ∀ x ∈ items, x.1.Inscribed)
    {henv : HEnv K} (hmono : ∀ x y, 0 ≤ x → x < y → henv.sqrt x < henv.sqrt y) (hs : henv.SqrtUpper) (hhf : henv.f = Fpa.exact) (hce : henv.CeilExact)
    {nCells : ℕ} {φ : HazardEntity K → Hazard K} {c : HCDE K n} {g : HPG K} (hr : HReach henv env.o l.cde.bbox l.cde.statics nCells φ (.inl c)) (hcg : c.hpg = some g)
    (hdirty : g.isDirty = false) (hdyn : c.cde.dynamics = l.cde.dynamics) (hstat : c.cde.statics = l.cde.statics) (hbb : c.cde.bbox = l.cde.bbox) {x : Item K × ℕ} (hx : x ∈ items) (hq : x.1.baseQuality.getD nQualities ≤ nQualities)
    (hfil : x.1.hazardFilter = x.1.baseQuality) (hmax : x.1.shape.poi.radius < henv.fmax) {lenv : LEnv K n R} {dt : DTransf K}
    (hroom : FitsIn l.bin l.placed.values (x.1.shape.transform (Transf.fromDt env.tr dt)).points x.1.hazardFilter)
    {o : Option (HPGSampler K)} (ho : HPGSampler.new (lenv.withGrid (some g)) x.1 l = some o) :
    ∃ s, o = some s ∧ s.pretransform = Transf.fromTranslation (-x.1.shape.poi.center.x) (-x.1.shape.poi.center.y) ∧ ∃ d ∈ s.cells,
      UniformRot.ofItem lenv x.1 = some d.rot ∧ d.bbox.xMin ≤ (x.1.shape.poi.center.transform (Transf.fromDt env.tr dt)).x ∧
      (x.1.shape.poi.center.transform (Transf.fromDt env.tr dt)).x < d.bbox.xMax ∧ d.bbox.yMin ≤ (x.1.shape.poi.center.transform (Transf.fromDt env.tr dt)).y ∧
      (x.1.shape.poi.center.transform (Transf.fromDt env.tr dt)).y < d.bbox.yMax := by
  have hrig : (Transf.fromDt env.tr dt).IsRigid := Transf.IsRigid.rotTransl hu ..
  have hsp : (x.1.shape.transform (Transf.fromDt env.tr dt)).Proper := (hfine x hx).placed hu dt
  have hpp := h.placed_proper hu hfine hcat
  obtain ⟨hgood, hP⟩ := h.good hb hpp
  obtain ⟨hst, hbox⟩ := h.bin.hazards
  have hall : (lenv.withGrid (some g)).grid l = readCells (some g) := rfl
  obtain ⟨all, hall'⟩ : ∃ all, readCells (some g) = some all := by
    unfold HPGSampler.new at ho
    dsimp only at ho
    obtain ⟨all, h1, -⟩ := Option.bind_eq_some_iff.1 ho
    exact ⟨all, h1⟩
  have hz : c.cde.allHazards = l.cde.allHazards := by unfold CDE.allHazards; rw [hdyn, hstat]
  have hnd := h.reach.inv.distinct
  rw [List.append_assoc, List.nodup_append] at hnd
  have hi : HInv henv env.o l.cde.statics φ c := hr.inv hnd.1
  have hcgood : c.cde.Good := ⟨by rw [hbb]; exact hgood.box, by rw [hz]; exact hgood.shapes, by rw [hz]; exact hgood.active, by rw [hz, hbb]; exact hgood.fits⟩
  -- the item fits, so the query accepts it
  have hfit : FitsIn l.bin (l.placed.values.filter fun _ => !false) (x.1.shape.transform (Transf.fromDt env.tr dt)).points x.1.hazardFilter := by
    exact ⟨hroom.inside, hroom.holes, hroom.zones, fun pi hpi => hroom.apart pi (List.mem_of_mem_filter hpi)⟩
  obtain ⟨b, hb1, hb2⟩ := h.query_iff hf hb hpp hsp (filt := x.1.hazardFilter) (skip := fun _ => false) (irr := lbfIrrelevant x.1 l)
    (by
      intro y hy
      rw [mem_lbfIrrelevant_iff hy]
      simp) (by simp)
  rw [hb2.2 hfit, hf] at hb1
  have hok : c.cde.polyCollides Fpa.exact (x.1.shape.transform (Transf.fromDt env.tr dt)) (lbfIrrelevant x.1 l) = some false := by
    obtain ⟨b', hq1, hq2⟩ := C05_query_decides_feasibility (hhf ▸ hi.reach) hcgood hsp (irr := lbfIrrelevant x.1 l) (by rw [hz]; exact fun y hy _ => hP y hy)
    obtain ⟨b'', hr1, hr2⟩ := C05_query_decides_feasibility (hf ▸ h.reach) hgood hsp (irr := lbfIrrelevant x.1 l) (fun y hy _ => hP y hy)
    rw [hb1] at hr1
    obtain rfl := Option.some.inj hr1
    rw [hq1]
    rw [hz, hbb] at hq2
    cases b' with
    | false => rfl
    | true => exact absurd (hr2.2 (hq2.1 rfl)) (by simp)
  have hdynmem : ∀ y ∈ l.cde.dynamics, ∃ pi ∈ l.placed.values, y.shape.val = pi.shape.val ∧ y.entity = pi.entity := by
    intro y hy
    obtain ⟨pi, hpi, he⟩ := List.mem_map.1 (h.hazards.mem_iff.1 (List.mem_map_of_mem (f := Hazard.erase) hy))
    exact ⟨pi, hpi, (congrArg (fun h : Hazard K => h.shape.val) he).symm, (congrArg (fun h : Hazard K => h.entity) he).symm⟩
  obtain ⟨y, hy, hyp, hyc⟩ := C51_no_placement_lost hmono hs hhf hce hnd.1 hr hcgood
    ⟨⟨.binExterior, l.bin.outer, true⟩, by rw [h.statics, hst]; exact mem_binHazards.2 (.inl rfl), rfl⟩
    (by
      intro y hy
      rw [hdyn] at hy
      obtain ⟨pi, -, -, e⟩ := hdynmem y hy
      rw [e]
      rfl)
    (by
      intro y hy s hsur p hp
      rw [hdyn] at hy
      obtain ⟨pi, hpi, e1, e2⟩ := hdynmem y hy
      obtain ⟨z, hz, hzc⟩ := hcat pi hpi
      rw [e1, (h.ok pi hpi).2, hzc] at hsur ⊢
      rw [e2]
      obtain ⟨s', hs', rfl⟩ := Option.map_eq_some_iff.1 (show z.1.shape.surrogate.map (·.transform (Transf.fromDt env.tr pi.dt)) = some s from hsur)
      obtain ⟨p', hp', rfl⟩ := List.mem_map.1 (show p ∈ s'.poles.map (·.transform (Transf.fromDt env.tr pi.dt)) from hp)
      obtain ⟨r1, r2⟩ := (hins z hz).poles s' hs' p' hp'
      exact ⟨r1, Circle.moved_subset (Transf.IsRigid.rotTransl hu ..) r2⟩)
    (by unfold HCDE.hazProxGrid; rw [hcg]; simp [hdirty] : c.hazProxGrid = some (some g)) hq hsp
    (Circle.moved_subset hrig (hins x hx).poi)
    (by
      intro y _ hm hmat
      obtain ⟨q, z, i, e1, e2, hle⟩ := mem_lbfIrrelevant hm
      rw [e2] at hmat
      exact absurd hle (not_le.2 (hmat q (hfil ▸ e1))))
    (by rw [hz]; exact fun y hy _ => hP y hy) hmax hok
  -- this cell meets the bin
  have hcell := hr.cell_pos hmono (hs 0 le_rfl).1 hgood.box hcg hy
  have hin : x.1.shape.poi.center.transform (Transf.fromDt env.tr dt) ∈ interior l.bin.outer.val.points :=
    hroom.inside (.inr hsp.poi)
  have hinner := interior_subset_inner hin
  rw [← hb.outer.wf.bbox_eq] at hinner
  have hsub : l.bin.outer.val.bbox.xMax ≤ l.cde.bbox.xMax ∧ l.bin.outer.val.bbox.yMax ≤ l.cde.bbox.yMax := by
    rw [h.bbox, hbox]
    have hc := inflate_contains l.bin.outer.val.bbox
    have hv := hb.outer.wf.bbox_valid
    have := hc (show (⟨l.bin.outer.val.bbox.xMax, l.bin.outer.val.bbox.yMax⟩ : Point K) ∈ l.bin.outer.val.bbox.pts from ⟨hv.1.le, le_rfl, hv.2.le, le_rfl⟩)
    exact ⟨this.2.1, this.2.2.2⟩
  obtain ⟨⟨y1, y2, y3, y4⟩, y5, y6⟩ := hyp
  obtain ⟨r, hr1, hr2⟩ := AARect.fromIntersection_mem (b := l.bin.outer.val.bbox) hcell
    ⟨y1, y5 (hinner.2.1.trans_le hsub.1), y3, y6 (hinner.2.2.2.trans_le hsub.2)⟩ hinner
  have hmem : y ∈ all := by
    unfold readCells at hall'
    rw [Option.bind_some, hdirty] at hall'
    cases hall'
    exact List.mem_filterMap.2 ⟨some y, hy, rfl⟩
  obtain ⟨s, e1, ⟨d, hd, e2, e3⟩, e4⟩ := HPGSampler.keeps ho (hall.trans hall') hmem hyc hr1
  exact ⟨s, e1, e4, d, hd, e3, e2 ▸ hr2⟩

/-- **A layout with room for an item is searched**, and so is the place where the item fits. -/
theorem Layout.Inv.searched {env : Env K} (hf : env.f = Fpa.exact) (hu : env.tr.Unit) {cat : ℕ → Item K} {l : Layout K n} (h : l.Inv env cat)
    (hb : l.bin.Shapes) {items : List (Item K × ℕ)} (hcat : ∀ pi ∈ l.placed.values, ∃ x ∈ items, cat pi.itemId = x.1)
    (hfine : ∀ x ∈ items, x.1.Fine) (hins : ∀ x ∈ items, x.1.Inscribed)
    {henv : HEnv K} (hmono : ∀ x y, 0 ≤ x → x < y → henv.sqrt x < henv.sqrt y) (hs : henv.SqrtUpper) (hhf : henv.f = Fpa.exact) (hce : henv.CeilExact)
    {nCells : ℕ} {g : Option (HPG K)} (hg : l.Fresh henv nCells g) {x : Item K × ℕ} (hx : x ∈ items) (hq : x.1.baseQuality.getD nQualities ≤ nQualities)
    (hfil : x.1.hazardFilter = x.1.baseQuality) (hmax : x.1.shape.poi.radius < henv.fmax) {lenv : LEnv K n R} {addr : ℕ} {dt : DTransf K}
    (hroom : Feasible l.bin (PlacedItem.new env addr x.1 dt :: l.placed.values))
    {o : Option (HPGSampler K)} (ho : HPGSampler.new (lenv.withGrid g) x.1 l = some o) :
    ∃ s, o = some s ∧ s.pretransform = Transf.fromTranslation (-x.1.shape.poi.center.x) (-x.1.shape.poi.center.y) ∧ ∃ d ∈ s.cells,
      UniformRot.ofItem lenv x.1 = some d.rot ∧ d.bbox.xMin ≤ (x.1.shape.poi.center.transform (Transf.fromDt env.tr dt)).x ∧
      (x.1.shape.poi.center.transform (Transf.fromDt env.tr dt)).x < d.bbox.xMax ∧ d.bbox.yMin ≤ (x.1.shape.poi.center.transform (Transf.fromDt env.tr dt)).y ∧
      (x.1.shape.poi.center.transform (Transf.fromDt env.tr dt)).y < d.bbox.yMax := by
  cases g with
  | none =>
    unfold HPGSampler.new at ho
    dsimp only at ho
    obtain ⟨all, h1, -⟩ := Option.bind_eq_some_iff.1 ho
    cases h1
  | some g =>
    obtain ⟨c, hr, hcg, hdirty, hdyn, hstat, hbb⟩ := h.gridReach (hhf.trans hf.symm) hg
    exact h.searchedIn hf hu hb hcat hfine hins hmono hs hhf hce hr hcg hdirty hdyn hstat hbb hx hq hfil hmax
      ⟨hroom.inside _ List.mem_cons_self, hroom.holes _ List.mem_cons_self, hroom.zones _ List.mem_cons_self, (List.pairwise_cons.1 hroom.apart).1⟩ ho

end Jagua
