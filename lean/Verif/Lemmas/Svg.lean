import Verif.Lemmas.SvgTree
import Verif.Lemmas.Compose

/-!
# Lemmas on drawing layouts
-/

set_option linter.unusedSectionVars false

namespace Jagua

variable {K : Type*} [Field K] [LinearOrder K] [IsStrictOrderedRing K] {n : ℕ}

/-! ## Moving back -/

/-- the points of a polygon before it was moved by `(tx, ty)` -/
def unmove (tx ty : K) (pts : List (Point K)) : List (Point K) := pts.map fun v => v.transform (Transf.translM tx ty).inverse

theorem transform_unmove (tx ty : K) (v : Point K) : (transPt tx ty v).transform (Transf.translM tx ty).inverse = v := by
  have h : (Transf.translM tx ty : Transf K).IsRigid := .transl _ _
  rw [← transform_translM, ← transform_dot h, h.inverse_mul, transform_empty]

theorem region_unmove {tx ty : K} {pts : List (Point K)} {v : Point K} : v ∈ region (unmove tx ty pts) ↔ transPt tx ty v ∈ region pts := by
  have h := (Transf.IsRigid.transl tx ty : (Transf.translM tx ty : Transf K).IsRigid).inverse.map.region (pts := pts) (p := transPt tx ty v)
  rw [transform_unmove] at h
  exact h

theorem interior_unmove {tx ty : K} {pts : List (Point K)} {v : Point K} : v ∈ interior (unmove tx ty pts) ↔ transPt tx ty v ∈ interior pts := by
  have h := (Transf.IsRigid.transl tx ty : (Transf.translM tx ty : Transf K).IsRigid).inverse.map.interior (pts := pts) (p := transPt tx ty v)
  rw [transform_unmove] at h
  exact h

theorem ReadMoved.over {ex : Prop} {tx ty : K} {P : List (Point K)} {s : SPoly K} (h : ReadMoved .inflate ex tx ty P s) :
    DrawnOver ex P (unmove tx ty s.points) :=
  ⟨fun v hv => region_unmove.2 (h.covers v hv), fun he => Set.ext fun v => region_unmove.trans (h.same he v).1⟩

theorem ReadMoved.under {ex : Prop} {tx ty : K} {P : List (Point K)} {s : SPoly K} (h : ReadMoved .deflate ex tx ty P s) :
    DrawnUnder ex P (unmove tx ty s.points) :=
  ⟨fun v hv => h.covers v (region_unmove.1 hv), fun he => Set.ext fun v => region_unmove.trans (h.same he v).1⟩

/-! ## The parts of the picture -/

theorem Bin.Built.table {env : Env K} {b : Bin K n} (h : b.Built env) :
    ((b.qualityZones.filterMap _root_.id).map (·.quality)).Nodup ∧ ∀ z, some z ∈ b.qualityZones → z.quality < nQualities := by
  obtain ⟨id, outer, value, pre, holes, zones, hb⟩ := h
  obtain ⟨⟨hn, hq⟩, -⟩ := (Bin.new_spec env id outer value pre holes zones).2 b hb
  have hT : b.qualityZones = zoneTable zones := by
    unfold Bin.new at hb
    split_ifs at hb
    obtain ⟨c, _, rfl⟩ := Option.map_eq_some_iff.1 hb
    rfl
  rw [hT]
  exact ⟨zoneTable_qualities hn, fun z hz => hq z ((mem_zoneTable hn hq).1 hz)⟩

theorem pretransformBin_ok {env : Env K} {b : Bin K n} (h : b.Built env) (addr : ℕ → ℕ → ℕ) (t : Transf K) :
    ∃ b', pretransformBin env addr b t = some b' ∧ Allocated env b.id (b.outer.val.transform t) b.value (b.pretransform.transform t)
      (b.holes.map fun h => h.val.transform t)
      ((b.qualityZones.filterMap id).map fun z => (z.quality, z.zones.map fun s => s.val.transform t)) b' := by
  obtain ⟨h1, h2⟩ := h.table
  refine allocBin_ok env addr _ _ _ _ _ ?_ ?_
  · rw [List.map_map]
    exact h1
  · intro z hz
    obtain ⟨w, hw, rfl⟩ := List.mem_map.1 hz
    obtain ⟨o, ho, rfl⟩ := List.mem_filterMap.1 hw
    exact h2 w (by simpa using ho)

theorem drawZones_ok {theme : SvgTheme} (ht : theme.qzFill.length = nQualities) {b : Bin K n}
    (hq : ∀ z, some z ∈ b.qualityZones → z.quality < nQualities) :
    ∃ zs, drawZones theme b = some zs ∧ ∀ q P, (∃ s ∈ zs, s.quality = q ∧ s.path.points = P) ↔
      ∃ z, some z ∈ b.qualityZones ∧ z.quality = q ∧ ∃ s ∈ z.zones, s.val.points = P := by
  unfold drawZones
  have hmem : ∀ z : QualityZone K, z ∈ b.qualityZones.reverse.filterMap id ↔ some z ∈ b.qualityZones := by
    intro z
    simp only [List.mem_filterMap, List.mem_reverse, id_eq, exists_eq_right]
  obtain ⟨zs, e, hr⟩ := mapM_rel (l := b.qualityZones.reverse.filterMap id)
    (f := fun (qz : QualityZone K) => (theme.qzFill[qz.quality]?).map fun color =>
      qz.zones.map fun s => (⟨qz.quality, ⟨s.val.points, color, some color.darker⟩⟩ : SvgZone K))
    (R := fun qz ss => ∃ color, ss = qz.zones.map fun s => (⟨qz.quality, ⟨s.val.points, color, some color.darker⟩⟩ : SvgZone K)) (by
      intro z hz
      have := hq z ((hmem z).1 hz)
      rw [← ht] at this
      rw [List.getElem?_eq_getElem this]
      exact ⟨_, rfl, _, rfl⟩)
  rw [e]
  refine ⟨_, rfl, fun q P => ⟨?_, ?_⟩⟩
  · rintro ⟨s, hs, rfl, rfl⟩
    obtain ⟨ss, hss, hs⟩ := List.mem_flatten.1 hs
    obtain ⟨z, hz, c, rfl⟩ := forall₂_exists_left hr hss
    obtain ⟨a, ha, rfl⟩ := List.mem_map.1 hs
    exact ⟨z, (hmem z).1 hz, rfl, a, ha, rfl⟩
  · rintro ⟨z, hz, rfl, a, ha, rfl⟩
    obtain ⟨ss, hss, c, rfl⟩ := forall₂_exists_right hr ((hmem z).2 hz)
    exact ⟨_, List.mem_flatten.2 ⟨_, hss, List.mem_map_of_mem ha⟩, rfl, rfl⟩

theorem drawItem_ok {env : SvgEnv K} (hk : KeepsShape env.surr) {theme : SvgTheme} (ht : theme.qzFill.length = nQualities) {x : Item K}
    (hq : ∀ q, x.baseQuality = some q → q < nQualities) :
    ∃ d, drawItem env theme x = some d ∧ d.id = x.id ∧ d.path.points = x.shape.points.map fun v => v.transform x.pretransform.inverse := by
  unfold drawItem pretransformItem Item.new
  dsimp only
  obtain ⟨y, hy⟩ := hk (x.shape.transform x.pretransform.inverse)
  rw [hy]
  cases hb : x.baseQuality with
  | none => exact ⟨_, rfl, rfl, rfl⟩
  | some q =>
    have := hq q hb
    rw [← ht] at this
    dsimp only
    rw [List.getElem?_eq_getElem this]
    exact ⟨_, rfl, rfl, rfl⟩

theorem drawSurrogate_ok {env : SvgEnv K} (hs : ∀ s, ∃ x, (env.surr s).surrogate = some x ∧ x.poles ≠ []) (x : Item K) :
    ∃ d, drawSurrogate env x = some d := by
  unfold drawSurrogate pretransformItem Item.new
  dsimp only
  obtain ⟨y, h1, h2⟩ := hs (x.shape.transform x.pretransform.inverse)
  rw [h1, Option.bind_some]
  obtain ⟨c, l, e⟩ := List.exists_cons_of_ne_nil h2
  rw [e]
  exact ⟨_, rfl⟩

theorem hazardProximity_ok {c : HPGCell K} (h : c.qz.length = nQualities) : ∃ d, c.hazardProximity none = some d := by
  unfold HPGCell.hazardProximity
  have key : ∀ (l : List ℕ), (∀ q ∈ l, q < nQualities) → ∀ d : K, ∃ d', l.foldlM (fun (d : K) q => (c.qz[q]?).map fun v => min d v) d = some d' := by
    intro l
    induction l with
    | nil => exact fun _ d => ⟨d, rfl⟩
    | cons q l ih =>
      intro hl d
      have hq : q < c.qz.length := by rw [h]; exact hl q List.mem_cons_self
      rw [List.foldlM_cons, List.getElem?_eq_getElem hq]
      exact ih (fun x hx => hl x (List.mem_cons_of_mem _ hx)) _
  exact key _ (fun q hq => by simpa using hq) _

theorem drawGrid_ok {g : HPG K} (hd : g.isDirty = false) (h : ∀ c, some c ∈ g.grid.cells → c.qz.length = nQualities) : ∃ d, drawGrid (some g) = some d := by
  unfold drawGrid
  rw [Option.bind_some, if_neg (by rw [hd]; simp)]
  obtain ⟨bs, e, -⟩ := mapM_rel (l := g.grid.cells.filterMap id)
    (f := fun (c : HPGCell K) => (c.hazardProximity none).map fun prox => (c.centroid, prox, decide (prox = 0))) (R := fun _ _ => True) (by
      intro c hc
      obtain ⟨o, ho, rfl⟩ := List.mem_filterMap.1 hc
      obtain ⟨d, hd⟩ := hazardProximity_ok (h c (by simpa using ho))
      rw [hd]
      exact ⟨_, rfl, trivial⟩)
  exact ⟨bs, e⟩

theorem drawIf_ok {α : Type*} {b : Bool} {x : Option α} (h : b = true → ∃ a, x = some a) : ∃ o, drawIf b x = some o ∧ (o = none ↔ b = false) ∧
    ∀ a, o = some a → x = some a := by
  unfold drawIf
  cases b with
  | false => exact ⟨none, rfl, by simp, by simp⟩
  | true =>
    obtain ⟨a, rfl⟩ := h rfl
    exact ⟨some a, rfl, by simp, by simp⟩

/-- what is in the picture of a layout -/
structure Drawn (env : SvgEnv K) (items : List (Item K × ℕ)) (bx b_y : K) (b : Bin K n) (vals : List (PlacedItem K)) (svg : Svg K) : Prop where
  binId : svg.binId = b.id
  outer : svg.outer.points = unmove bx b_y b.outer.val.points
  holes : svg.holes.map (·.points) = b.holes.map fun h => unmove bx b_y h.val.points
  zones : ∀ q P, (∃ s ∈ svg.zones, s.quality = q ∧ s.path.points = P) ↔
    ∃ z, some z ∈ b.qualityZones ∧ z.quality = q ∧ ∃ s ∈ z.zones, unmove bx b_y s.val.points = P
  defs : List.Forall₂ (fun (x : Item K × ℕ) (d : SvgItem K) => d.id = x.1.id ∧
    d.path.points = x.1.shape.points.map fun v => v.transform x.1.pretransform.inverse) items svg.items
  uses : List.Forall₂ (fun (pi : PlacedItem K) (u : SvgUse K) => u.href = pi.itemId ∧ ∃ x, items[pi.itemId]? = some x ∧
    u.transform = env.transformToSvg (internalToAbsolute env.tr pi.dt x.1.pretransform b.pretransform)) vals svg.uses
  view : svg.InView

theorem scale_view {r : AARect K} (hx : r.xMin ≤ r.xMax) (hy : r.yMin ≤ r.yMax) {p : Point K} (hp : p ∈ r.pts) :
    (r.scale (105 / 100)).xMin ≤ p.x ∧ p.x ≤ (r.scale (105 / 100)).xMin + (r.scale (105 / 100)).width ∧
    (r.scale (105 / 100)).yMin ≤ p.y ∧ p.y ≤ (r.scale (105 / 100)).yMin + (r.scale (105 / 100)).height := by
  obtain ⟨h1, h2, h3, h4⟩ := hp
  unfold AARect.width AARect.height AARect.scale
  dsimp only
  refine ⟨?_, ?_, ?_, ?_⟩ <;> linarith

theorem layoutToSvg_ok {env : SvgEnv K} (hk : KeepsShape env.surr) {opts : SvgOptions} {hpg : Option (HPG K)} (ho : opts.Drawable env hpg)
    (addr : ℕ → ℕ → ℕ) {inst : Instance K n} {cat : ℕ → Item K} {l : Layout K n} (hl : l.Inv env.toEnv cat) {bx b_y : K}
    (hb : l.bin.pretransform = Transf.translM bx b_y) (hq : ∀ x ∈ inst.items, ∀ q, x.1.baseQuality = some q → q < nQualities)
    (hi : ∀ pi ∈ l.placed.values, pi.itemId < inst.items.length) :
    ∃ svg, layoutToSvg env opts addr inst hpg l = some svg ∧ Drawn env inst.items bx b_y l.bin l.placed.values svg ∧
      (∀ d, svg.quadtree = some d → d.1 = env.transformToSvg l.bin.pretransform.inverse ∧ l.cde.tree.draw [] ⟨[], [], []⟩ = some d.2) ∧
      (svg.quadtree = none ↔ opts.quadtree = false) ∧
      (∀ d, svg.hazProxGrid = some d → d.1 = env.transformToSvg l.bin.pretransform.inverse ∧ drawGrid hpg = some d.2) ∧
      (svg.hazProxGrid = none ↔ opts.hazProxGrid = false) := by
  obtain ⟨b', e1, ha⟩ := pretransformBin_ok hl.bin addr l.bin.pretransform.inverse
  obtain ⟨zs, e2, hzs⟩ := drawZones_ok ho.colors ha.table.2
  obtain ⟨ds, e3, hds⟩ := mapM_rel (l := inst.items) (f := fun (x : Item K × ℕ) => drawItem env opts.theme x.1)
    (R := fun x d => d.id = x.1.id ∧ d.path.points = x.1.shape.points.map fun v => v.transform x.1.pretransform.inverse)
    fun x hx => drawItem_ok hk ho.colors (hq x hx)
  obtain ⟨su, e4, -⟩ := drawIf_ok (b := opts.surrogate) (x := inst.items.mapM fun (x : Item K × ℕ) => drawSurrogate env x.1) fun hs => by
    obtain ⟨bs, e, -⟩ := mapM_rel (l := inst.items) (f := fun (x : Item K × ℕ) => drawSurrogate env x.1) (R := fun _ _ => True) fun x _ => by
      obtain ⟨d, hd⟩ := drawSurrogate_ok (ho.surrogates hs) x.1
      exact ⟨d, hd, trivial⟩
    exact ⟨bs, e⟩
  obtain ⟨us, e5, hus⟩ := mapM_rel (l := l.placed.values) (f := drawPlaced env inst.items l.bin)
    (R := fun pi u => u.href = pi.itemId ∧ ∃ x, inst.items[pi.itemId]? = some x ∧
      u.transform = env.transformToSvg (internalToAbsolute env.tr pi.dt x.1.pretransform l.bin.pretransform)) fun pi hpi => by
      have hx := List.getElem?_eq_getElem (hi pi hpi)
      refine ⟨_, by unfold drawPlaced; rw [hx]; rfl, rfl, _, hx, rfl⟩
  obtain ⟨tr, e6, t1, t2⟩ := drawIf_ok (b := opts.quadtree) (x := l.cde.tree.draw [] ⟨[], [], []⟩) fun _ => CDE.draw_total hl.reach
  obtain ⟨gr, e7, t3, t4⟩ := drawIf_ok (b := opts.hazProxGrid) (x := drawGrid hpg) fun hg => by
    obtain ⟨g, rfl, g1, g2⟩ := ho.grid hg
    exact drawGrid_ok g1 g2
  unfold layoutToSvg
  dsimp only
  rw [e1, Option.bind_some, e2, Option.bind_some, e3, Option.bind_some, e4, Option.bind_some, e5, Option.bind_some, e6, Option.bind_some, e7]
  refine ⟨_, rfl, ⟨ha.id, ?_, ?_, ?_, hds, hus, ?_⟩, ?_, ?_, ?_, ?_⟩
  · show b'.outer.val.points = _
    rw [ha.outer, hb]
    rfl
  · show (b'.holes.map fun h => (⟨h.val.points, opts.theme.holeFill, none⟩ : SvgPath K)).map (·.points) = _
    have e : (b'.holes.map fun h => (⟨h.val.points, opts.theme.holeFill, none⟩ : SvgPath K)).map (·.points) = (b'.holes.map (·.val)).map (·.points) := by
      rw [List.map_map, List.map_map]; rfl
    rw [e, ha.holes, List.map_map, hb]
    rfl
  · intro q P
    rw [hzs]
    constructor
    · rintro ⟨z, hz, rfl, s, hs, rfl⟩
      obtain ⟨w, hw, e⟩ := List.mem_map.1 ((ha.zones z.quality (z.zones.map (·.val))).2 ⟨z, hz, rfl, rfl⟩)
      obtain ⟨o, ho', rfl⟩ := List.mem_filterMap.1 hw
      have q1 := congrArg Prod.fst e
      have q2 := congrArg Prod.snd e
      dsimp only at q1 q2
      have : s.val ∈ w.zones.map fun s => s.val.transform l.bin.pretransform.inverse := by rw [q2]; exact List.mem_map_of_mem hs
      obtain ⟨a, ha', e'⟩ := List.mem_map.1 this
      refine ⟨w, by simpa using ho', q1, a, ha', ?_⟩
      rw [← e', hb]
      rfl
    · rintro ⟨w, hw, rfl, a, ha', rfl⟩
      obtain ⟨z, hz, q1, q2⟩ := (ha.zones w.quality (w.zones.map fun s => s.val.transform l.bin.pretransform.inverse)).1
        (List.mem_map.2 ⟨w, List.mem_filterMap.2 ⟨some w, hw, rfl⟩, rfl⟩)
      have : a.val.transform l.bin.pretransform.inverse ∈ z.zones.map (·.val) := by
        rw [q2]; exact List.mem_map_of_mem (f := fun s : Arc (SPoly K) => s.val.transform l.bin.pretransform.inverse) ha'
      obtain ⟨s, hs, e⟩ := List.mem_map.1 this
      refine ⟨z, hz, q1, s, hs, ?_⟩
      rw [e, hb]
      rfl
  · intro p hp
    have hp' : p ∈ b'.outer.val.bbox.pts := by
      have : b'.outer.val.bbox = boundingBox b'.outer.val.points := by rw [ha.outer]; rfl
      rw [this]
      exact region_subset_bbox hp
    exact scale_view (hp'.1.trans hp'.2.1) (hp'.2.2.1.trans hp'.2.2.2) hp'
  · rintro ⟨d1, d2⟩ hd
    cases tr with
    | none => cases hd
    | some d =>
      cases hd
      exact ⟨rfl, t2 _ rfl⟩
  · rw [← t1]
    cases tr <;> simp
  · rintro ⟨d1, d2⟩ hd
    cases gr with
    | none => cases hd
    | some d =>
      cases hd
      exact ⟨rfl, t4 _ rfl⟩
  · rw [← t3]
    cases gr <;> simp

/-! ## What the picture shows -/

theorem transformToSvg_apply {env : SvgEnv K} (hd : env.DegreesBack) (t : Transf K) (v : Point K) :
    (env.transformToSvg t).apply env.tr env.toRadians v =
      transPt (t.decompose env.tr).tx (t.decompose env.tr).ty (rotPt (env.tr.cos (t.decompose env.tr).rotation) (env.tr.sin (t.decompose env.tr).rotation) v) := by
  unfold SvgEnv.transformToSvg SvgTransform.apply
  dsimp only
  obtain ⟨h1, h2⟩ := hd (t.decompose env.tr).rotation
  rw [h1, h2]

/-- what is drawn over the bin is moved like the bin -/
theorem overlay_apply {env : SvgEnv K} (hp : env.tr.Polar) (hd : env.DegreesBack) (bx b_y : K) (v : Point K) :
    (env.transformToSvg (Transf.translM bx b_y).inverse).apply env.tr env.toRadians v = v.transform (Transf.translM bx b_y).inverse := by
  have h : ((Transf.translM bx b_y : Transf K).inverse).IsRigid := (Transf.IsRigid.transl bx b_y).inverse
  rw [transformToSvg_apply hd, ← transform_fromDt, h.decompose hp]

theorem shown_uses {env : SvgEnv K} (hd : env.DegreesBack) {items : List (Item K × ℕ)} {b : Bin K n} :
    ∀ {vals : List (PlacedItem K)} {uses : List (SvgUse K)} {placed : List (JsonPlacedItem K)},
    List.Forall₂ (fun (pi : PlacedItem K) (u : SvgUse K) => u.href = pi.itemId ∧ ∃ x, items[pi.itemId]? = some x ∧
      u.transform = env.transformToSvg (internalToAbsolute env.tr pi.dt x.1.pretransform b.pretransform)) vals uses →
    vals.mapM (composePlaced env.tr items b) = some placed →
    List.Forall₂ (fun (p : JsonPlacedItem K) (u : SvgUse K) => u.href = p.index ∧ ∀ v, u.transform.apply env.tr env.toRadians v = p.place env.tr v)
      placed uses
  | _, _, _, .nil, h => by
    rw [List.mapM_nil] at h
    cases h
    exact .nil
  | _, _, _, .cons (a := pi) (b := u) ⟨h1, x, hx, h2⟩ hr, h => by
    rw [List.mapM_cons] at h
    obtain ⟨p, hp, h⟩ := Option.bind_eq_some_iff.1 h
    obtain ⟨ps, hps, h⟩ := Option.bind_eq_some_iff.1 h
    cases h
    unfold composePlaced at hp
    rw [hx, Option.map_some] at hp
    cases hp
    refine .cons ⟨h1, fun v => ?_⟩ (shown_uses hd hr hps)
    rw [h2, transformToSvg_apply hd]
    rfl

theorem Drawn.items_shown {env : SvgEnv K} (hd : env.DegreesBack) {cfg : ParserConfig K} {ji : JsonInstance K} {items : List (Item K × ℕ)}
    (hri : ReadItems env.toPEnv cfg ji.items items) {bx b_y : K} {b : Bin K n} {vals : List (PlacedItem K)} {svg : Svg K}
    (h : Drawn env items bx b_y b vals svg) {placed : List (JsonPlacedItem K)} (hp : vals.mapM (composePlaced env.tr items b) = some placed) :
    ji.ShownIn env.tr env.toRadians (cfg.tolerance = none) placed svg := by
  obtain ⟨hlen, hg⟩ := forall₂_zipIdx_get hri
  have hl := h.defs.length_eq
  have hget : ∀ (k : ℕ) x, items[k]? = some x → ∃ d, svg.items[k]? = some d ∧ d.id = x.1.id ∧
      d.path.points = x.1.shape.points.map fun v => v.transform x.1.pretransform.inverse := by
    intro k x hx
    have hr := h.defs
    rw [List.forall₂_iff_get] at hr
    obtain ⟨hk, rfl⟩ := List.getElem?_eq_some_iff.1 hx
    have := hr.2 k hk (hl ▸ hk)
    exact ⟨svg.items[k]'(hl ▸ hk), List.getElem?_eq_getElem _, this⟩
  refine ⟨?_, ?_, shown_uses (b := b) hd h.uses hp⟩
  · apply List.ext_getElem?
    intro k
    rw [List.getElem?_map]
    by_cases hk : k < ji.items.length
    · obtain ⟨x, hx, -, hr⟩ := hg k _ (List.getElem?_eq_getElem hk)
      obtain ⟨d, hd, e, -⟩ := hget k x hx
      rw [hd, List.getElem?_range hk, Option.map_some, e]
      exact congrArg some hr.id
    · rw [List.getElem?_eq_none (by omega), List.getElem?_eq_none (by rw [List.length_range]; omega)]
      rfl
  · intro i j hj
    obtain ⟨x, hx, -, hr⟩ := hg i j hj
    obtain ⟨d, hd, -, e⟩ := hget i x hx
    obtain ⟨tx, ty, e1, hm, -⟩ := hr.shape
    refine ⟨d, hd, ?_⟩
    rw [e, e1]
    exact hm.over

theorem Drawn.bin_shown {env : SvgEnv K} {penv : PEnv K} {cfg : ParserConfig K} {items : List (Item K × ℕ)} {bx b_y : K} {b : Bin K n} {j : JsonBin K} {i : ℕ}
    (hr : ReadBin penv cfg j i bx b_y b) {vals : List (PlacedItem K)} {svg : Svg K} (h : Drawn env items bx b_y b vals svg) :
    j.ShownIn (cfg.tolerance = none) svg := by
  refine ⟨?_, ?_, ?_, ?_⟩
  · rw [h.outer]
    exact hr.outer.under
  · have e : (fun (P : List (Point K)) (p : SvgPath K) => DrawnOver (cfg.tolerance = none) P p.points) =
        fun P p => (fun P Q => DrawnOver (cfg.tolerance = none) P Q) P ((fun p : SvgPath K => p.points) p) := rfl
    rw [e, ← List.forall₂_map_right_iff, h.holes]
    have e2 : (b.holes.map fun h => unmove bx b_y h.val.points) = (b.holes.map (·.val)).map fun s => unmove bx b_y s.points := by
      rw [List.map_map]; rfl
    rw [e2, List.forall₂_map_right_iff]
    exact hr.holes.imp fun _ _ hm => hm.over
  · intro z hz
    obtain ⟨z', h1, h2, s, hs, hm⟩ := hr.zones z hz
    obtain ⟨s', a1, a2, a3⟩ := (h.zones z.quality _).2 ⟨z', h1, h2, s, hs, rfl⟩
    exact ⟨s', a1, a2, by rw [a3]; exact hm.over⟩
  · intro s hs
    obtain ⟨z', h1, h2, a, ha, e⟩ := (h.zones s.quality s.path.points).1 ⟨s, hs, rfl, rfl⟩
    obtain ⟨z, hz, q, hm⟩ := hr.noMore z' h1 a ha
    exact ⟨z, hz, q.trans h2, by rw [← e]; exact hm.over⟩

/-- a use covers what the placed item covers, in the coordinates of the input -/
theorem Drawn.shown {env : SvgEnv K} (hd : env.DegreesBack) (hu : env.tr.Unit) (hp : env.tr.Polar) {cfg : ParserConfig K} {ji : JsonInstance K}
    {items : List (Item K × ℕ)} (hri : ReadItems env.toPEnv cfg ji.items items) {bx b_y : K} {b : Bin K n}
    (hb : b.pretransform = Transf.translM bx b_y) {vals : List (PlacedItem K)} {svg : Svg K}
    (h : Drawn env items bx b_y b vals svg)
    (hs : ∀ pi ∈ vals, ∃ x, items[pi.itemId]? = some x ∧ pi.shape.val = x.1.shape.transform (Transf.fromDt env.tr pi.dt)) :
    List.Forall₂ (fun (pi : PlacedItem K) (u : SvgUse K) => u.href = pi.itemId ∧
      ∀ w, w ∈ svg.shown env.tr env.toRadians u ↔ transPt bx b_y w ∈ region pi.shape.val.points) vals svg.uses := by
  have hmem : List.Forall₂ (fun (pi : PlacedItem K) (u : SvgUse K) => pi ∈ vals ∧ u.href = pi.itemId ∧ ∃ x, items[pi.itemId]? = some x ∧
      u.transform = env.transformToSvg (internalToAbsolute env.tr pi.dt x.1.pretransform b.pretransform)) vals svg.uses := by
    have hr := h.uses
    rw [List.forall₂_iff_get] at hr ⊢
    exact ⟨hr.1, fun i h1 h2 => ⟨List.get_mem _ _, hr.2 i h1 h2⟩⟩
  refine hmem.imp ?_
  rintro pi u ⟨hpi, h1, x, hx, h2⟩
  refine ⟨h1, fun w => ?_⟩
  obtain ⟨x', hx', hsh⟩ := hs pi hpi
  rw [hx] at hx'
  cases hx'
  obtain ⟨j, hj, -, hr⟩ := hri.get hx
  obtain ⟨ix, iy, hpre, hm, -⟩ := hr.shape
  obtain ⟨p, ep, hc⟩ := composePlaced_ok (b := b) hu hp hx hpre hb
  have hap : ∀ v, transPt bx b_y (u.transform.apply env.tr env.toRadians v) = (transPt ix iy v).transform (Transf.fromDt env.tr pi.dt) := by
    intro v
    rw [← hc.place, h2, transformToSvg_apply hd]
    unfold composePlaced at ep
    rw [hx, Option.map_some] at ep
    cases ep
    rfl
  have hfind : ∃ d, svg.items.find? (fun d => d.id = u.href) = some d ∧ d.path.points = unmove ix iy x.1.shape.points := by
    have hids : ∀ (k : ℕ) d, svg.items[k]? = some d → d.id = k ∧ ∃ y, items[k]? = some y ∧
        d.path.points = y.1.shape.points.map fun v => v.transform y.1.pretransform.inverse := by
      intro k d hd
      have hr := h.defs
      rw [List.forall₂_iff_get] at hr
      obtain ⟨hk, rfl⟩ := List.getElem?_eq_some_iff.1 hd
      obtain ⟨q1, q2⟩ := hr.2 k (hr.1 ▸ hk) hk
      have hy := List.getElem?_eq_getElem (show k < items.length from hr.1 ▸ hk)
      obtain ⟨j, -, -, hrj⟩ := hri.get hy
      exact ⟨q1.trans hrj.id, _, hy, q2⟩
    have hk : pi.itemId < svg.items.length := by rw [← h.defs.length_eq]; exact (List.getElem?_eq_some_iff.1 hx).1
    cases hf : svg.items.find? (fun d => d.id = u.href) with
    | none =>
      rw [List.find?_eq_none] at hf
      have := hf _ (List.getElem_mem hk)
      obtain ⟨q1, -⟩ := hids _ _ (List.getElem?_eq_getElem hk)
      exact absurd (q1.trans h1.symm) (by simpa using this)
    | some d =>
      refine ⟨d, rfl, ?_⟩
      obtain ⟨k, hk'⟩ := List.mem_iff_getElem?.1 (List.mem_of_find?_eq_some hf)
      obtain ⟨q1, y, hy, q2⟩ := hids k d hk'
      have q3 : d.id = u.href := by simpa using List.find?_some hf
      have : k = pi.itemId := by rw [← q1, q3, h1]
      rw [this, hx] at hy
      cases hy
      rw [q2, hpre]
      rfl
  obtain ⟨d, hfd, hpts⟩ := hfind
  have rd : (Transf.fromDt env.tr pi.dt).IsRigid := .rotTransl hu _ _ _
  unfold Svg.shown
  rw [hfd, hsh]
  dsimp only
  rw [hpts]
  constructor
  · rintro ⟨v, hv, rfl⟩
    rw [hap]
    exact rd.map.region.2 (region_unmove.1 hv)
  · intro hw
    obtain ⟨v, hv⟩ : ∃ v, (transPt ix iy v).transform (Transf.fromDt env.tr pi.dt) = transPt bx b_y w := by
      refine ⟨transPt (-ix) (-iy) ((transPt bx b_y w).transform (Transf.fromDt env.tr pi.dt).inverse), ?_⟩
      have e : ∀ v : Point K, transPt ix iy (transPt (-ix) (-iy) v) = v := by intro v; unfold transPt; ext <;> simp
      rw [e, ← transform_dot rd.inverse, rd.mul_inverse, transform_empty]
    refine ⟨v, ?_, ?_⟩
    · rw [region_unmove]
      rw [← hv] at hw
      exact rd.map.region.1 hw
    · have := hap v
      rw [hv] at this
      unfold transPt at this
      simp only [Point.mk.injEq, add_left_inj] at this
      ext
      · exact this.1
      · exact this.2

/-- a feasible layout is seen as one -/
theorem Drawn.packed {env : SvgEnv K} (hd : env.DegreesBack) (hu : env.tr.Unit) (hp : env.tr.Polar) {cfg : ParserConfig K} {ji : JsonInstance K}
    {items : List (Item K × ℕ)} (hri : ReadItems env.toPEnv cfg ji.items items) {bx b_y : K} {b : Bin K n}
    (hb : b.pretransform = Transf.translM bx b_y) {vals : List (PlacedItem K)} {svg : Svg K} (h : Drawn env items bx b_y b vals svg)
    (hs : ∀ pi ∈ vals, ∃ x, items[pi.itemId]? = some x ∧ pi.hazardFilter = x.1.hazardFilter ∧
      pi.shape.val = x.1.shape.transform (Transf.fromDt env.tr pi.dt)) (hf : Feasible b vals) : svg.Packed env.tr env.toRadians ji := by
  have hsh := h.shown hd hu hp hri hb fun pi hpi => by
    obtain ⟨x, h1, -, h2⟩ := hs pi hpi
    exact ⟨x, h1, h2⟩
  refine ⟨?_, ?_, ?_, ?_⟩
  · refine Forall₂.pairwise ?_ hsh hf.apart
    intro a u a' u' h1 h2 hd
    rw [Set.disjoint_left] at hd ⊢
    exact fun v hv hv' => hd ((h1.2 v).1 hv) ((h2.2 v).1 hv')
  · intro u hu' v hv
    obtain ⟨pi, hpi, -, hr⟩ := forall₂_exists_left hsh hu'
    rw [h.outer]
    exact interior_unmove.2 (hf.inside pi hpi ((hr v).1 hv))
  · intro u hu' q hq
    obtain ⟨pi, hpi, -, hr⟩ := forall₂_exists_left hsh hu'
    have hm : q.points ∈ svg.holes.map (·.points) := List.mem_map_of_mem hq
    rw [h.holes] at hm
    obtain ⟨s, hs', e⟩ := List.mem_map.1 hm
    have hdis := hf.holes pi hpi s hs'
    rw [Set.disjoint_left] at hdis ⊢
    intro v hv hv'
    rw [← e] at hv'
    exact hdis ((hr v).1 hv) (region_unmove.1 hv')
  · intro u hu' j hj z hz hq
    obtain ⟨pi, hpi, hh, hr⟩ := forall₂_exists_left hsh hu'
    obtain ⟨z', h1, h2, a, ha, e⟩ := (h.zones z.quality z.path.points).1 ⟨z, hz, rfl, rfl⟩
    obtain ⟨x, hx, hfil, -⟩ := hs pi hpi
    obtain ⟨j', hj', -, hrj⟩ := hri.get hx
    rw [hh, hj'] at hj
    cases hj
    have hdis := hf.zones pi hpi z' h1 (fun q hq' => by
      rw [h2]
      rw [hfil, hrj.filter] at hq'
      exact hq q hq') a ha
    rw [Set.disjoint_left] at hdis ⊢
    intro v hv hv'
    rw [← e] at hv'
    exact hdis ((hr v).1 hv) (region_unmove.1 hv')

end Jagua
