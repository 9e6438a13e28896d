import Verif.Spec.Json
import Verif.Props.SimplifySafe
import Verif.Props.LBF
import Verif.Lemmas.SimpleInside
import Verif.Lemmas.StripGeo
import Verif.Lemmas.Centroid
import Verif.Lemmas.Measured

/-!
# Parsing shapes, items and bins
-/

set_option linter.unusedSectionVars false

namespace Jagua

variable {K : Type*} [Field K] [LinearOrder K] [IsStrictOrderedRing K] {n : ℕ}

/-! ## Shapes -/

theorem jsonPoints_eq {pts : List (Point K)} (h : SimplePoly (openOutline pts)) : jsonPoints pts = some (openOutline pts) := by
  cases pts with
  | nil => exact absurd h.1 (by simp [openOutline])
  | cons a l =>
    unfold jsonPoints openOutline
    have e : (a :: l).getLast? = some ((a :: l).getLast (by simp)) := List.getLast?_eq_some_getLast (by simp)
    rw [e, List.head?_cons]
    dsimp only
    by_cases ha : a = (a :: l).getLast (by simp)
    · rw [if_pos ha, if_pos (by rw [← ha])]
      rw [List.dropLast_eq_take]
    · rw [if_neg ha, if_neg (fun h => ha (Option.some.inj h)), List.take_length]

/-- What the reading of a simple polygon is to give. -/
structure ReadPoly (mode : SimplMode) (exact : Prop) (P : List (Point K)) (s : SPoly K) : Prop where
  proper : s.Proper
  area : signedArea s.points ≠ 0
  pos : s.area = signedArea s.points
  covers : mode.covers P s.points
  same : exact → region s.points = region P ∧ interior s.points = interior P
  measured : s.Measured

theorem SPoly.new_simple (poi : List (Point K) → Circle K) {pts : List (Point K)} (h : SimplePoly pts) : ∃ s, SPoly.new poi pts = some s := by
  unfold SPoly.new
  rw [if_neg (not_lt.2 h.1), if_neg (not_not.2 h.2.1)]
  dsimp only
  rw [calculateArea_eq, if_neg h.area_ne_zero]
  exact ⟨_, rfl⟩

theorem SPoly.new_points_simple {poi : List (Point K) → Circle K} {pts : List (Point K)} {s : SPoly K} (h : SimplePoly pts)
    (hs : SPoly.new poi pts = some s) : SimplePoly s.points := by
  obtain ⟨-, -, -, -, h5, -⟩ := SPoly.new_spec hs
  rw [h5]
  split_ifs
  · exact h.reverse
  · exact h

theorem SPoly.new_proper {poi : List (Point K) → Circle K} (hpoi : PoiInside poi) {pts : List (Point K)} {s : SPoly K} (h : SimplePoly s.points)
    (hs : SPoly.new poi pts = some s) : s.Proper ∧ signedArea s.points ≠ 0 ∧ s.area = signedArea s.points := by
  obtain ⟨-, -, -, -, -, -, h7⟩ := SPoly.new_spec hs
  refine ⟨⟨SPoly.new_wf hs, h.noSpike, ?_⟩, h.area_ne_zero, (SPoly.new_region hs).2.2.1.symm⟩
  rw [h7]
  exact hpoi _ h.interior_nonempty

theorem convertPoly_ok {penv : PEnv K} {cfg : ParserConfig K} {mode : SimplMode} {pts : List (Point K)} (hpoi : PoiInside penv.poi)
    (ht : ∀ tol, cfg.tolerance = some tol → mode.tolOk tol) (h : SimplePoly (openOutline pts)) :
    ∃ s, convertPoly penv cfg mode pts = some s ∧ ReadPoly mode (cfg.tolerance = none) (openOutline pts) s := by
  obtain ⟨s, hs⟩ := SPoly.new_simple penv.poi h
  have hsp := SPoly.new_points_simple h hs
  obtain ⟨r1, r2, -⟩ := SPoly.new_region hs
  have hreg : region s.points = region (openOutline pts) := by unfold region; rw [r1, r2]
  unfold convertPoly
  rw [jsonPoints_eq h, Option.bind_some, hs, Option.bind_some]
  cases htol : cfg.tolerance with
  | none =>
    obtain ⟨p1, p2, p3⟩ := SPoly.new_proper hpoi hsp hs
    refine ⟨s, rfl, p1, p2, p3, ?_, fun _ => ⟨hreg, r1⟩, SPoly.new_measured hsp hs⟩
    cases mode
    · exact hreg.superset
    · exact hreg.subset
  | some tol =>
    obtain ⟨t, e1, e2, e3⟩ := simplifyShape_safe penv.poi (ht tol htol) h hs
    refine ⟨t, e1, ?_⟩
    obtain ⟨out, -, ho⟩ := Option.bind_eq_some_iff.1 e1
    obtain ⟨p1, p2, p3⟩ := SPoly.new_proper hpoi e2 ho
    exact ⟨p1, p2, p3, e3, by simp, SPoly.new_measured e2 ho⟩

theorem PoiInside.rects {poi : List (Point K) → Circle K} (h : PoiInside poi) : PoiOfRects poi := by
  intro r poly hp
  obtain ⟨-, -, -, -, -, -, h7⟩ := SPoly.new_spec hp
  rw [h7]
  apply h
  obtain ⟨hv, -⟩ := SPoly.ofRect_spec hp
  refine ⟨⟨(poly.bbox.xMin + poly.bbox.xMax) / 2, (poly.bbox.yMin + poly.bbox.yMax) / 2⟩, (SPoly.ofRect_interior hp _).2 ?_⟩
  obtain ⟨h1, h2⟩ := hv
  exact ⟨by simp only; linarith, by simp only; linarith, by simp only; linarith, by simp only; linarith⟩

theorem convertRect_ok {penv : PEnv K} {w h : K} (hpoi : PoiInside penv.poi) (hw : 0 < w) (hh : 0 < h) (mode : SimplMode) (ex : Prop) :
    ∃ s, convertRect penv w h = some s ∧ ReadPoly mode ex [⟨0, 0⟩, ⟨w, 0⟩, ⟨w, h⟩, ⟨0, h⟩] s := by
  unfold convertRect
  rw [AARect.new_valid hw hh, Option.bind_some]
  have hv : (⟨0, 0, w, h⟩ : AARect K).Valid := ⟨hw, hh⟩
  have e := SPoly.ofRect_eq penv.poi hv
  refine ⟨_, e, SPoly.ofRect_proper hpoi.rects e, ?_, ?_, ?_, fun _ => ⟨rfl, rfl⟩, SPoly.new_measured (rect_simple hw hh) e⟩
  · have := (SPoly.new_region e).2.2.1
    rw [this]
    show (w - 0) * (h - 0) ≠ 0
    simp [hw.ne', hh.ne']
  · exact (SPoly.new_region e).2.2.1.symm
  · cases mode <;> exact subset_rfl

theorem convertShape_ok {penv : PEnv K} {cfg : ParserConfig K} {js : JsonShape K} (hpoi : PoiInside penv.poi) (h : js.Plain) :
    ∃ s, convertShape penv cfg js = some s ∧ ReadPoly .inflate (cfg.tolerance = none) js.corners s := by
  cases js with
  | rectangle w h' => exact convertRect_ok hpoi h.1 h.2 _ _
  | simplePolygon pts => exact convertPoly_ok hpoi (fun _ _ => trivial) h
  | polygon _ _ => exact absurd h id
  | multiPolygon _ => exact absurd h id

/-! ## Moving shapes -/

theorem transform_translM (tx ty : K) (v : Point K) : v.transform (Transf.translM tx ty) = transPt tx ty v := by
  unfold Point.transform Transf.translM transPt
  ext <;> simp

/-- What a shape is after the pretransformation. -/
structure ReadMoved (mode : SimplMode) (exact : Prop) (tx ty : K) (P : List (Point K)) (s : SPoly K) : Prop where
  proper : s.Proper
  area : signedArea s.points ≠ 0
  covers : match mode with
    | .inflate => MovedCovers tx ty P s.points
    | .deflate => MovedInside tx ty P s.points
  same : exact → MovedSame tx ty P s.points
  measured : s.Measured

theorem transPt_zero (v : Point K) : transPt 0 0 v = v := by unfold transPt; ext <;> simp

theorem ReadPoly.still {mode : SimplMode} {ex : Prop} {P : List (Point K)} {s : SPoly K} (h : ReadPoly mode ex P s) : ReadMoved mode ex 0 0 P s := by
  refine ⟨h.proper, h.area, ?_, fun he v => ?_, h.measured⟩
  · have := h.covers
    cases mode
    · intro v hv; rw [transPt_zero]; exact this hv
    · intro v hv; rw [transPt_zero] at hv; exact this hv
  · obtain ⟨e1, e2⟩ := h.same he
    rw [transPt_zero, e1, e2]
    exact ⟨Iff.rfl, Iff.rfl⟩

theorem ReadPoly.moved {mode : SimplMode} {ex : Prop} {P : List (Point K)} {s : SPoly K} (h : ReadPoly mode ex P s) (tx ty : K) :
    ReadMoved mode ex tx ty P (s.transform (Transf.translM tx ty)) := by
  have hr := Transf.IsRigid.transl (K := K) tx ty
  have e : ∀ v, transPt tx ty v = v.transform (Transf.translM tx ty) := fun v => (transform_translM tx ty v).symm
  have hreg : ∀ v, transPt tx ty v ∈ region (s.transform (Transf.translM tx ty)).points ↔ v ∈ region s.points := fun v => by
    rw [e]; exact hr.map.region
  have hint : ∀ v, transPt tx ty v ∈ interior (s.transform (Transf.translM tx ty)).points ↔ v ∈ interior s.points := fun v => by
    rw [e]; exact hr.map.interior
  refine ⟨SPoly.transform_proper h.proper h.area hr, ?_, ?_, fun he v => ?_, h.measured.transform hr⟩
  · show signedArea (s.points.map _) ≠ 0
    rw [hr.map.signedArea]
    exact h.area
  · have := h.covers
    cases mode
    · intro v hv; exact (hreg v).2 (this hv)
    · intro v hv; exact this ((hreg v).1 hv)
  · obtain ⟨e1, e2⟩ := h.same he
    rw [hreg, hint, e1, e2]
    exact ⟨Iff.rfl, Iff.rfl⟩

theorem KeepsShape.read {surr : SPoly K → SPoly K} (hs : KeepsShape surr) {mode : SimplMode} {ex : Prop} {P : List (Point K)} {s : SPoly K}
    (h : ReadPoly mode ex P s) : ReadPoly mode ex P (surr s) := by
  obtain ⟨x, e⟩ := hs s
  rw [e]
  exact ⟨⟨⟨h.proper.wf.bbox_eq, h.proper.wf.bbox_valid, h.proper.wf.nonempty⟩, h.proper.noSpike, h.proper.poi⟩, h.area, h.pos, h.covers, h.same, ⟨h.measured.simple, h.measured.pos, h.measured.area⟩⟩

theorem KeepsShape.readMoved {surr : SPoly K → SPoly K} (hs : KeepsShape surr) {mode : SimplMode} {ex : Prop} {tx ty : K} {P : List (Point K)}
    {s : SPoly K} (h : ReadMoved mode ex tx ty P s) : ReadMoved mode ex tx ty P (surr s) := by
  obtain ⟨x, e⟩ := hs s
  rw [e]
  exact ⟨⟨⟨h.proper.wf.bbox_eq, h.proper.wf.bbox_valid, h.proper.wf.nonempty⟩, h.proper.noSpike, h.proper.poi⟩, h.area, h.covers, h.same, ⟨h.measured.simple, h.measured.pos, h.measured.area⟩⟩

theorem Trig.AtZero.centering {tr : Trig K} (hz : tr.AtZero) (s : SPoly K) :
    Transf.fromDt tr s.centeringTransformation = Transf.translM (-s.centroid.x) (-s.centroid.y) := by
  unfold Transf.fromDt SPoly.centeringTransformation Transf.rotTranslM Transf.translM
  ext <;> simp [hz.1, hz.2]

theorem empty_eq_translM : (Transf.empty : Transf K) = Transf.translM 0 0 := by unfold Transf.empty Transf.translM; rfl

theorem empty_transform (t : Transf K) : (Transf.empty : Transf K).transform t = t := by
  unfold Transf.transform
  exact dotProd_empty t

/-! ## Items -/

/-- An item as it should come out of the parser. -/
structure ReadItem (penv : PEnv K) (cfg : ParserConfig K) (j : JsonItem K) (i : ℕ) (x : Item K) : Prop where
  id : x.id = i
  quality : x.baseQuality = j.baseQuality
  filter : x.hazardFilter = j.baseQuality
  value : x.value = j.value.getD 0
  rotation : x.allowedRotation = parseRotations penv j.allowedOrientations
  shape : ∃ tx ty, x.pretransform = Transf.translM tx ty ∧ ReadMoved .inflate (cfg.tolerance = none) tx ty j.shape.corners x.shape ∧
    (cfg.center = false → tx = 0 ∧ ty = 0)
  centered : cfg.center = true → x.shape.centroid = ⟨0, 0⟩

theorem parseItem_ok {penv : PEnv K} {cfg : ParserConfig K} (hpoi : PoiInside penv.poi) (hsurr : KeepsShape penv.surr) (hz : penv.tr.AtZero)
    {j : JsonItem K} (h : j.shape.Plain) (i : ℕ) :
    ∃ x, parseItem penv cfg j i = some (x, j.demand) ∧ ReadItem penv cfg j i x := by
  obtain ⟨s, hs, hr⟩ := convertShape_ok (cfg := cfg) hpoi h
  unfold parseItem
  rw [hs, Option.map_some]
  refine ⟨_, rfl, ?_⟩
  have hrs := hsurr.read hr
  by_cases hc : cfg.center = true
  · rw [if_pos hc, hz.centering]
    unfold pretransformItem Item.new
    dsimp only
    refine ⟨rfl, rfl, rfl, rfl, rfl, ⟨_, _, empty_transform _, hsurr.readMoved (hrs.moved _ _), fun h => by rw [hc] at h; cases h⟩, fun _ => ?_⟩
    obtain ⟨y, e⟩ := hsurr ((penv.surr s).transform (Transf.translM (-(penv.surr s).centroid.x) (-(penv.surr s).centroid.y)))
    rw [e]
    have := SPoly.centroid_transform (s := penv.surr s) hrs.pos (by rw [hrs.pos]; exact hrs.area)
      (Transf.IsRigid.transl (-(penv.surr s).centroid.x) (-(penv.surr s).centroid.y))
    have e2 : ∀ (q : SPoly K) y, ({ q with surrogate := y } : SPoly K).centroid = q.centroid := fun q y => rfl
    rw [e2, this, transform_translM]
    unfold transPt
    simp
  · rw [if_neg hc]
    exact ⟨rfl, rfl, rfl, rfl, rfl, ⟨0, 0, empty_eq_translM, hrs.still, fun _ => ⟨rfl, rfl⟩⟩, fun h => absurd h hc⟩

/-! ## Bins -/

/-- A bin with the shapes it was made of. -/
structure Allocated (env : Env K) (id : ℕ) (outer : SPoly K) (value : ℕ) (pre : Transf K) (holes : List (SPoly K)) (zones : List (ℕ × List (SPoly K)))
    (b : Bin K n) : Prop where
  built : b.Built env
  id : b.id = id
  outer : b.outer.val = outer
  value : b.value = value
  pre : b.pretransform = pre
  holes : b.holes.map (·.val) = holes
  zones : ∀ q ss, (q, ss) ∈ zones ↔ ∃ z, some z ∈ b.qualityZones ∧ z.quality = q ∧ z.zones.map (·.val) = ss
  table : ((b.qualityZones.filterMap _root_.id).map (·.quality)).Nodup ∧ ∀ z, some z ∈ b.qualityZones → z.quality < nQualities
  area : b.area = b.outer.val.area - (b.holes.map (·.val.area)).sum

theorem zipIdx_map_map {α β γ : Type*} (l : List α) (f : α × ℕ → β) (g : β → γ) (h : α → γ) (he : ∀ a i, g (f (a, i)) = h a) :
    (l.zipIdx.map f).map g = l.map h := by
  rw [List.map_map]
  have : (g ∘ f) = fun x : α × ℕ => h x.1 := by funext ⟨a, i⟩; exact he a i
  rw [this]
  have e : (l.zipIdx.map fun x : α × ℕ => h x.1) = (l.zipIdx.map Prod.fst).map h := by rw [List.map_map]; rfl
  rw [e, List.zipIdx_map_fst]

theorem zoneTable_qualities {zones : List (QualityZone K)} (hn : (zones.map (·.quality)).Nodup) :
    (((zoneTable zones).filterMap _root_.id).map (·.quality)).Nodup := by
  rw [List.Nodup, List.pairwise_map, List.pairwise_filterMap, List.pairwise_iff_getElem]
  intro i j hi hj hij a ha b hb he
  have e1 : (zoneTable zones)[i]? = some (some a) := by rw [List.getElem?_eq_getElem hi]; exact congrArg some ha
  have e2 : (zoneTable zones)[j]? = some (some b) := by rw [List.getElem?_eq_getElem hj]; exact congrArg some hb
  have q1 := ((zoneTable_getElem hn).1 e1).2.1
  have q2 := ((zoneTable_getElem hn).1 e2).2.1
  omega

theorem allocBin_ok (env : Env K) (addr : ℕ → ℕ → ℕ) (id : ℕ) (outer : SPoly K) (value : ℕ) (pre : Transf K) (holes : List (SPoly K))
    {zones : List (ℕ × List (SPoly K))} (hn : (zones.map (·.1)).Nodup) (hq : ∀ z ∈ zones, z.1 < nQualities) :
    ∃ b : Bin K n, allocBin env n addr id outer value pre holes zones = some b ∧ Allocated env id outer value pre holes zones b := by
  unfold allocBin
  set H : List (Arc (SPoly K)) := holes.zipIdx.map fun h => ⟨addr 1 h.2, h.1⟩ with hH
  set Z : List (QualityZone K) := zones.zipIdx.map fun z => ⟨z.1.1, z.1.2.zipIdx.map fun s => ⟨addr (2 + z.2) s.2, s.1⟩⟩ with hZ
  have eZ : Z.map (fun z => (z.quality, z.zones.map (·.val))) = zones := by
    rw [hZ, zipIdx_map_map (h := _root_.id)]
    · exact List.map_id _
    · intro a i
      refine Prod.ext rfl ?_
      show (a.2.zipIdx.map _).map _ = a.2
      rw [zipIdx_map_map (h := _root_.id) (he := fun _ _ => rfl), List.map_id]
  have eH : H.map (·.val) = holes := by
    rw [hH, zipIdx_map_map (h := _root_.id) (he := fun _ _ => rfl), List.map_id]
  have hn' : (Z.map (·.quality)).Nodup := by
    have : ∀ Z : List (QualityZone K), Z.map (·.quality) = (Z.map fun z => (z.quality, z.zones.map (·.val))).map (·.1) := fun Z => by
      rw [List.map_map]; rfl
    rw [this, eZ]
    exact hn
  have hq' : ∀ z ∈ Z, z.quality < nQualities := by
    intro z hz
    have : (z.quality, z.zones.map (·.val)) ∈ zones := by rw [← eZ]; exact List.mem_map_of_mem hz
    exact hq _ this
  obtain ⟨b, hb⟩ := (Bin.new_spec (n := n) env id ⟨addr 0 0, outer⟩ value pre H Z).1 ⟨hn', hq'⟩
  obtain ⟨-, h1, h2, h3, h4, -, -, -, -, -, h5, h6⟩ := (Bin.new_spec env id ⟨addr 0 0, outer⟩ value pre H Z).2 b hb
  have hT : b.qualityZones = zoneTable Z := by
    unfold Bin.new at hb
    split_ifs at hb
    obtain ⟨c, _, rfl⟩ := Option.map_eq_some_iff.1 hb
    rfl
  refine ⟨b, hb, ⟨_, _, _, _, _, _, hb⟩, h1, by rw [h2], h5, h6, by rw [h3, eH], ?_, ⟨by rw [hT]; exact zoneTable_qualities hn', ?_⟩, ?_⟩
  · intro q ss
    rw [hT]
    constructor
    · intro h
      rw [← eZ] at h
      obtain ⟨z, hz, e⟩ := List.mem_map.1 h
      exact ⟨z, (mem_zoneTable hn' hq').2 hz, congrArg Prod.fst e, congrArg Prod.snd e⟩
    · rintro ⟨z, hz, rfl, rfl⟩
      have : (z.quality, z.zones.map (·.val)) ∈ Z.map (fun z => (z.quality, z.zones.map (·.val))) :=
        List.mem_map_of_mem ((mem_zoneTable hn' hq').1 hz)
      rwa [eZ] at this
  · intro z hz
    rw [hT] at hz
    exact hq' z ((mem_zoneTable hn' hq').1 hz)
  · rw [h4, h2, h3, fsum_eq]

/-- A bin as it should come out of the parser. -/
structure ReadBin (penv : PEnv K) (cfg : ParserConfig K) (j : JsonBin K) (i : ℕ) (tx ty : K) (b : Bin K n) : Prop where
  built : b.Built penv.toEnv
  id : b.id = i
  pre : b.pretransform = Transf.translM tx ty
  outer : ReadMoved .deflate (cfg.tolerance = none) tx ty j.shape.corners b.outer.val
  holes : List.Forall₂ (fun h s => ReadMoved .inflate (cfg.tolerance = none) tx ty h s) j.shape.holes (b.holes.map (·.val))
  zones : ∀ z ∈ j.zones, ∃ z', some z' ∈ b.qualityZones ∧ z'.quality = z.quality ∧
    ∃ s ∈ z'.zones, ReadMoved .inflate (cfg.tolerance = none) tx ty z.shape.corners s.val
  noMore : ∀ z', some z' ∈ b.qualityZones → ∀ s ∈ z'.zones, ∃ z ∈ j.zones, z.quality = z'.quality ∧
    ReadMoved .inflate (cfg.tolerance = none) tx ty z.shape.corners s.val
  centered : cfg.center = true → b.outer.val.centroid = ⟨0, 0⟩
  uncentered : cfg.center = false → tx = 0 ∧ ty = 0

theorem parseOuter_ok {penv : PEnv K} {cfg : ParserConfig K} {js : JsonShape K} (hpoi : PoiInside penv.poi)
    (ht : ∀ tol, cfg.tolerance = some tol → tol < 1) (h : js.PlainWithHoles) :
    ∃ s, parseOuter penv cfg js = some s ∧ ReadPoly .deflate (cfg.tolerance = none) js.corners s := by
  cases js with
  | rectangle w h' => exact convertRect_ok hpoi h.1 h.2 _ _
  | simplePolygon pts => exact convertPoly_ok hpoi ht h
  | polygon _ _ => exact convertPoly_ok hpoi ht h.1
  | multiPolygon _ => exact absurd h _root_.id

theorem mapM_rel {α β : Type*} {f : α → Option β} {R : α → β → Prop} : ∀ {l : List α}, (∀ a ∈ l, ∃ b, f a = some b ∧ R a b) →
    ∃ bs, l.mapM f = some bs ∧ List.Forall₂ R l bs
  | [], _ => ⟨[], rfl, .nil⟩
  | a :: l, h => by
    obtain ⟨b, hb, hr⟩ := h a List.mem_cons_self
    obtain ⟨bs, hbs, hrs⟩ := mapM_rel (f := f) (R := R) (l := l) fun x hx => h x (List.mem_cons_of_mem _ hx)
    refine ⟨b :: bs, ?_, .cons hr hrs⟩
    rw [List.mapM_cons, hb, hbs]
    rfl

theorem parseHoles_ok {penv : PEnv K} {cfg : ParserConfig K} {js : JsonShape K} (hpoi : PoiInside penv.poi) (h : js.PlainWithHoles) :
    ∃ ss, parseHoles penv cfg js = some ss ∧ List.Forall₂ (fun h s => ReadPoly .inflate (cfg.tolerance = none) h s) js.holes ss := by
  cases js with
  | rectangle w h' => exact ⟨[], rfl, .nil⟩
  | simplePolygon pts => exact ⟨[], rfl, .nil⟩
  | polygon outer inner =>
    obtain ⟨ss, h1, h2⟩ := mapM_rel (f := convertPoly penv cfg .inflate)
      (R := fun pts s => ReadPoly .inflate (cfg.tolerance = none) (openOutline pts) s) (l := inner)
      fun pts hp => convertPoly_ok hpoi (fun _ _ => trivial) (h.2 pts hp)
    exact ⟨ss, h1, List.forall₂_map_left_iff.2 h2⟩
  | multiPolygon _ => exact absurd h _root_.id

theorem parseZones_ok {penv : PEnv K} {cfg : ParserConfig K} {zs : List (JsonZone K)} (hpoi : PoiInside penv.poi) (h : ∀ z ∈ zs, z.shape.Plain) :
    ∃ out, parseZones penv cfg zs = some out ∧ out.map (·.1) = List.range nQualities ∧
      ∀ q ss, (q, ss) ∈ out → List.Forall₂ (fun (z : JsonZone K) s => ReadPoly .inflate (cfg.tolerance = none) z.shape.corners s)
        (zs.filter fun z => z.quality = q) ss := by
  unfold parseZones
  obtain ⟨out, h1, h2⟩ := mapM_rel (f := fun q => ((zs.filter fun z => z.quality = q).mapM fun (z : JsonZone K) => convertShape penv cfg z.shape).map
      fun ss => (q, ss)) (R := fun q x => x.1 = q ∧ List.Forall₂ (fun (z : JsonZone K) s => ReadPoly .inflate (cfg.tolerance = none) z.shape.corners s)
        (zs.filter fun z => z.quality = x.1) x.2) (l := List.range nQualities) (by
    intro q _
    obtain ⟨ss, e1, e2⟩ := mapM_rel (f := fun (z : JsonZone K) => convertShape penv cfg z.shape)
      (R := fun (z : JsonZone K) s => ReadPoly .inflate (cfg.tolerance = none) z.shape.corners s) (l := zs.filter fun z => z.quality = q)
      fun z hz => convertShape_ok hpoi (h z (List.mem_filter.1 hz).1)
    exact ⟨(q, ss), by rw [e1, Option.map_some], rfl, e2⟩)
  refine ⟨out, h1, ?_, ?_⟩
  · have : List.Forall₂ (fun q x => x = q) (List.range nQualities) (out.map (·.1)) := by
      rw [List.forall₂_map_right_iff]
      exact h2.imp fun _ _ h => h.1
    exact (List.forall₂_eq_eq_eq ▸ this.imp (fun _ _ h => h.symm) : List.range nQualities = out.map (·.1)).symm
  · intro q ss hm
    obtain ⟨q', -, hr⟩ := forall₂_exists_left h2 hm
    exact hr.2

/-- The shapes of a bin before centering. -/
structure ReadParts (cfg : ParserConfig K) (j : JsonBin K) (outer : SPoly K) (holes : List (SPoly K)) (zones : List (ℕ × List (SPoly K))) : Prop where
  outer : ReadPoly .deflate (cfg.tolerance = none) j.shape.corners outer
  holes : List.Forall₂ (fun h s => ReadPoly .inflate (cfg.tolerance = none) h s) j.shape.holes holes
  names : zones.map (·.1) = List.range nQualities
  zones : ∀ q ss, (q, ss) ∈ zones → List.Forall₂ (fun (z : JsonZone K) s => ReadPoly .inflate (cfg.tolerance = none) z.shape.corners s)
    (j.zones.filter fun z => z.quality = q) ss

theorem parseBin_ok {penv : PEnv K} {cfg : ParserConfig K} (hpoi : PoiInside penv.poi) (hz : penv.tr.AtZero)
    (ht : ∀ tol, cfg.tolerance = some tol → tol < 1) {j : JsonBin K} (h : j.shape.PlainWithHoles) (hzs : ∀ z ∈ j.zones, z.shape.Plain)
    (hq : ∀ z ∈ j.zones, z.quality < nQualities) (addr addr' : ℕ → ℕ → ℕ) (i : ℕ) :
    ∃ (b : Bin K n) (tx ty : K), parseBin penv cfg n addr addr' j i = some (b, j.stock.getD penv.maxU64) ∧ ReadBin penv cfg j i tx ty b ∧
      b.area = b.outer.val.area - (b.holes.map (·.val.area)).sum ∧ b.value = penv.toU64 b.area := by
  obtain ⟨outer, o1, o2⟩ := parseOuter_ok hpoi ht h
  obtain ⟨holes, g1, g2⟩ := parseHoles_ok (cfg := cfg) hpoi h
  obtain ⟨zones, z1, z2, z3⟩ := parseZones_ok (cfg := cfg) hpoi hzs
  have hn : (zones.map (·.1)).Nodup := by rw [z2]; exact List.nodup_range
  have hlt : ∀ z ∈ zones, z.1 < nQualities := fun z hz => List.mem_range.1 (z2 ▸ List.mem_map_of_mem hz)
  have hall : ∀ q, q < nQualities → ∃ ss, (q, ss) ∈ zones := by
    intro q hq
    have : q ∈ zones.map (·.1) := by rw [z2]; exact List.mem_range.2 hq
    obtain ⟨⟨q', ss⟩, hm, rfl⟩ := List.mem_map.1 this
    exact ⟨ss, hm⟩
  obtain ⟨base, b1, b2⟩ := allocBin_ok (n := n) penv.toEnv addr i outer (penv.toU64 (outer.area - (holes.map (·.area)).sum)) Transf.empty holes hn hlt
  have e0 : parseBin penv cfg n addr addr' j i =
      (if cfg.center then pretransformBin penv.toEnv addr' base (Transf.fromDt penv.tr base.outer.val.centeringTransformation) else some base).map fun bin =>
        (bin, j.stock.getD penv.maxU64) := by
    unfold parseBin
    simp only [fsum_eq]; rw [o1, Option.bind_some, g1, Option.bind_some, if_neg (not_not.2 hq), z1, Option.bind_some, b1, Option.bind_some]
  have hareas : ∀ (hs : List (Arc (SPoly K))), (hs.map (·.val.area)).sum = ((hs.map (·.val)).map (·.area)).sum := by
    intro hs; rw [List.map_map]; rfl
  by_cases hc : cfg.center = true
  · set t := Transf.translM (-base.outer.val.centroid.x) (-base.outer.val.centroid.y) with ht'
    set Z := (base.qualityZones.filterMap _root_.id).map fun z => (z.quality, z.zones.map fun s => s.val.transform t) with hZ
    have hZn : (Z.map (·.1)).Nodup := by
      have : Z.map (·.1) = (base.qualityZones.filterMap _root_.id).map (·.quality) := by rw [hZ, List.map_map]; rfl
      rw [this]
      exact b2.table.1
    have hZq : ∀ z ∈ Z, z.1 < nQualities := by
      intro z hz
      obtain ⟨z', hz', rfl⟩ := List.mem_map.1 hz
      obtain ⟨o, ho, rfl⟩ := List.mem_filterMap.1 hz'
      exact b2.table.2 z' (by simpa using ho)
    obtain ⟨b, c1, c2⟩ := allocBin_ok (n := n) penv.toEnv addr' base.id (base.outer.val.transform t) base.value (base.pretransform.transform t)
      (base.holes.map fun h => h.val.transform t) hZn hZq
    have hb : pretransformBin penv.toEnv addr' base (Transf.fromDt penv.tr base.outer.val.centeringTransformation) = some b := by
      rw [hz.centering]
      exact c1
    have hmZ : ∀ z', some z' ∈ b.qualityZones → ∃ ss, (z'.quality, ss) ∈ zones ∧ z'.zones.map (·.val) = ss.map fun s => s.transform t := by
      intro z' hz'
      have := (c2.zones z'.quality (z'.zones.map (·.val))).2 ⟨z', hz', rfl, rfl⟩
      obtain ⟨w, hw, e⟩ := List.mem_map.1 this
      obtain ⟨o, ho, rfl⟩ := List.mem_filterMap.1 hw
      have hw' : some w ∈ base.qualityZones := by simpa using ho
      have hwz := (b2.zones w.quality (w.zones.map (·.val))).2 ⟨w, hw', rfl, rfl⟩
      have e1 := congrArg Prod.fst e
      have e2 := congrArg Prod.snd e
      dsimp only at e1 e2
      refine ⟨_, e1 ▸ hwz, ?_⟩
      rw [← e2, List.map_map]
      rfl
    refine ⟨b, -base.outer.val.centroid.x, -base.outer.val.centroid.y, ?_, ⟨c2.built, c2.id.trans b2.id, ?_, ?_, ?_, ?_, ?_, ?_, fun h => by rw [hc] at h; cases h⟩, c2.area, ?_⟩
    · rw [e0, if_pos hc, hb, Option.map_some]
    · rw [c2.pre, b2.pre, empty_transform]
    · rw [c2.outer, ht', b2.outer]
      exact o2.moved _ _
    · rw [c2.holes]
      have : (base.holes.map fun h => h.val.transform t) = holes.map fun s => s.transform t := by rw [← b2.holes, List.map_map]; rfl
      rw [this, List.forall₂_map_right_iff]
      exact g2.imp fun _ _ h => h.moved _ _
    · intro z hzm
      obtain ⟨ss, hss⟩ := hall z.quality (hq z hzm)
      obtain ⟨w, hw, e1, e2⟩ := (b2.zones _ _).1 hss
      obtain ⟨z', hz', e3, e4⟩ := (c2.zones z.quality (ss.map fun s => s.transform t)).1 (by
        rw [hZ]
        refine List.mem_map.2 ⟨w, List.mem_filterMap.2 ⟨some w, hw, rfl⟩, ?_⟩
        rw [e1, ← e2, List.map_map]
        rfl)
      refine ⟨z', hz', e3, ?_⟩
      obtain ⟨s, hs, hr⟩ := forall₂_exists_right (z3 _ _ hss) (List.mem_filter.2 ⟨hzm, by simp⟩ : z ∈ j.zones.filter fun z' => z'.quality = z.quality)
      have : s.transform t ∈ z'.zones.map (·.val) := by rw [e4]; exact List.mem_map_of_mem hs
      obtain ⟨a, ha, e⟩ := List.mem_map.1 this
      refine ⟨a, ha, ?_⟩
      rw [e]
      exact hr.moved _ _
    · intro z' hz' s hs
      obtain ⟨ss, hss, e⟩ := hmZ z' hz'
      have : s.val ∈ ss.map fun s => s.transform t := by rw [← e]; exact List.mem_map_of_mem hs
      obtain ⟨s0, hs0, e'⟩ := List.mem_map.1 this
      obtain ⟨z, hz, hr⟩ := forall₂_exists_left (z3 _ _ hss) hs0
      obtain ⟨hz1, hz2⟩ := List.mem_filter.1 hz
      refine ⟨z, hz1, by simpa using hz2, ?_⟩
      rw [← e']
      exact hr.moved _ _
    · intro _
      rw [c2.outer, SPoly.centroid_transform (by rw [b2.outer]; exact o2.pos) (by rw [b2.outer, o2.pos]; exact o2.area) (Transf.IsRigid.transl _ _),
        transform_translM]
      unfold transPt
      simp
    · rw [c2.value, c2.area, b2.value, hareas, c2.outer, c2.holes, ← b2.outer, ← b2.holes, List.map_map, List.map_map]
      rfl
  · refine ⟨base, 0, 0, ?_, ⟨b2.built, b2.id, ?_, ?_, ?_, ?_, ?_, fun h => absurd h hc, fun _ => ⟨rfl, rfl⟩⟩, b2.area, ?_⟩
    · rw [e0, if_neg hc, Option.map_some]
    · rw [b2.pre, empty_eq_translM]
    · rw [b2.outer]
      exact o2.still
    · rw [b2.holes]
      exact g2.imp fun _ _ h => h.still
    · intro z hzm
      obtain ⟨ss, hss⟩ := hall z.quality (hq z hzm)
      obtain ⟨w, hw, e1, e2⟩ := (b2.zones _ _).1 hss
      refine ⟨w, hw, e1, ?_⟩
      obtain ⟨s, hs, hr⟩ := forall₂_exists_right (z3 _ _ hss) (List.mem_filter.2 ⟨hzm, by simp⟩ : z ∈ j.zones.filter fun z' => z'.quality = z.quality)
      rw [← e2] at hs
      obtain ⟨a, ha, e⟩ := List.mem_map.1 hs
      refine ⟨a, ha, ?_⟩
      rw [e]
      exact hr.still
    · intro z' hz' s hs
      have hss := (b2.zones z'.quality (z'.zones.map (·.val))).2 ⟨z', hz', rfl, rfl⟩
      obtain ⟨z, hz, hr⟩ := forall₂_exists_left (z3 _ _ hss) (List.mem_map_of_mem (f := (·.val)) hs)
      obtain ⟨hz1, hz2⟩ := List.mem_filter.1 hz
      exact ⟨z, hz1, by simpa using hz2, hr.still⟩
    · rw [b2.value, b2.area, hareas, b2.outer, b2.holes]

theorem ReadBin.shapes {penv : PEnv K} {cfg : ParserConfig K} {j : JsonBin K} {i : ℕ} {tx ty : K} {b : Bin K n} (h : ReadBin penv cfg j i tx ty b) :
    b.Shapes := by
  refine ⟨h.outer.proper, fun s hs => ?_, fun z hz s hs => ?_⟩
  · obtain ⟨_, -, hr⟩ := forall₂_exists_left h.holes (List.mem_map_of_mem (f := (·.val)) hs)
    exact hr.proper
  · obtain ⟨_, -, -, hr⟩ := h.noMore z hz s hs
    exact hr.proper

/-! ## Instances -/

/-- The parsed items. -/
abbrev ReadItems (penv : PEnv K) (cfg : ParserConfig K) (js : List (JsonItem K)) (items : List (Item K × ℕ)) : Prop :=
  List.Forall₂ (fun (x : JsonItem K × ℕ) (y : Item K × ℕ) => y.2 = x.1.demand ∧ ReadItem penv cfg x.1 x.2 y.1) js.zipIdx items

/-- The parsed bins. -/
abbrev ReadBins (penv : PEnv K) (cfg : ParserConfig K) (js : List (JsonBin K)) (bins : List (Bin K n × ℕ)) : Prop :=
  List.Forall₂ (fun (x : JsonBin K × ℕ) (y : Bin K n × ℕ) => y.2 = x.1.stock.getD penv.maxU64 ∧ (∃ tx ty, ReadBin penv cfg x.1 x.2 tx ty y.1) ∧
    y.1.value = penv.toU64 y.1.area) js.zipIdx bins

theorem parseItems_ok {penv : PEnv K} {cfg : ParserConfig K} (hpoi : PoiInside penv.poi) (hsurr : KeepsShape penv.surr) (hz : penv.tr.AtZero)
    {js : List (JsonItem K)} (h : ∀ j ∈ js, j.shape.Plain) :
    ∃ items, (js.zipIdx.mapM fun (x : JsonItem K × ℕ) => parseItem penv cfg x.1 x.2) = some items ∧ ReadItems penv cfg js items := by
  refine mapM_rel fun x hx => ?_
  obtain ⟨y, h1, h2⟩ := parseItem_ok (cfg := cfg) hpoi hsurr hz (h x.1 (List.mem_of_getElem? (List.mem_zipIdx_iff_getElem?.1 hx))) x.2
  exact ⟨_, h1, rfl, h2⟩

theorem parseBins_ok {penv : PEnv K} {cfg : ParserConfig K} (hpoi : PoiInside penv.poi) (hz : penv.tr.AtZero)
    (ht : ∀ tol, cfg.tolerance = some tol → tol < 1) {js : List (JsonBin K)}
    (h : ∀ b ∈ js, b.shape.PlainWithHoles ∧ ∀ z ∈ b.zones, z.shape.Plain) (hq : ∀ b ∈ js, ∀ z ∈ b.zones, z.quality < nQualities)
    (addr addr' : ℕ → ℕ → ℕ → ℕ) :
    ∃ bins : List (Bin K n × ℕ), (js.zipIdx.mapM fun (x : JsonBin K × ℕ) => parseBin penv cfg n (addr x.2) (addr' x.2) x.1 x.2) = some bins ∧
      ReadBins penv cfg js bins := by
  refine mapM_rel fun x hx => ?_
  have hm := List.mem_of_getElem? (List.mem_zipIdx_iff_getElem?.1 hx)
  obtain ⟨b, tx, ty, h1, h2, -, h3⟩ := parseBin_ok (n := n) (cfg := cfg) hpoi hz ht (h x.1 hm).1 (h x.1 hm).2 (hq x.1 hm) (addr x.2) (addr' x.2) x.2
  exact ⟨_, h1, rfl, ⟨tx, ty, h2⟩, h3⟩

theorem forall₂_zipIdx_get {α β : Type*} {R : α × ℕ → β → Prop} {l : List α} {m : List β} (h : List.Forall₂ R l.zipIdx m) :
    m.length = l.length ∧ ∀ k a, l[k]? = some a → ∃ b, m[k]? = some b ∧ R (a, k) b := by
  refine ⟨by rw [← h.length_eq, List.length_zipIdx], fun k a hk => ?_⟩
  rw [List.forall₂_iff_get] at h
  obtain ⟨hl, h⟩ := h
  obtain ⟨hk', rfl⟩ := List.getElem?_eq_some_iff.1 hk
  have k1 : k < l.zipIdx.length := by rw [List.length_zipIdx]; exact hk'
  have k2 : k < m.length := by rw [← hl]; exact k1
  refine ⟨m[k], List.getElem?_eq_getElem k2, ?_⟩
  have := h k k1 k2
  simpa using this

theorem all_zipIdx_of_get {α : Type*} {l : List α} {f : α × ℕ → Bool} (h : ∀ k a, l[k]? = some a → f (a, k) = true) : l.zipIdx.all f = true := by
  rw [List.all_eq_true]
  rintro ⟨a, k⟩ hx
  exact h k a (List.mem_zipIdx_iff_getElem?.1 hx)

theorem ReadItems.ids {penv : PEnv K} {cfg : ParserConfig K} {js : List (JsonItem K)} {items : List (Item K × ℕ)} (h : ReadItems penv cfg js items) :
    items.zipIdx.all (fun x => x.1.1.id = x.2) = true := by
  obtain ⟨hl, hg⟩ := forall₂_zipIdx_get h
  apply all_zipIdx_of_get
  intro k a hk
  have hk' : k < js.length := by rw [← hl]; exact (List.getElem?_eq_some_iff.1 hk).1
  obtain ⟨b, hb, hr⟩ := hg k js[k] (List.getElem?_eq_getElem hk')
  rw [hk] at hb
  cases hb
  simpa using hr.2.id

theorem ReadBins.ids {penv : PEnv K} {cfg : ParserConfig K} {js : List (JsonBin K)} {bins : List (Bin K n × ℕ)} (h : ReadBins penv cfg js bins) :
    bins.zipIdx.all (fun x => x.1.1.id = x.2) = true := by
  obtain ⟨hl, hg⟩ := forall₂_zipIdx_get h
  apply all_zipIdx_of_get
  intro k a hk
  have hk' : k < js.length := by rw [← hl]; exact (List.getElem?_eq_some_iff.1 hk).1
  obtain ⟨b, hb, -, ⟨tx, ty, hr⟩, -⟩ := hg k js[k] (List.getElem?_eq_getElem hk')
  rw [hk] at hb
  cases hb
  simpa using hr.id

theorem parse_bp {penv : PEnv K} {cfg : ParserConfig K} (hpoi : PoiInside penv.poi) (hsurr : KeepsShape penv.surr) (hz : penv.tr.AtZero)
    (ht : ∀ tol, cfg.tolerance = some tol → tol < 1) {ji : JsonInstance K} (h : ji.Sound) {bs : List (JsonBin K)} (hb : ji.bins = some bs)
    (hs : ji.strip = none) (hq : ∀ b ∈ bs, ∀ z ∈ b.zones, z.quality < nQualities) (addr addr' : ℕ → ℕ → ℕ → ℕ) :
    ∃ inst : BPInstance K n, parseInstance penv cfg n addr addr' ji = logParsed penv (.bp inst) ∧ ReadItems penv cfg ji.items inst.items ∧
      ReadBins penv cfg bs inst.bins ∧ BPInstance.new inst.items inst.bins = some inst := by
  obtain ⟨items, e1, e2⟩ := parseItems_ok (cfg := cfg) hpoi hsurr hz h.items
  obtain ⟨bins, e3, e4⟩ := parseBins_ok (n := n) (cfg := cfg) hpoi hz ht (h.bins bs hb) hq addr addr'
  have hnew : BPInstance.new items bins = some ⟨items, bins⟩ := by
    unfold BPInstance.new idsCorrect
    rw [if_pos]
    rw [e2.ids, e4.ids]
    rfl
  refine ⟨⟨items, bins⟩, ?_, e2, e4, hnew⟩
  unfold parseInstance
  rw [e1, Option.bind_some, hb, hs]
  dsimp only
  rw [e3, Option.bind_some, hnew, Option.map_some, Option.bind_some]

theorem parse_sp {penv : PEnv K} {cfg : ParserConfig K} (hpoi : PoiInside penv.poi) (hsurr : KeepsShape penv.surr) (hz : penv.tr.AtZero)
    {ji : JsonInstance K} (h : ∀ j ∈ ji.items, j.shape.Plain) {height : K} (hb : ji.bins = none) (hs : ji.strip = some height)
    (addr addr' : ℕ → ℕ → ℕ → ℕ) :
    ∃ inst : SPInstance K, parseInstance penv cfg n addr addr' ji = logParsed penv (.sp inst) ∧ ReadItems penv cfg ji.items inst.items ∧
      inst.stripHeight = height ∧ inst.Built := by
  obtain ⟨items, e1, e2⟩ := parseItems_ok (cfg := cfg) hpoi hsurr hz h
  have hnew : SPInstance.new items height = some ⟨items, height⟩ := by
    unfold SPInstance.new
    rw [if_pos e2.ids]
  refine ⟨⟨items, height⟩, ?_, e2, rfl, hnew⟩
  unfold parseInstance
  rw [e1, Option.bind_some, hb, hs]
  dsimp only
  rw [hnew, Option.map_some, Option.bind_some]

theorem logParsed_some {penv : PEnv K} {inst inst' : Instance K n} (h : logParsed penv inst = some inst') : inst' = inst := by
  unfold logParsed at h
  split_ifs at h
  exact (Option.some.inj h).symm

/-- If parsing succeeds, the qualities of the zones are admissible. -/
theorem parse_qualities {penv : PEnv K} {cfg : ParserConfig K} {ji : JsonInstance K} {addr addr' : ℕ → ℕ → ℕ → ℕ} {inst : Instance K n}
    (hp : parseInstance penv cfg n addr addr' ji = some inst) {bs : List (JsonBin K)} (hb : ji.bins = some bs) :
    ji.strip = none ∧ ∀ b ∈ bs, ∀ z ∈ b.zones, z.quality < nQualities := by
  unfold parseInstance at hp
  obtain ⟨items, -, hp⟩ := Option.bind_eq_some_iff.1 hp
  rw [hb] at hp
  cases hs : ji.strip with
  | some _ => rw [hs] at hp; cases hp
  | none =>
    refine ⟨rfl, ?_⟩
    rw [hs] at hp
    obtain ⟨_, hp, -⟩ := Option.bind_eq_some_iff.1 hp
    dsimp only at hp
    obtain ⟨bins, hbins, -⟩ := Option.bind_eq_some_iff.1 hp
    intro b hbm
    obtain ⟨k, hk⟩ := List.mem_iff_getElem?.1 hbm
    obtain ⟨y, -, hy⟩ := forall₂_exists_right (mapM_forall₂_of hbins) (List.mem_zipIdx_iff_getElem?.2 hk : (b, k) ∈ bs.zipIdx)
    unfold parseBin at hy
    obtain ⟨_, -, hy⟩ := Option.bind_eq_some_iff.1 hy
    obtain ⟨_, -, hy⟩ := Option.bind_eq_some_iff.1 hy
    by_contra hc
    rw [if_pos hc] at hy
    cases hy

theorem parseRotations_allows {penv : PEnv K} (hrad : penv.toRadians 0 = 0) {j : JsonItem K} {x : Item K}
    (h : x.allowedRotation = parseRotations penv j.allowedOrientations) (a : K) : x.Allows penv.tr a ↔ j.Allows penv.tr penv.toRadians a := by
  unfold Item.Allows JsonItem.Allows
  rw [h]
  unfold parseRotations
  cases j.allowedOrientations with
  | none => exact Iff.rfl
  | some as =>
    cases as with
    | nil => simp
    | cons d as =>
      dsimp only
      by_cases hc : d :: as = [0]
      · rw [if_pos (.inr hc)]
        simp only [List.cons.injEq] at hc
        obtain ⟨rfl, rfl⟩ := hc
        simp [hrad]
      · rw [if_neg (by simp only [List.cons_ne_nil, false_or]; exact hc)]
        constructor
        · rintro ⟨b, hb, hs⟩
          obtain ⟨d', hd, rfl⟩ := List.mem_map.1 hb
          exact ⟨d', hd, hs⟩
        · rintro ⟨d', hd, hs⟩
          exact ⟨_, List.mem_map_of_mem hd, hs⟩

end Jagua
