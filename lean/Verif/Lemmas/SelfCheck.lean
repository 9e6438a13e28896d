import Verif.Model.SelfCheck
import Verif.Lemmas.LBFRun
import Verif.Lemmas.QTCanon
import Verif.Props.Layout
import Verif.Props.Collision
import Verif.Props.Engine

/-!
# The checks on layouts and engines
-/

set_option linter.unusedSectionVars false

namespace Jagua

variable {K : Type*} [Field K] [LinearOrder K] [IsStrictOrderedRing K] {n : ℕ}

/-- Whenever the polygon query is right about the hazards, it tells if the polygon fits in the layout. -/
theorem Layout.Inv.query_iff_of {env : Env K} {cat : ℕ → Item K} {l : Layout K n} (h : l.Inv env cat)
    (hb : l.bin.Shapes) {s : SPoly K} (hs : s.Proper) {filt : Option ℕ}
    {skip : PlacedItem K → Bool} {irr : List (HazardEntity K)}
    (hirr : ∀ x ∈ l.cde.allHazards, x.entity ∈ irr ↔ (∃ pi ∈ l.placed.values, skip pi = true ∧ x.entity = pi.entity) ∨
      ∃ q z i, filt = some q ∧ x.entity = .inferiorQualityZone z i ∧ q ≤ z)
    (hskip : ∀ pi ∈ l.placed.values, ∀ pi' ∈ l.placed.values, skip pi = true → pi.entity = pi'.entity → skip pi' = true)
    {b : Bool} (hq' : b = true ↔ ¬ s.bbox.pts ⊆ l.cde.bbox.pts ∨
      ∃ h ∈ l.cde.allHazards, h.entity ∉ irr ∧ ∃ w ∈ region s.points, w ∈ closedHaz h.entity.position h.shape.val.points) :
    b = false ↔ FitsIn l.bin (l.placed.values.filter fun pi => !skip pi) s.points filt := by
  obtain ⟨hst, hbox⟩ := h.bin.hazards
  have hstat : ∀ x ∈ generateBinHazards l.bin.outer l.bin.holes l.bin.qualityZones, x ∈ l.cde.allHazards := by
    intro x hx
    refine List.mem_append.2 (.inl ?_)
    rw [h.statics, hst]
    exact hx
  have hdyn : ∀ x ∈ l.cde.dynamics, ∃ pi ∈ l.placed.values, x.shape.val = pi.shape.val ∧ x.entity = pi.entity := by
    intro x hx
    obtain ⟨pi, hpi, he⟩ := List.mem_map.1 (h.hazards.mem_iff.1 (List.mem_map_of_mem (f := Hazard.erase) hx))
    exact ⟨pi, hpi, (congrArg (fun h : Hazard K => h.shape.val) he).symm, (congrArg (fun h : Hazard K => h.entity) he).symm⟩
  have hdyn' : ∀ pi ∈ l.placed.values, ∃ x ∈ l.cde.dynamics, x.shape.val = pi.shape.val ∧ x.entity = pi.entity := by
    intro pi hpi
    obtain ⟨x, hx, he⟩ := List.mem_map.1 (h.hazards.mem_iff.2 (List.mem_map_of_mem (f := fun pi : PlacedItem K => pi.haz.erase) hpi))
    exact ⟨x, hx, congrArg (fun h : Hazard K => h.shape.val) he, congrArg (fun h : Hazard K => h.entity) he⟩
  constructor
  · intro hb0
    have hfree : ∀ x ∈ l.cde.allHazards, x.entity ∉ irr → Disjoint (region s.points) (closedHaz x.entity.position x.shape.val.points) := by
      intro x hx hxi
      rw [Set.disjoint_left]
      intro w hw hw'
      have := hq'.2 (.inr ⟨x, hx, hxi, w, hw, hw'⟩)
      rw [hb0] at this
      cases this
    have h1 : ∀ x ∈ l.cde.allHazards, x.entity = .binExterior → x.entity ∉ irr → region s.points ⊆ interior x.shape.val.points := by
      intro x hx he hxi p hp
      have := Set.disjoint_left.1 (hfree x hx hxi) hp
      rw [he] at this
      by_contra hn
      apply this
      by_cases hb : p ∈ bdry x.shape.val.points
      · exact .inl hb
      · exact .inr fun hr => hr.elim hb hn
    have h2 : ∀ x ∈ l.cde.allHazards, x.entity ≠ .binExterior → x.entity ∉ irr → Disjoint (region s.points) (region x.shape.val.points) := by
      intro x hx he hxi
      have := hfree x hx hxi
      have hpos : x.entity.position = .interior := by
        cases hx' : x.entity with
        | binExterior => exact absurd hx' he
        | _ => rfl
      rw [hpos] at this
      exact this
    refine ⟨?_, ?_, ?_, ?_⟩
    · refine h1 ⟨.binExterior, l.bin.outer, true⟩ (hstat _ (mem_binHazards.2 (.inl rfl))) rfl fun hm => ?_
      rcases (hirr _ (hstat _ (mem_binHazards.2 (.inl rfl)))).1 hm with ⟨pi, -, -, he⟩ | ⟨_, _, _, -, he, -⟩
      · simp [PlacedItem.entity] at he
      · cases he
    · intro s' hsm
      obtain ⟨i, hi⟩ := List.mem_iff_getElem?.1 hsm
      have hx := hstat _ (mem_binHazards.2 (.inr (.inl ⟨i, s', hi, rfl⟩)))
      refine h2 _ hx (by simp) fun hm => ?_
      rcases (hirr _ hx).1 hm with ⟨pi, -, -, he⟩ | ⟨_, _, _, -, he, -⟩
      · simp [PlacedItem.entity] at he
      · cases he
    · intro z hz hql s' hsm
      obtain ⟨i, hi⟩ := List.mem_iff_getElem?.1 hsm
      have hx := hstat _ (mem_binHazards.2 (.inr (.inr ⟨z, hz, i, s', hi, rfl⟩)))
      refine h2 _ hx (by simp) fun hm => ?_
      rcases (hirr _ hx).1 hm with ⟨pi, -, -, he⟩ | ⟨q, z', i', hq', he, hle⟩
      · simp [PlacedItem.entity] at he
      · cases he
        exact absurd hle (not_le.2 (hql q hq'))
    · intro pi hpi
      obtain ⟨hpi, hsk⟩ := List.mem_filter.1 hpi
      obtain ⟨x, hx, e1, e2⟩ := hdyn' pi hpi
      have hxa : x ∈ l.cde.allHazards := List.mem_append.2 (.inr hx)
      rw [← e1]
      refine h2 x hxa (by rw [e2]; simp [PlacedItem.entity]) fun hm => ?_
      rcases (hirr x hxa).1 hm with ⟨pi', hpi', hsk', he⟩ | ⟨_, _, _, -, he, -⟩
      · rw [hskip pi' hpi' pi hpi hsk' (he.symm.trans e2)] at hsk
        simp at hsk
      · rw [e2] at he
        simp [PlacedItem.entity] at he
  · intro hfit
    rw [← Bool.not_eq_true, hq']
    rintro (hout | ⟨x, hx, hxi, w, hw, hw'⟩)
    · apply hout
      intro p hp
      rw [hs.wf.bbox_eq] at hp
      obtain ⟨⟨a, ha, ea⟩, ⟨b, hb', eb⟩, ⟨c, hc, ec⟩, d, hd, ed⟩ := boundingBox_attained hs.wf.nonempty
      have key : ∀ v ∈ s.points, v ∈ l.cde.bbox.pts := by
        intro v hv
        have h1 := interior_subset_inner (hfit.inside (.inl (vertex_mem_bdry hv)))
        rw [h.bbox, hbox]
        apply inflate_contains
        rw [hb.outer.wf.bbox_eq]
        exact ⟨h1.1.le, h1.2.1.le, h1.2.2.1.le, h1.2.2.2.le⟩
      exact ⟨(key a ha).1.trans (ea ▸ hp.1), (ec ▸ hp.2.1 : p.x ≤ c.x).trans (key c hc).2.1, (key b hb').2.2.1.trans (eb ▸ hp.2.2.1),
        (ed ▸ hp.2.2.2 : p.y ≤ d.y).trans (key d hd).2.2.2⟩
    · rw [hirr x hx] at hxi
      push Not at hxi
      rcases List.mem_append.1 hx with hx | hx
      · rw [h.statics, hst] at hx
        rcases mem_binHazards.1 hx with rfl | ⟨i, s', hs', rfl⟩ | ⟨z, hz, i, s', hs', rfl⟩
        · rcases hw' with hw' | hw'
          · exact (hfit.inside hw).1 hw'
          · exact hw' (.inr (hfit.inside hw))
        · exact Set.disjoint_left.1 (hfit.holes s' (List.mem_of_getElem? hs')) hw hw'
        · refine Set.disjoint_left.1 (hfit.zones z hz ?_ s' (List.mem_of_getElem? hs')) hw hw'
          intro q hq
          exact hxi.2 q z.quality i hq rfl
      · obtain ⟨pi, hpi, e1, e2⟩ := hdyn x hx
        rw [e1, e2] at hw'
        refine Set.disjoint_left.1 (hfit.apart pi (List.mem_filter.2 ⟨hpi, ?_⟩)) hw hw'
        have := hxi.1 pi hpi
        cases hsk : skip pi with
        | false => rfl
        | true => exact absurd e2 (this hsk)

theorem Layout.Inv.query_iff {env : Env K} (hf : env.f = Fpa.exact) {cat : ℕ → Item K} {l : Layout K n} (h : l.Inv env cat)
    (hb : l.bin.Shapes) (hpp : ∀ pi ∈ l.placed.values, pi.shape.val.Proper) {s : SPoly K} (hs : s.Proper) {filt : Option ℕ}
    {skip : PlacedItem K → Bool} {irr : List (HazardEntity K)}
    (hirr : ∀ x ∈ l.cde.allHazards, x.entity ∈ irr ↔ (∃ pi ∈ l.placed.values, skip pi = true ∧ x.entity = pi.entity) ∨
      ∃ q z i, filt = some q ∧ x.entity = .inferiorQualityZone z i ∧ q ≤ z)
    (hskip : ∀ pi ∈ l.placed.values, ∀ pi' ∈ l.placed.values, skip pi = true → pi.entity = pi'.entity → skip pi' = true) :
    ∃ b, l.cde.polyCollides env.f s irr = some b ∧
      (b = false ↔ FitsIn l.bin (l.placed.values.filter fun pi => !skip pi) s.points filt) := by
  obtain ⟨hg, hP⟩ := h.good hb hpp
  have hr := h.reach
  rw [hf] at hr ⊢
  obtain ⟨b, hq, hq'⟩ := hr.inv.polyCollides_iff hg hs (irr := irr) (fun x hx _ => hP x hx)
  exact ⟨b, hq, h.query_iff_of hb hs hirr hskip hq'⟩

/-- a layout is feasible iff every item fits in the bin with all others -/
theorem feasible_iff {b : Bin K n} {items : List (PlacedItem K)} (hnd : (items.map PlacedItem.entity).Nodup) :
    Feasible b items ↔ ∀ pi ∈ items, FitsIn b (items.filter fun pi' => !decide (pi'.entity = pi.entity)) pi.shape.val.points pi.hazardFilter := by
  have hinj : ∀ a ∈ items, ∀ c ∈ items, a.entity = c.entity → a = c := fun a ha c hc => List.inj_on_of_nodup_map hnd ha hc
  constructor
  · intro h pi hpi
    refine ⟨h.inside pi hpi, h.holes pi hpi, h.zones pi hpi, ?_⟩
    intro pi' hpi'
    obtain ⟨hpi', hne⟩ := List.mem_filter.1 hpi'
    have hne' : pi ≠ pi' := by rintro rfl; simp at hne
    have : Std.Symm fun a c : PlacedItem K => Disjoint (region a.shape.val.points) (region c.shape.val.points) := ⟨fun _ _ hd => hd.symm⟩
    exact h.apart.forall hpi hpi' hne'
  · intro h
    refine ⟨fun pi hpi => (h pi hpi).inside, fun pi hpi => (h pi hpi).holes, fun pi hpi => (h pi hpi).zones, ?_⟩
    refine List.Nodup.pairwise_of_forall_ne (List.Nodup.of_map _ hnd) ?_
    intro a ha c hc hne
    refine (h a ha).apart c (List.mem_filter.2 ⟨hc, ?_⟩)
    simp only [Bool.not_eq_true', decide_eq_false_iff_not]
    exact fun he => hne (hinj c hc a ha he).symm

theorem collisionFreeLoop_spec {env : Env K} {l : Layout K n} (P : PlacedItem K → Prop) (pis : List (PlacedItem K))
    (h : ∀ pi ∈ pis, ∃ b, l.cde.polyCollides env.f pi.shape.val (generateIrrelevant pi.selfFilter l.cde.allHazards) = some b ∧ (b = false ↔ P pi)) :
    ∃ b, collisionFreeLoop env l pis = some b ∧ (b = true ↔ ∀ pi ∈ pis, P pi) := by
  induction pis with
  | nil => exact ⟨true, rfl, by simp⟩
  | cons pi pis ih =>
    obtain ⟨b, hb, hbP⟩ := h pi List.mem_cons_self
    obtain ⟨b', hb', hbP'⟩ := ih fun x hx => h x (List.mem_cons_of_mem _ hx)
    unfold collisionFreeLoop
    rw [hb, Option.bind_some]
    cases b with
    | true =>
      refine ⟨false, rfl, ?_⟩
      simp only [Bool.false_eq_true, false_iff]
      intro hall
      simpa using hbP.2 (hall pi List.mem_cons_self)
    | false =>
      refine ⟨b', hb', ?_⟩
      rw [hbP', List.forall_mem_cons]
      exact ⟨fun hx => ⟨hbP.1 rfl, hx⟩, fun hx => hx.2⟩

theorem mem_selfFilter {hs : List (Hazard K)} {pi : PlacedItem K} {x : Hazard K} (hx : x ∈ hs) :
    x.entity ∈ generateIrrelevant pi.selfFilter hs ↔ x.entity = pi.entity ∨
      ∃ q z i, pi.hazardFilter = some q ∧ x.entity = .inferiorQualityZone z i ∧ q ≤ z := by
  have h0 : x.entity ∈ generateIrrelevant pi.selfFilter hs ↔ pi.selfFilter.isIrrelevant x.entity = true := by
    unfold generateIrrelevant
    rw [List.mem_filterMap]
    constructor
    · rintro ⟨y, hy, he⟩
      split_ifs at he with hi
      rw [← Option.some.inj he]
      exact hi
    · intro hi
      exact ⟨x, hx, by rw [if_pos hi]⟩
  rw [h0]
  unfold PlacedItem.selfFilter
  cases hq : pi.hazardFilter with
  | none => simp [HazardFilter.isIrrelevant, HazardFilter.isIrrelevant.go]
  | some q =>
    cases x.entity <;> simp [HazardFilter.isIrrelevant, HazardFilter.isIrrelevant.go]

/-- the check of a layout is right whenever the queries are -/
theorem Layout.Inv.collisionFree_iff_of {env : Env K} {cat : ℕ → Item K} {l : Layout K n} (h : l.Inv env cat)
    (hb : l.bin.Shapes) (hpp : ∀ pi ∈ l.placed.values, pi.shape.val.Proper)
    (hq : ∀ pi ∈ l.placed.values, ∃ b, l.cde.polyCollides env.f pi.shape.val (generateIrrelevant pi.selfFilter l.cde.allHazards) = some b ∧
      (b = true ↔ ¬ pi.shape.val.bbox.pts ⊆ l.cde.bbox.pts ∨ ∃ h ∈ l.cde.allHazards, h.entity ∉ generateIrrelevant pi.selfFilter l.cde.allHazards ∧
        ∃ w ∈ region pi.shape.val.points, w ∈ closedHaz h.entity.position h.shape.val.points)) :
    ∃ b, layoutIsCollisionFree env l = some b ∧ (b = true ↔ Feasible l.bin l.placed.values) := by
  rw [feasible_iff h.nodup]
  refine collisionFreeLoop_spec _ _ fun pi hpi => ?_
  obtain ⟨b, h1, h2⟩ := hq pi hpi
  refine ⟨b, h1, h.query_iff_of hb (hpp pi hpi) (skip := fun pi' => decide (pi'.entity = pi.entity)) ?_ ?_ h2⟩
  · intro x hx
    rw [mem_selfFilter hx]
    refine or_congr ?_ Iff.rfl
    constructor
    · intro he
      exact ⟨pi, hpi, by simp, he⟩
    · rintro ⟨pi', -, he, he'⟩
      exact he'.trans (by simpa using he)
  · intro a _ c _ ha he
    simp only [decide_eq_true_eq] at ha ⊢
    rw [← he, ha]

/-- the check of a layout is exact -/
theorem Layout.Inv.collisionFree_iff {env : Env K} (hf : env.f = Fpa.exact) {cat : ℕ → Item K} {l : Layout K n} (h : l.Inv env cat)
    (hb : l.bin.Shapes) (hpp : ∀ pi ∈ l.placed.values, pi.shape.val.Proper) :
    ∃ b, layoutIsCollisionFree env l = some b ∧ (b = true ↔ Feasible l.bin l.placed.values) := by
  refine h.collisionFree_iff_of hb hpp fun pi hpi => ?_
  obtain ⟨hg, hP⟩ := h.good hb hpp
  have hr := h.reach
  rw [hf] at hr ⊢
  exact hr.inv.polyCollides_iff hg (hpp pi hpi) (fun x hx _ => hP x hx)

/-- the check of an item to be placed is exact -/
theorem Layout.Inv.itemToPlace_iff {env : Env K} (hf : env.f = Fpa.exact) {cat : ℕ → Item K} {l : Layout K n} (h : l.Inv env cat)
    (hb : l.bin.Shapes) (hpp : ∀ pi ∈ l.placed.values, pi.shape.val.Proper) {item : Item K} {surr : Surrogate K}
    (hsurr : item.shape.surrogate = some surr) {t : Transf K} (hs : (item.shape.transform t).Proper)
    (hin : SurrogateInside (surr.ffPoles.map (·.transform t)) (surr.piers.map (·.transform t)) (item.shape.transform t).points) :
    ∃ b, itemToPlaceDoesNotCollide env item t l = some b ∧
      (b = true ↔ FitsIn l.bin l.placed.values (item.shape.transform t).points item.hazardFilter) := by
  set irr := lbfIrrelevant item l with hirr
  have hmem : ∀ x ∈ l.cde.allHazards, x.entity ∈ irr ↔ (∃ pi ∈ l.placed.values, (fun _ : PlacedItem K => false) pi = true ∧ x.entity = pi.entity) ∨
      ∃ q z i, item.hazardFilter = some q ∧ x.entity = .inferiorQualityZone z i ∧ q ≤ z := by
    intro x hx
    constructor
    · intro hm
      obtain ⟨q, z, i, h1, h2, h3⟩ := mem_lbfIrrelevant hm
      exact .inr ⟨q, z, i, h1, h2, h3⟩
    · rintro (⟨_, _, h, _⟩ | ⟨q, z, i, h1, h2, h3⟩)
      · simp at h
      · rw [hirr]
        unfold lbfIrrelevant generateIrrelevant
        rw [h1]
        refine List.mem_filterMap.2 ⟨x, hx, ?_⟩
        rw [h2]
        simp [HazardFilter.isIrrelevant, h3]
  obtain ⟨b, hq, hq'⟩ := h.query_iff hf hb hpp hs (filt := item.hazardFilter) hmem (by simp)
  have hfil : (l.placed.values.filter fun pi => !(fun _ : PlacedItem K => false) pi) = l.placed.values := by simp
  rw [hfil] at hq'
  obtain ⟨hg, hP⟩ := h.good hb hpp
  have hr := h.reach
  rw [hf] at hr
  have hq2 := hq
  rw [hf] at hq2
  obtain ⟨hit, hhit⟩ := (C01_queries_never_panic hr).2.1 (surr.ffPoles.map (·.transform t)) (surr.piers.map (·.transform t)) irr
  have heq : itemToPlaceDoesNotCollide env item t l = (l.cde.surrogateHits surr t irr).bind fun hit =>
      if hit then some false else (l.cde.polyCollides env.f (item.shape.transform t) irr).map fun collides => !collides := by
    unfold itemToPlaceDoesNotCollide
    rw [hsurr]
    rfl
  rw [heq]
  unfold CDE.surrogateHits
  rw [hhit, Option.bind_some]
  cases hit with
  | false =>
    rw [hq]
    refine ⟨!b, rfl, ?_⟩
    rw [← hq']
    simp
  | true =>
    refine ⟨false, rfl, ?_⟩
    obtain ⟨x, hx, hxi, w, hw, hw'⟩ := C43_surrogate_sound hr hg hin hhit
    obtain ⟨b', hb', hb''⟩ := hr.inv.polyCollides_iff hg hs (irr := irr) (fun x hx _ => hP x hx)
    rw [hq2] at hb'
    cases hb'
    have := hb''.2 (.inr ⟨x, hx, hxi, w, hw, hw'⟩)
    rw [← hq', this]
    simp

/-! ## Trees -/

theorem all4_iff {P : Fin 4 → Bool} : ([0, 1, 2, 3].all P) = true ↔ ∀ i, P i = true := by
  rw [List.all_eq_true]
  refine ⟨fun h i => h i (by fin_cases i <;> simp), fun h i _ => h i⟩

/-- the check for deactivated hazards looks at the hazards of the root only, as far as the result is concerned -/
theorem Canon.noDeactivated_iff {f : Fpa K} {n : ℕ} (nd : QTNode K n) (r : AARect K) (hs : List (QTHazard K)) (h : nd.Canon f r hs) :
    nd.noDeactivated = true ↔ ∀ x ∈ hs, x.active = true := by
  induction nd generalizing r hs with
  | leaf b v =>
    unfold QTNode.noDeactivated
    rw [List.all_eq_true]
    exact ⟨fun hx x hm => hx x (h.2.1.mem.2 hm), fun hx x hm => hx x (h.2.1.mem.1 hm)⟩
  | node b v cs ih =>
    unfold QTNode.noDeactivated
    rw [Bool.and_eq_true, List.all_eq_true, all4_iff]
    constructor
    · exact fun hx x hm => hx.1 x (h.2.1.mem.2 hm)
    · intro hx
      refine ⟨fun x hm => hx x (h.2.1.mem.1 hm), fun i => (ih i _ _ (h.2.2.2 i)).2 ?_⟩
      intro y hy
      obtain ⟨x, hxm, hxy⟩ := List.mem_filterMap.1 hy
      rw [(constrictTo_entity hxy).2]
      exact hx x hxm

theorem find?_active {v : QTHazardVec K} {hs : List (QTHazard K)} (h : VecInv v hs) {e : HazardEntity K} {a : Bool}
    (ha : ∀ x ∈ hs, x.entity = e → x.active = a) : (match v.hazards.find? fun h => h.entity = e with
    | some h => h.active == a
    | none => true) = true := by
  generalize hf : List.find? _ v.hazards = r
  rcases r with _ | x
  · rfl
  · have h1 := List.mem_of_find?_eq_some hf
    have h2 := List.find?_some hf
    simpa using ha x (h.mem.1 h1) (by simpa using h2)

theorem Canon.sameEverywhere {f : Fpa K} {n : ℕ} (nd : QTNode K n) (r : AARect K) (hs : List (QTHazard K)) (h : nd.Canon f r hs)
    {e : HazardEntity K} {a : Bool} (ha : ∀ x ∈ hs, x.entity = e → x.active = a) : nd.sameEverywhere e a = true := by
  induction nd generalizing r hs with
  | leaf b v => exact find?_active h.2.1 ha
  | node b v cs ih =>
    unfold QTNode.sameEverywhere
    rw [Bool.and_eq_true, all4_iff]
    refine ⟨find?_active h.2.1 ha, fun i => ih i _ _ (h.2.2.2 i) ?_⟩
    intro y hy he
    obtain ⟨x, hxm, hxy⟩ := List.mem_filterMap.1 hy
    obtain ⟨h1, h2⟩ := constrictTo_entity hxy
    rw [h2]
    exact ha x hxm (h1.symm.trans he)

theorem CDE.Inv.activationConsistent {f : Fpa K} {c : CDE K n} (h : c.Inv f) : c.activationConsistent = true := by
  unfold CDE.activationConsistent
  rw [List.all_eq_true]
  intro x hx
  refine Canon.sameEverywhere _ _ _ h.canon ?_
  have hxm := h.canon.vec.mem.1 hx
  intro y hy he
  have hd := h.distinctTree
  by_contra hne
  have hxy : y ≠ x := fun h => hne (by rw [h])
  have : Std.Symm fun a b : QTHazard K => a.entity ≠ b.entity := ⟨fun _ _ hd => hd.symm⟩
  exact (List.Pairwise.forall hd hy hxm hxy) he

theorem CDE.Inv.noDeactivated_iff {f : Fpa K} {c : CDE K n} (h : c.Inv f) :
    c.tree.noDeactivated = true ↔ c.hasUncommitted = false := by
  rw [Canon.noDeactivated_iff _ _ _ h.canon]
  unfold CDE.hasUncommitted
  rw [Bool.not_eq_false', List.isEmpty_iff]
  constructor
  · intro hx
    by_contra hne
    obtain ⟨u, hu⟩ := List.exists_mem_of_ne_nil _ hne
    have := hx (QTHazard.ofInactive u) (by unfold CDE.treeHaz; exact List.mem_append.2 (.inr (List.mem_map_of_mem hu)))
    cases this
  · intro hu x hx
    unfold CDE.treeHaz at hx
    rw [hu] at hx
    simp only [List.map_nil, List.append_nil, ← List.map_append] at hx
    obtain ⟨y, hy, rfl⟩ := List.mem_map.1 hx
    rfl

end Jagua
