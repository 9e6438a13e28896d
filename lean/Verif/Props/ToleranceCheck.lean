import Verif.Lemmas.ToleranceRun
import Verif.Lemmas.SelfCheck
import Verif.Spec.ToleranceCheck
import Verif.Props.SelfCheck
import Verif.Props.ToleranceRun

/-!
# C68 for the check of a layout: it is exact although comparisons have a tolerance
-/

set_option linter.unusedSectionVars false

namespace Jagua

variable {K : Type*} [Field K] [LinearOrder K] [IsStrictOrderedRing K] {n : ℕ}

theorem Layout.Tolerates.hazards {env : Env K} {cat : ℕ → Item K} {l : Layout K n} (hi : l.Inv env cat) {M ε : K} (ht : l.Tolerates M ε) :
    ∀ y ∈ l.cde.allHazards, Bounded y.shape.val.points M ∧ y.shape.val.Roomy ε := by
  intro y hy
  rcases List.mem_append.1 hy with hy | hy
  · rw [hi.statics, hi.bin.hazards.1] at hy
    rcases mem_binHazards.1 hy with rfl | ⟨i, a, ha, rfl⟩ | ⟨z, hz, i, a, ha, rfl⟩
    · exact ht.outer
    · exact ht.holes a (List.mem_of_getElem? ha)
    · exact ht.zones z hz a (List.mem_of_getElem? ha)
  · obtain ⟨pi, hpi, he⟩ := List.mem_map.1 (hi.hazards.mem_iff.1 (List.mem_map_of_mem (f := Hazard.erase) hy))
    rw [show y.shape.val = pi.shape.val from (congrArg (fun h : Hazard K => h.shape.val) he).symm]
    exact ht.items pi hpi

/-- C68: if the tolerance is small compared to the bin and to the items where they are placed, the check of a layout is as good as without
tolerance: it never panics and says "collision free" exactly for the layouts in which all items lie inside the bin, off the holes, off
the zones of too low a quality and apart from each other. The items may collide. -/
theorem C68_layout_check {env : Env K} {M ε : K} (hf : env.f.Tolerant M ε) (hu : env.tr.Unit) {cat : ℕ → Item K} {st : LayoutState K n}
    (h : st.Reachable env cat) (hb : st.layout.bin.Shapes)
    (hcat : ∀ pi ∈ st.layout.placed.values, (cat pi.itemId).shape.Proper ∧ signedArea (cat pi.itemId).shape.points ≠ 0)
    (ht : st.layout.Tolerates M ε) :
    ∃ b, layoutIsCollisionFree env st.layout = some b ∧ (b = true ↔ Feasible st.layout.bin st.layout.placed.values) := by
  have hi := h.inv.layout
  have hpp : ∀ pi ∈ st.layout.placed.values, pi.shape.val.Proper := fun pi hpi => by
    rw [(hi.ok pi hpi).2]
    exact Item.Fine.placed ⟨(hcat pi hpi).1, (hcat pi hpi).2⟩ hu _
  obtain ⟨hg, hP⟩ := hi.good hb hpp
  have hdyn : ∀ y ∈ st.layout.cde.dynamics, ∃ pi ∈ st.layout.placed.values, y.shape.val = pi.shape.val ∧ y.entity = pi.entity := by
    intro y hy
    obtain ⟨pi, hpi, he⟩ := List.mem_map.1 (hi.hazards.mem_iff.1 (List.mem_map_of_mem (f := Hazard.erase) hy))
    exact ⟨pi, hpi, (congrArg (fun h : Hazard K => h.shape.val) he).symm, (congrArg (fun h : Hazard K => h.entity) he).symm⟩
  have hall := ht.hazards hi
  refine hi.collisionFree_iff_of hb hpp fun pi hpi => ?_
  refine hi.reach.inv.polyCollides_tolerant hf hg (hpp pi hpi) (fun y hy _ => hP y hy)
    ⟨⟨ht.nonneg, by rw [hi.bbox]; exact ht.width, by rw [hi.bbox]; exact ht.height, fun y hy => (hall y hy).1⟩,
      (ht.items pi hpi).1, (ht.items pi hpi).2, fun y hy _ => (hall y hy).2, ?_⟩
  intro y hy hirr hpos hin
  refine ht.boxes pi hpi _ ?_ hin
  rcases List.mem_append.1 hy with hy' | hy'
  · rw [hi.statics, hi.bin.hazards.1] at hy'
    rcases mem_binHazards.1 hy' with rfl | ⟨i, a, ha, rfl⟩ | ⟨z, hz, i, a, ha, rfl⟩
    · cases hpos
    · exact .hole (List.mem_of_getElem? ha)
    · exact .zone hz (List.mem_of_getElem? ha)
  · obtain ⟨pi', hpi', e, e'⟩ := hdyn y hy'
    rw [e]
    refine .item hpi' fun he => hirr ?_
    rw [mem_selfFilter hy]
    exact .inl (e'.trans he)

/-- C68: likewise, the check of a placement says "does not collide" exactly if adding the item at that place keeps the layout free of
collisions. -/
theorem C68_item_check {env : Env K} {M ε : K} (hf : env.f.Tolerant M ε) (hu : env.tr.Unit) {cat : ℕ → Item K} {st : LayoutState K n}
    (h : st.Reachable env cat) (hb : st.layout.bin.Shapes)
    (hcat : ∀ pi ∈ st.layout.placed.values, (cat pi.itemId).shape.Proper ∧ signedArea (cat pi.itemId).shape.points ≠ 0)
    (ht : st.layout.Tolerates M ε) (hfeas : Feasible st.layout.bin st.layout.placed.values)
    {item : Item K} (hp : item.shape.Proper) (ha : signedArea item.shape.points ≠ 0)
    {surr : Surrogate K} (hsurr : item.shape.surrogate = some surr) (hin : SurrogateInside surr.ffPoles surr.piers item.shape.points)
    (addr : ℕ) (dt : DTransf K) (hts : st.layout.ToleratesShape (item.shape.transform (Transf.fromDt env.tr dt)) M ε) :
    ∃ b, itemToPlaceDoesNotCollide env item (Transf.fromDt env.tr dt) st.layout = some b ∧
      (b = true ↔ Feasible st.layout.bin (PlacedItem.new env addr item dt :: st.layout.placed.values)) := by
  have hi := h.inv.layout
  have hpp : ∀ pi ∈ st.layout.placed.values, pi.shape.val.Proper := fun pi hpi => by
    rw [(hi.ok pi hpi).2]
    exact Item.Fine.placed ⟨(hcat pi hpi).1, (hcat pi hpi).2⟩ hu _
  obtain ⟨hg, hP⟩ := hi.good hb hpp
  have hs := Item.Fine.placed ⟨hp, ha⟩ hu dt
  set l := st.layout
  set t := Transf.fromDt env.tr dt
  have hall := ht.hazards hi
  have hT : l.cde.Tolerates (item.shape.transform t) (lbfIrrelevant item l) M ε := by
    refine ⟨⟨ht.nonneg, by rw [hi.bbox]; exact ht.width, by rw [hi.bbox]; exact ht.height, fun y hy => (hall y hy).1⟩,
      hts.bounded, hts.roomy, fun y hy _ => (hall y hy).2, ?_⟩
    intro y hy _ hpos
    rcases List.mem_append.1 hy with hy' | hy'
    · rw [hi.statics, hi.bin.hazards.1] at hy'
      rcases mem_binHazards.1 hy' with rfl | ⟨i, a, ha, rfl⟩ | ⟨z, hz, i, a, ha, rfl⟩
      · cases hpos
      · exact hts.holes a (List.mem_of_getElem? ha)
      · exact hts.zones z hz a (List.mem_of_getElem? ha)
    · obtain ⟨pi, hpi, he⟩ := List.mem_map.1 (hi.hazards.mem_iff.1 (List.mem_map_of_mem (f := Hazard.erase) hy'))
      rw [show y.shape.val = pi.shape.val from (congrArg (fun h : Hazard K => h.shape.val) he).symm]
      exact hts.items pi hpi
  obtain ⟨b, hq, hq'⟩ := C68_surrogate_decides_feasibility hf hi.reach hg hs (fun y hy _ => hP y hy) hT
    (hin.transform (Transf.IsRigid.rotTransl hu ..))
  have hmem : ∀ x ∈ l.cde.allHazards, x.entity ∈ lbfIrrelevant item l ↔
      (∃ pi ∈ l.placed.values, (fun _ : PlacedItem K => false) pi = true ∧ x.entity = pi.entity) ∨
      ∃ q z i, item.hazardFilter = some q ∧ x.entity = .inferiorQualityZone z i ∧ q ≤ z := by
    intro x hx
    constructor
    · intro hm
      obtain ⟨q, z, i, h1, h2, h3⟩ := mem_lbfIrrelevant hm
      exact .inr ⟨q, z, i, h1, h2, h3⟩
    · rintro (⟨_, _, h, _⟩ | ⟨q, z, i, h1, h2, h3⟩)
      · simp at h
      · unfold lbfIrrelevant generateIrrelevant
        rw [h1]
        refine List.mem_filterMap.2 ⟨x, hx, ?_⟩
        rw [h2]
        simp [HazardFilter.isIrrelevant, h3]
  have hfit := hi.query_iff_of hb hs (filt := item.hazardFilter) hmem (by simp) hq'
  rw [show (l.placed.values.filter fun pi => !(fun _ : PlacedItem K => false) pi) = l.placed.values by simp] at hfit
  have heq : itemToPlaceDoesNotCollide env item t l = some (!b) := by
    unfold itemToPlaceDoesNotCollide
    rw [hsurr]
    dsimp only
    unfold CDE.surrogateHits
    unfold CDE.surrogateOrPolyCollides at hq
    change (l.cde.surrogateCollides (surr.ffPoles.map (·.transform t)) (surr.piers.map (·.transform t)) (lbfIrrelevant item l)).bind _ = _
    cases hh : l.cde.surrogateCollides (surr.ffPoles.map (·.transform t)) (surr.piers.map (·.transform t)) (lbfIrrelevant item l) with
    | none => rw [hh] at hq; cases hq
    | some hit =>
      rw [hh] at hq
      cases hit with
      | true => cases hq; rfl
      | false =>
        dsimp only at hq
        rw [Option.bind_some]
        change (l.cde.polyCollides env.f (item.shape.transform t) (lbfIrrelevant item l)).map _ = _
        rw [hq]
        rfl
  refine ⟨!b, heq, ?_⟩
  rw [show ((!b) = true ↔ b = false) by cases b <;> simp]
  refine hfit.trans ⟨fun hfit => ⟨?_, ?_, ?_, ?_⟩, fun hF => ⟨?_, ?_, ?_, ?_⟩⟩
  · exact List.forall_mem_cons.2 ⟨hfit.inside, hfeas.inside⟩
  · exact List.forall_mem_cons.2 ⟨hfit.holes, hfeas.holes⟩
  · exact List.forall_mem_cons.2 ⟨hfit.zones, hfeas.zones⟩
  · exact List.pairwise_cons.2 ⟨hfit.apart, hfeas.apart⟩
  · exact hF.inside _ List.mem_cons_self
  · exact hF.holes _ List.mem_cons_self
  · exact hF.zones _ List.mem_cons_self
  · exact (List.pairwise_cons.1 hF.apart).1

/-! ## A case -/

namespace Ex

/-- the plain bin as a layout, with two squares placed, with a relative tolerance of one thousandth -/
def tolSquares (a b : DTransf ℚ) : Option (LayoutState ℚ 2) :=
  (Bin.new tolEnv 2 0 ⟨103, bin⟩ 5 .empty [] []).bind fun bin =>
    ((LayoutOp.place 1 (sqCat 1) a).run tolEnv ⟨Layout.new 0 bin, []⟩).bind ((LayoutOp.place 2 (sqCat 2) b).run tolEnv)

theorem tolSquares_fine {a b : DTransf ℚ} {st : LayoutState ℚ 2} (h : tolSquares a b = some st) :
    st.Reachable tolEnv sqCat ∧ st.layout.bin.Shapes ∧ st.layout.bin.outer.val = bin ∧ st.layout.bin.holes = [] ∧
    (∀ z, some z ∉ st.layout.bin.qualityZones) ∧ st.layout.bin.baseCde.bbox = ⟨0, 0, 8, 8⟩ ∧
    ∀ pi ∈ st.layout.placed.values, pi = PlacedItem.new tolEnv 1 (sqCat 1) a ∨ pi = PlacedItem.new tolEnv 2 (sqCat 2) b := by
  obtain ⟨bn, hb, h⟩ := Option.bind_eq_some_iff.1 h
  obtain ⟨st1, h1, h2⟩ := Option.bind_eq_some_iff.1 h
  have g1 : bn.Built tolEnv := ⟨_, _, _, _, _, _, hb⟩
  have hbox := g1.hazards.2
  have hparts : bn.outer = ⟨103, bin⟩ ∧ bn.holes = [] ∧ bn.qualityZones = zoneTable [] := by
    unfold Bin.new at hb
    split_ifs at hb
    dsimp only at hb
    obtain ⟨cde, _, rfl⟩ := Option.map_eq_some_iff.1 hb
    exact ⟨rfl, rfl, rfl⟩
  obtain ⟨o1, o2, o3⟩ := hparts
  have hz : ∀ z, some z ∉ bn.qualityZones := by
    intro z hz
    rw [o3] at hz
    have : ∀ z ∈ zoneTable ([] : List (QualityZone ℚ)), z.isNone = true := by decide +kernel
    exact absurd (this _ hz) (by simp)
  rw [o1] at hbox
  replace hbox : bn.baseCde.bbox = ⟨0, 0, 8, 8⟩ := hbox.trans (by decide +kernel)
  have hp1 : (LayoutOp.place 1 (sqCat 1) a).Pre tolEnv sqCat ⟨Layout.new 0 bn, []⟩ :=
    ⟨rfl, fun pi hpi => by simp [Layout.new, SlotMap.values, SlotMap.empty] at hpi⟩
  have hi0 := Layout.inv_new (env := tolEnv) sqCat 0 g1
  obtain ⟨k, l, e1, i1, -, b1, -, -, p1⟩ := hi0.placeItem 1 (item := sqCat 1) (dt := a) rfl hp1.2
  have hst1 : st1 = ⟨l, []⟩ := by
    unfold LayoutOp.run at h1
    dsimp only at h1
    rw [e1] at h1
    exact (Option.some.inj h1).symm
  subst hst1
  have hm1 : ∀ pi ∈ l.placed.values, pi = PlacedItem.new tolEnv 1 (sqCat 1) a := by
    intro pi hpi
    rcases List.mem_cons.1 (p1.mem_iff.1 hpi) with rfl | hm
    · rfl
    · simp [Layout.new, SlotMap.values, SlotMap.empty] at hm
  have hp2 : (LayoutOp.place 2 (sqCat 2) b).Pre tolEnv sqCat ⟨l, []⟩ := by
    refine ⟨rfl, fun pi hpi => ?_⟩
    rw [hm1 pi hpi]
    rintro ⟨hid, -⟩
    exact absurd (show (1 : ℕ) = 2 from hid) (by decide)
  obtain ⟨k2, l2, e2, i2, -, b2, -, -, p2⟩ := i1.placeItem 2 (item := sqCat 2) (dt := b) rfl hp2.2
  have hst2 : st = ⟨l2, []⟩ := by
    unfold LayoutOp.run at h2
    dsimp only at h2
    rw [e2] at h2
    exact (Option.some.inj h2).symm
  subst hst2
  refine ⟨⟨0, bn, [.place 1 (sqCat 1) a, .place 2 (sqCat 2) b], g1, .cons hp1 h1 (.cons hp2 h2 (.nil _))⟩, ?_⟩
  dsimp only
  rw [b2, b1]
  change bn.Shapes ∧ bn.outer.val = bin ∧ bn.holes = [] ∧ (∀ z, some z ∉ bn.qualityZones) ∧ bn.baseCde.bbox = ⟨0, 0, 8, 8⟩ ∧ _
  refine ⟨⟨by rw [o1]; exact bin_proper, by rw [o2]; simp, fun z h => absurd h (hz z)⟩, by rw [o1], o2, hz, hbox, ?_⟩
  intro pi hpi
  rcases List.mem_cons.1 (p2.mem_iff.1 hpi) with rfl | hm
  · exact .inr rfl
  · exact .inl (hm1 pi hm)

/-- the square where it is placed -/
def tolSqAt (x y : ℚ) : SPoly ℚ := lbfSq.transform (Transf.fromDt turns ⟨0, x, y⟩)

/-- squares of the same size do not cover each other -/
theorem tolSquares_tolerates {x y x' y' : ℚ} {st : LayoutState ℚ 2} (h : tolSquares ⟨0, x, y⟩ ⟨0, x', y'⟩ = some st)
    (hb : Bounded (tolSqAt x y).points 8 ∧ Bounded (tolSqAt x' y').points 8)
    (hr : (tolSqAt x y).Roomy (1 / 125) ∧ (tolSqAt x' y').Roomy (1 / 125))
    (hs : NotJustInside (tolSqAt x y).bbox (tolSqAt x' y').bbox (1 / 125) ∧ NotJustInside (tolSqAt x' y').bbox (tolSqAt x y).bbox (1 / 125)) :
    st.layout.Tolerates 8 (1 / 125) := by
  obtain ⟨-, -, o1, o2, hz, hbox, hpi⟩ := tolSquares_fine h
  refine ⟨by norm_num, by rw [hbox]; unfold AARect.width; norm_num, by rw [hbox]; unfold AARect.height; norm_num, ?_, by rw [o2]; simp,
    fun z h => absurd h (hz z), ?_, ?_⟩
  · rw [o1]
    exact ⟨by unfold Bounded; decide +kernel, roomy_rect (x0 := 0) (y0 := 0) (x1 := 8) (y1 := 8) (by norm_num) (by norm_num) rfl
        (by decide +kernel) (by decide +kernel) (by decide +kernel) (by decide +kernel)⟩
  · intro pi hp
    rcases hpi pi hp with rfl | rfl
    · exact ⟨hb.1, hr.1⟩
    · exact ⟨hb.2, hr.2⟩
  · intro pi hp s ho _
    cases ho with
    | hole h => rw [o2] at h; simp at h
    | zone h _ => exact absurd h (hz _)
    | item h hne =>
      rcases hpi pi hp with rfl | rfl <;> rcases hpi _ h with rfl | rfl
      · exact absurd rfl hne
      · exact hs.2
      · exact hs.1
      · exact absurd rfl hne

end Ex

/-- Non-trivial case: two squares one thousandth apart, which the comparisons cannot tell from squares that touch, and two squares that
touch; both layouts are reachable, and the check tells them apart although it uses a tolerance. -/
example : ∃ st st' : LayoutState ℚ 2, Ex.tolEnv.f.Tolerant 8 (1 / 125) ∧ Ex.tolEnv.tr.Unit ∧ st.Reachable Ex.tolEnv Ex.sqCat ∧ st'.Reachable Ex.tolEnv Ex.sqCat ∧
    st.layout.bin.Shapes ∧ st'.layout.bin.Shapes ∧ st.layout.Tolerates 8 (1 / 125) ∧ st'.layout.Tolerates 8 (1 / 125) ∧
    (∀ i, (Ex.sqCat i).shape.Proper ∧ signedArea (Ex.sqCat i).shape.points ≠ 0) ∧
    Ex.tolEnv.f.eq 3 (3 + 1 / 1000) = true ∧
    layoutIsCollisionFree Ex.tolEnv st.layout = some true ∧ layoutIsCollisionFree Ex.tolEnv st'.layout = some false := by
  obtain ⟨st, hst⟩ : ∃ st, Ex.tolSquares ⟨0, 2, 2⟩ ⟨0, 4 + 1 / 1000, 2⟩ = some st := Option.isSome_iff_exists.1 (by decide +kernel)
  obtain ⟨st', hst'⟩ : ∃ st, Ex.tolSquares ⟨0, 2, 2⟩ ⟨0, 4, 3⟩ = some st := Option.isSome_iff_exists.1 (by decide +kernel)
  have h1 : (Ex.tolSquares ⟨0, 2, 2⟩ ⟨0, 4 + 1 / 1000, 2⟩).bind (fun st => layoutIsCollisionFree Ex.tolEnv st.layout) = some true := by decide +kernel
  have h2 : (Ex.tolSquares ⟨0, 2, 2⟩ ⟨0, 4, 3⟩).bind (fun st => layoutIsCollisionFree Ex.tolEnv st.layout) = some false := by decide +kernel
  rw [hst] at h1
  rw [hst'] at h2
  have roomy : ∀ x y x0 y0 x1 y1 : ℚ, x0 < x1 → y0 < y1 → (Ex.tolSqAt x y).points = rectPoly x0 y0 x1 y1 →
      (x0 + 1 / 125 < (Ex.tolSqAt x y).poi.center.x ∧ (Ex.tolSqAt x y).poi.center.x < x1 - 1 / 125) →
      (y0 + 1 / 125 < (Ex.tolSqAt x y).poi.center.y ∧ (Ex.tolSqAt x y).poi.center.y < y1 - 1 / 125) → (Ex.tolSqAt x y).Roomy (1 / 125) :=
    fun x y x0 y0 x1 y1 hx hy hp h h' => Ex.roomy_rect hx hy hp h.1 h.2 h'.1 h'.2
  refine ⟨st, st', Ex.tol_tolerant, Ex.turns_unit, (Ex.tolSquares_fine hst).1, (Ex.tolSquares_fine hst').1, (Ex.tolSquares_fine hst).2.1,
    (Ex.tolSquares_fine hst').2.1, Ex.tolSquares_tolerates hst ?_ ?_ ?_, Ex.tolSquares_tolerates hst' ?_ ?_ ?_, Ex.sqCat_fine, by decide +kernel, h1, h2⟩
  · unfold Bounded; decide +kernel
  · exact ⟨roomy _ _ 1 1 3 3 (by norm_num) (by norm_num) (by decide +kernel) (by decide +kernel) (by decide +kernel),
      roomy _ _ (3 + 1 / 1000) 1 (5 + 1 / 1000) 3 (by norm_num) (by norm_num) (by decide +kernel) (by decide +kernel) (by decide +kernel)⟩
  · exact ⟨fun h => absurd h (by decide +kernel), fun _ h => absurd h (by decide +kernel)⟩
  · unfold Bounded; decide +kernel
  · exact ⟨roomy _ _ 1 1 3 3 (by norm_num) (by norm_num) (by decide +kernel) (by decide +kernel) (by decide +kernel),
      roomy _ _ 3 2 5 4 (by norm_num) (by norm_num) (by decide +kernel) (by decide +kernel) (by decide +kernel)⟩
  · exact ⟨fun h => absurd h (by decide +kernel), fun _ h => absurd h (by decide +kernel)⟩

/-- Non-trivial case: a third square one thousandth away from the first, and one that touches it. -/
example : ∃ (st : LayoutState ℚ 2) (surr : Surrogate ℚ), st.Reachable Ex.tolEnv Ex.sqCat ∧ st.layout.bin.Shapes ∧ st.layout.Tolerates 8 (1 / 125) ∧
    Feasible st.layout.bin st.layout.placed.values ∧ (Ex.sqCat 3).shape.surrogate = some surr ∧
    SurrogateInside surr.ffPoles surr.piers (Ex.sqCat 3).shape.points ∧
    st.layout.ToleratesShape ((Ex.sqCat 3).shape.transform (Transf.fromDt Ex.turns ⟨0, 4 + 1 / 1000, 2⟩)) 8 (1 / 125) ∧
    st.layout.ToleratesShape ((Ex.sqCat 3).shape.transform (Transf.fromDt Ex.turns ⟨0, 4, 2⟩)) 8 (1 / 125) ∧
    itemToPlaceDoesNotCollide Ex.tolEnv (Ex.sqCat 3) (Transf.fromDt Ex.turns ⟨0, 4 + 1 / 1000, 2⟩) st.layout = some true ∧
    itemToPlaceDoesNotCollide Ex.tolEnv (Ex.sqCat 3) (Transf.fromDt Ex.turns ⟨0, 4, 2⟩) st.layout = some false := by
  obtain ⟨st, hst⟩ : ∃ st, Ex.tolSquares ⟨0, 2, 2⟩ ⟨0, 5, 6⟩ = some st := Option.isSome_iff_exists.1 (by decide +kernel)
  have h1 : (Ex.tolSquares ⟨0, 2, 2⟩ ⟨0, 5, 6⟩).bind (fun st => layoutIsCollisionFree Ex.tolEnv st.layout) = some true := by decide +kernel
  have h2 : (Ex.tolSquares ⟨0, 2, 2⟩ ⟨0, 5, 6⟩).bind (fun st =>
    itemToPlaceDoesNotCollide Ex.tolEnv (Ex.sqCat 3) (Transf.fromDt Ex.turns ⟨0, 4 + 1 / 1000, 2⟩) st.layout) = some true := by decide +kernel
  have h3 : (Ex.tolSquares ⟨0, 2, 2⟩ ⟨0, 5, 6⟩).bind (fun st =>
    itemToPlaceDoesNotCollide Ex.tolEnv (Ex.sqCat 3) (Transf.fromDt Ex.turns ⟨0, 4, 2⟩) st.layout) = some false := by decide +kernel
  rw [hst] at h1 h2 h3
  rw [Option.bind_some] at h1
  have roomy : ∀ x y x0 y0 x1 y1 : ℚ, x0 < x1 → y0 < y1 → (Ex.tolSqAt x y).points = rectPoly x0 y0 x1 y1 →
      (x0 + 1 / 125 < (Ex.tolSqAt x y).poi.center.x ∧ (Ex.tolSqAt x y).poi.center.x < x1 - 1 / 125) →
      (y0 + 1 / 125 < (Ex.tolSqAt x y).poi.center.y ∧ (Ex.tolSqAt x y).poi.center.y < y1 - 1 / 125) → (Ex.tolSqAt x y).Roomy (1 / 125) :=
    fun x y x0 y0 x1 y1 hx hy hp h h' => Ex.roomy_rect hx hy hp h.1 h.2 h'.1 h'.2
  obtain ⟨g1, g2, -, g3, g4, -, g5⟩ := Ex.tolSquares_fine hst
  have hT : st.layout.Tolerates 8 (1 / 125) := Ex.tolSquares_tolerates hst (by unfold Bounded; decide +kernel)
    ⟨roomy _ _ 1 1 3 3 (by norm_num) (by norm_num) (by decide +kernel) (by decide +kernel) (by decide +kernel),
      roomy _ _ 4 5 6 7 (by norm_num) (by norm_num) (by decide +kernel) (by decide +kernel) (by decide +kernel)⟩
    ⟨fun h => absurd h (by decide +kernel), fun _ h => absurd h (by decide +kernel)⟩
  obtain ⟨b, hb1, hb2⟩ := C68_layout_check Ex.tol_tolerant Ex.turns_unit g1 g2 (fun pi _ => Ex.sqCat_fine _) hT
  rw [hb1] at h1
  refine ⟨st, _, g1, g2, hT, hb2.1 (Option.some.inj h1), rfl, ⟨?_, ?_⟩, ⟨?_, ?_, by rw [g3]; simp, fun z hz => absurd hz (g4 z), ?_⟩,
    ⟨?_, ?_, by rw [g3]; simp, fun z hz => absurd hz (g4 z), ?_⟩, h2, h3⟩
  · intro c hc
    have hc : c ∈ [(⟨⟨0, 0⟩, 1⟩ : Circle ℚ)] := hc
    rw [List.mem_singleton.1 hc]
    exact Ex.lbfSq_disc
  · intro e he
    have he : e ∈ [(⟨⟨-1 / 2, 0⟩, ⟨1 / 2, 0⟩⟩ : Edge ℚ)] := he
    rw [List.mem_singleton.1 he]
    refine Set.Subset.trans ?_ Ex.lbfSq_disc
    rintro p ⟨t, h0, h1, hx, hy⟩
    show (p.x - 0) ^ 2 + (p.y - 0) ^ 2 ≤ (1 : ℚ) ^ 2
    dsimp only at hx hy
    rw [hx, hy]
    nlinarith
  · unfold Bounded; decide +kernel
  · exact roomy (4 + 1 / 1000) 2 (3 + 1 / 1000) 1 (5 + 1 / 1000) 3 (by norm_num) (by norm_num) (by decide +kernel) (by decide +kernel) (by decide +kernel)
  · intro pi hpi _
    rcases g5 pi hpi with rfl | rfl
    · exact fun h => absurd h (by decide +kernel)
    · exact fun _ h => absurd h (by decide +kernel)
  · unfold Bounded; decide +kernel
  · exact roomy 4 2 3 1 5 3 (by norm_num) (by norm_num) (by decide +kernel) (by decide +kernel) (by decide +kernel)
  · intro pi hpi _
    rcases g5 pi hpi with rfl | rfl
    · exact fun h => absurd h (by decide +kernel)
    · exact fun _ h => absurd h (by decide +kernel)

end Jagua
