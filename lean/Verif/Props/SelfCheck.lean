import Verif.Lemmas.SelfCheck
import Verif.Props.LBF

/-!
# The checks that a caller can run

C59: the functions with which a caller can check a layout or an engine give the right answer.
-/

set_option linter.unusedSectionVars false

namespace Jagua

variable {K : Type*} [Field K] [LinearOrder K] [IsStrictOrderedRing K] {n : ℕ}

/-- C59: the check of a whole layout never panics and says "collision free" exactly for the layouts in which all items lie inside
the bin, off the holes, off the zones of too low a quality, and apart from each other. This holds for every layout that can be
reached by placing, removing, saving, restoring and changing the bin, whether these calls led to collisions or not. -/
theorem C59_layout_check {env : Env K} (hf : env.f = Fpa.exact) (hu : env.tr.Unit) {cat : ℕ → Item K} {st : LayoutState K n}
    (h : st.Reachable env cat) (hb : st.layout.bin.Shapes)
    (hcat : ∀ pi ∈ st.layout.placed.values, (cat pi.itemId).shape.Proper ∧ signedArea (cat pi.itemId).shape.points ≠ 0) :
    ∃ b, layoutIsCollisionFree env st.layout = some b ∧ (b = true ↔ Feasible st.layout.bin st.layout.placed.values) := by
  refine h.inv.layout.collisionFree_iff hf hb fun pi hpi => ?_
  rw [(h.inv.layout.ok pi hpi).2]
  exact Item.Fine.placed ⟨(hcat pi hpi).1, (hcat pi hpi).2⟩ hu _

/-- C59: the check of a placement says "does not collide" exactly if adding the item at that place keeps the layout free of
collisions. -/
theorem C59_item_check {env : Env K} (hf : env.f = Fpa.exact) (hu : env.tr.Unit) {cat : ℕ → Item K} {st : LayoutState K n}
    (h : st.Reachable env cat) (hb : st.layout.bin.Shapes)
    (hcat : ∀ pi ∈ st.layout.placed.values, (cat pi.itemId).shape.Proper ∧ signedArea (cat pi.itemId).shape.points ≠ 0)
    (hfeas : Feasible st.layout.bin st.layout.placed.values) {item : Item K} (hp : item.shape.Proper) (ha : signedArea item.shape.points ≠ 0)
    {surr : Surrogate K} (hsurr : item.shape.surrogate = some surr) (hin : SurrogateInside surr.ffPoles surr.piers item.shape.points)
    (addr : ℕ) (dt : DTransf K) :
    ∃ b, itemToPlaceDoesNotCollide env item (Transf.fromDt env.tr dt) st.layout = some b ∧
      (b = true ↔ Feasible st.layout.bin (PlacedItem.new env addr item dt :: st.layout.placed.values)) := by
  have hpp : ∀ pi ∈ st.layout.placed.values, pi.shape.val.Proper := fun pi hpi => by
    rw [(h.inv.layout.ok pi hpi).2]
    exact Item.Fine.placed ⟨(hcat pi hpi).1, (hcat pi hpi).2⟩ hu _
  obtain ⟨b, h1, h2⟩ := h.inv.layout.itemToPlace_iff hf hb hpp hsurr (t := Transf.fromDt env.tr dt)
    (Item.Fine.placed ⟨hp, ha⟩ hu dt) (hin.transform (Transf.IsRigid.rotTransl hu ..))
  refine ⟨b, h1, h2.trans ⟨fun hfit => ⟨?_, ?_, ?_, ?_⟩, fun hF => ⟨?_, ?_, ?_, ?_⟩⟩⟩
  · exact List.forall_mem_cons.2 ⟨hfit.inside, hfeas.inside⟩
  · exact List.forall_mem_cons.2 ⟨hfit.holes, hfeas.holes⟩
  · exact List.forall_mem_cons.2 ⟨hfit.zones, hfeas.zones⟩
  · exact List.pairwise_cons.2 ⟨hfit.apart, hfeas.apart⟩
  · exact hF.inside _ List.mem_cons_self
  · exact hF.holes _ List.mem_cons_self
  · exact hF.zones _ List.mem_cons_self
  · exact (List.pairwise_cons.1 hF.apart).1

/-- C59: in every engine that can be reached, the flags in the quadtree agree with each other, and the quadtree holds deactivated
hazards exactly while there are deregistrations that were not committed. -/
theorem C59_engine_checks {f : Fpa K} {o : SearchOracle K} {c : CDE K n} (h : c.Reachable f o) :
    c.activationConsistent = true ∧ (c.tree.noDeactivated = true ↔ c.hasUncommitted = false) ∧
    ∀ c', c.commit = some c' → c'.tree.noDeactivated = true := by
  refine ⟨h.inv.activationConsistent, h.inv.noDeactivated_iff, ?_⟩
  intro c' hc'
  have hr : c'.Reachable f o := by
    obtain ⟨bbox, statics, c₀, ops, hn, hnew, hrun⟩ := h
    exact ⟨bbox, statics, c₀, ops ++ [.commit], hn, hnew, hrun.append (.cons (op := .commit) trivial hc' (.nil _))⟩
  rw [hr.inv.noDeactivated_iff]
  unfold CDE.hasUncommitted
  obtain ⟨c1, h1, -, -, -, -, h2⟩ := CDE.commit_inv h.inv
  rw [hc'] at h1
  cases h1
  simp [h2]

namespace Ex

/-- squares of every number -/
def sqCat (i : ℕ) : Item ℚ := { sqItem with id := i }

/-- the plain bin as a layout, with two squares placed -/
def twoSquares (a b : DTransf ℚ) : Option (LayoutState ℚ 2) :=
  (Bin.new lbfEnv 2 0 ⟨103, bin⟩ 5 .empty [] []).bind fun bin =>
    ((LayoutOp.place 1 (sqCat 1) a).run lbfEnv ⟨Layout.new 0 bin, []⟩).bind ((LayoutOp.place 2 (sqCat 2) b).run lbfEnv)

theorem sqCat_fine (i : ℕ) : (sqCat i).shape.Proper ∧ signedArea (sqCat i).shape.points ≠ 0 :=
  ⟨lbfSq_proper, show signedArea lbfSq.points ≠ 0 by decide +kernel⟩

theorem twoSquares_reachable {a b : DTransf ℚ} {st : LayoutState ℚ 2} (h : twoSquares a b = some st) :
    st.Reachable lbfEnv sqCat ∧ st.layout.bin.Shapes := by
  obtain ⟨bn, hb, h⟩ := Option.bind_eq_some_iff.1 h
  obtain ⟨st1, h1, h2⟩ := Option.bind_eq_some_iff.1 h
  obtain ⟨g1, g2, -⟩ := lbfBin_shapes hb
  have hp1 : (LayoutOp.place 1 (sqCat 1) a).Pre lbfEnv sqCat ⟨Layout.new 0 bn, []⟩ :=
    ⟨rfl, fun pi hpi => by simp [Layout.new, SlotMap.values, SlotMap.empty] at hpi⟩
  have hi0 := Layout.inv_new (env := lbfEnv) sqCat 0 g1
  obtain ⟨k, l, e1, i1, -, b1, -, -, p1⟩ := hi0.placeItem 1 (item := sqCat 1) (dt := a) rfl hp1.2
  have hst1 : st1 = ⟨l, []⟩ := by
    unfold LayoutOp.run at h1
    dsimp only at h1
    rw [e1] at h1
    exact (Option.some.inj h1).symm
  subst hst1
  have hp2 : (LayoutOp.place 2 (sqCat 2) b).Pre lbfEnv sqCat ⟨l, []⟩ := by
    refine ⟨rfl, fun pi hpi => ?_⟩
    rcases List.mem_cons.1 (p1.mem_iff.1 hpi) with rfl | hm
    · rintro ⟨hid, -⟩
      exact absurd (show (1 : ℕ) = 2 from hid) (by decide)
    · simp [Layout.new, SlotMap.values, SlotMap.empty] at hm
  obtain ⟨k2, l2, e2, i2, -, b2, -, -, p2⟩ := i1.placeItem 2 (item := sqCat 2) (dt := b) rfl hp2.2
  have hst2 : st = ⟨l2, []⟩ := by
    unfold LayoutOp.run at h2
    dsimp only at h2
    rw [e2] at h2
    exact (Option.some.inj h2).symm
  subst hst2
  refine ⟨⟨0, bn, [.place 1 (sqCat 1) a, .place 2 (sqCat 2) b], g1, .cons hp1 h1 (.cons hp2 h2 (.nil _))⟩, ?_⟩
  dsimp only
  rw [b2, b1]
  exact g2

end Ex

/-- Non-trivial case for C59: two squares that are apart and two squares that touch, both reachable; the check tells them apart. -/
example : ∃ st st' : LayoutState ℚ 2, st.Reachable Ex.lbfEnv Ex.sqCat ∧ st'.Reachable Ex.lbfEnv Ex.sqCat ∧ st.layout.bin.Shapes ∧ st'.layout.bin.Shapes ∧
    Ex.lbfEnv.tr.Unit ∧ (∀ i, (Ex.sqCat i).shape.Proper ∧ signedArea (Ex.sqCat i).shape.points ≠ 0) ∧
    layoutIsCollisionFree Ex.lbfEnv st.layout = some true ∧ layoutIsCollisionFree Ex.lbfEnv st'.layout = some false := by
  obtain ⟨st, hst⟩ : ∃ st, Ex.twoSquares ⟨0, 2, 2⟩ ⟨0, 5, 5⟩ = some st := Option.isSome_iff_exists.1 (by decide +kernel)
  obtain ⟨st', hst'⟩ : ∃ st, Ex.twoSquares ⟨0, 2, 2⟩ ⟨0, 4, 3⟩ = some st := Option.isSome_iff_exists.1 (by decide +kernel)
  have h1 : (Ex.twoSquares ⟨0, 2, 2⟩ ⟨0, 5, 5⟩).bind (fun st => layoutIsCollisionFree Ex.lbfEnv st.layout) = some true := by decide +kernel
  have h2 : (Ex.twoSquares ⟨0, 2, 2⟩ ⟨0, 4, 3⟩).bind (fun st => layoutIsCollisionFree Ex.lbfEnv st.layout) = some false := by decide +kernel
  rw [hst] at h1
  rw [hst'] at h2
  exact ⟨st, st', (Ex.twoSquares_reachable hst).1, (Ex.twoSquares_reachable hst').1, (Ex.twoSquares_reachable hst).2, (Ex.twoSquares_reachable hst').2,
    Ex.turns_unit, Ex.sqCat_fine, h1, h2⟩

/-- Non-trivial case for C59: a third square at a free place and at a place that is taken. -/
example : ∃ (st : LayoutState ℚ 2) (surr : Surrogate ℚ), st.Reachable Ex.lbfEnv Ex.sqCat ∧ st.layout.bin.Shapes ∧
    Feasible st.layout.bin st.layout.placed.values ∧ (Ex.sqCat 3).shape.surrogate = some surr ∧
    SurrogateInside surr.ffPoles surr.piers (Ex.sqCat 3).shape.points ∧
    itemToPlaceDoesNotCollide Ex.lbfEnv (Ex.sqCat 3) (Transf.fromDt Ex.turns ⟨0, 2, 6⟩) st.layout = some true ∧
    itemToPlaceDoesNotCollide Ex.lbfEnv (Ex.sqCat 3) (Transf.fromDt Ex.turns ⟨0, 4, 4⟩) st.layout = some false := by
  obtain ⟨st, hst⟩ : ∃ st, Ex.twoSquares ⟨0, 2, 2⟩ ⟨0, 5, 5⟩ = some st := Option.isSome_iff_exists.1 (by decide +kernel)
  have h1 : (Ex.twoSquares ⟨0, 2, 2⟩ ⟨0, 5, 5⟩).bind (fun st => layoutIsCollisionFree Ex.lbfEnv st.layout) = some true := by decide +kernel
  have h2 : (Ex.twoSquares ⟨0, 2, 2⟩ ⟨0, 5, 5⟩).bind (fun st =>
    itemToPlaceDoesNotCollide Ex.lbfEnv (Ex.sqCat 3) (Transf.fromDt Ex.turns ⟨0, 2, 6⟩) st.layout) = some true := by decide +kernel
  have h3 : (Ex.twoSquares ⟨0, 2, 2⟩ ⟨0, 5, 5⟩).bind (fun st =>
    itemToPlaceDoesNotCollide Ex.lbfEnv (Ex.sqCat 3) (Transf.fromDt Ex.turns ⟨0, 4, 4⟩) st.layout) = some false := by decide +kernel
  rw [hst] at h1 h2 h3
  obtain ⟨hr, hb⟩ := Ex.twoSquares_reachable hst
  obtain ⟨b, hb1, hb2⟩ := C59_layout_check rfl Ex.turns_unit hr hb fun pi _ => Ex.sqCat_fine _
  rw [Option.bind_some, hb1] at h1
  refine ⟨st, _, hr, hb, hb2.1 (Option.some.inj h1), rfl, ⟨?_, ?_⟩, h2, h3⟩
  · intro c hc
    have hc : c ∈ [(⟨⟨0, 0⟩, 1⟩ : Circle ℚ)] := hc
    rw [List.mem_singleton.1 hc]
    exact Ex.lbfSq_disc
  · intro e he
    have he : e ∈ [(⟨⟨-1 / 2, 0⟩, ⟨1 / 2, 0⟩⟩ : Edge ℚ)] := he
    rw [List.mem_singleton.1 he]
    refine Set.Subset.trans ?_ Ex.lbfSq_disc
    rintro p ⟨t, h0, h1, hx, hy⟩
    show (p.x - 0) ^ 2 + (p.y - 0) ^ 2 ≤ (1 : ℚ) ^ 2
    dsimp only at hx hy
    rw [hx, hy]
    nlinarith

/-- Non-trivial case for C59: an engine with a deregistration that was not committed. -/
example : ∃ c c' : CDE ℚ 2, c.Reachable Fpa.exact SearchOracle.first ∧ c.tree.noDeactivated = false ∧ c.commit = some c' := by
  obtain ⟨c, hr, -, -, hu, -, -, hc⟩ := Ex.exists_engine
  have h : (Ex.start.bind (Ex.runChecked Ex.ops)).bind (fun c => c.commit.map fun _ => c.tree.noDeactivated) = some false := by decide +kernel
  rw [hc, Option.bind_some] at h
  obtain ⟨c', h1, h2⟩ := Option.map_eq_some_iff.1 h
  exact ⟨c, c', hr, h2, h1⟩

/-- C59, the limit of the check: two copies of an item at exactly the same place (which the debug build refuses) pass the check of
the layout in the release build, although they overlap. -/
theorem C59_copies_pass : ∃ (l l' : Layout ℚ 2) (k k' : SlotKey) (bin : Bin ℚ 2), bin.Built Ex.lbfEnv ∧ bin.Shapes ∧
    (Layout.new 0 bin).placeItem Ex.lbfEnv 1 Ex.sqItem ⟨0, 2, 2⟩ = some (k, l) ∧ l.placeItem Ex.lbfEnv 2 Ex.sqItem ⟨0, 2, 2⟩ = some (k', l') ∧
    layoutIsCollisionFree Ex.lbfEnv l' = some true ∧ ¬ Feasible l'.bin l'.placed.values := by
  obtain ⟨bin, hb⟩ : ∃ b, Bin.new Ex.lbfEnv 2 0 ⟨103, Ex.bin⟩ 5 .empty [] [] = some b := Option.isSome_iff_exists.1 (by decide +kernel)
  have h : (Bin.new Ex.lbfEnv 2 0 ⟨103, Ex.bin⟩ 5 .empty [] []).bind (fun b =>
      ((Layout.new 0 b).placeItem Ex.lbfEnv 1 Ex.sqItem ⟨0, 2, 2⟩).bind fun x => (x.2.placeItem Ex.lbfEnv 2 Ex.sqItem ⟨0, 2, 2⟩).map fun y =>
        (layoutIsCollisionFree Ex.lbfEnv y.2, y.2.placed.values.map fun pi => pi.shape.val.points)) =
      some (some true, [[⟨1, 1⟩, ⟨3, 1⟩, ⟨3, 3⟩, ⟨1, 3⟩], [⟨1, 1⟩, ⟨3, 1⟩, ⟨3, 3⟩, ⟨1, 3⟩]]) := by decide +kernel
  rw [hb, Option.bind_some] at h
  obtain ⟨⟨k, l⟩, h1, h⟩ := Option.bind_eq_some_iff.1 h
  obtain ⟨⟨k', l'⟩, h2, h⟩ := Option.map_eq_some_iff.1 h
  obtain ⟨h3, h4⟩ := Prod.mk.inj h
  obtain ⟨g1, g2, -⟩ := Ex.lbfBin_shapes hb
  refine ⟨l, l', k, k', bin, g1, g2, h1, h2, h3, ?_⟩
  intro hF
  have hap := hF.apart
  obtain ⟨a, t, he, ha, ht⟩ := List.map_eq_cons_iff.1 h4
  obtain ⟨c, t', he', hc, -⟩ := List.map_eq_cons_iff.1 ht
  rw [he, he'] at hap
  have := (List.pairwise_cons.1 hap).1 c List.mem_cons_self
  rw [ha, hc] at this
  have hm : (⟨1, 1⟩ : Point ℚ) ∈ region [⟨1, 1⟩, ⟨3, 1⟩, ⟨3, 3⟩, ⟨1, 3⟩] :=
    .inl (vertex_mem_bdry (by decide))
  exact Set.disjoint_left.1 this hm hm

end Jagua
