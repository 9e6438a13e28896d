import Verif.Lemmas.DebugCDE
import Verif.Lemmas.Layout
import Verif.Lemmas.LBFRun

/-!
# The checks of layouts always succeed

In particular the quadtree of a layout always matches the one built from scratch.
-/

set_option linter.unusedSectionVars false

namespace Jagua

variable {K : Type*} [Field K] [LinearOrder K] [IsStrictOrderedRing K] {n : ℕ}

theorem Bin.Built.bbox_valid {env : Env K} {b : Bin K n} (h : b.Built env) (hv : b.outer.val.bbox.Valid) : b.baseCde.bbox.Valid := by
  rw [h.hazards.2]
  exact inflate_valid hv

theorem Bin.newDbg_eq (env : Env K) (id : ℕ) {outer : Arc (SPoly K)} (hv : outer.val.bbox.Valid) (value : ℕ) (pre : Transf K)
    (holes : List (Arc (SPoly K))) (zones : List (QualityZone K)) :
    Bin.newDbg env n id outer value pre holes zones = Bin.new env n id outer value pre holes zones := by
  unfold Bin.newDbg Bin.new
  by_cases h1 : (zones.map (·.quality)).Nodup
  · rw [if_neg (not_not.2 h1), if_neg (not_not.2 h1)]
    dsimp only
    rw [CDE.newDbg_eq (inflate_valid hv) (generateBinHazards_nodup h1)]
  · rw [if_pos h1, if_pos h1]

/-- registering the items of a layout in the engine of a bin -/
theorem registerItemsDbg_eq {env : Env K} {cat : ℕ → Item K} {bin : Bin K n} (hb : bin.Built env) (ps : List (PlacedItem K))
    {c : CDE K n} (hr : c.Reachable env.f env.o) (hs : c.statics = bin.baseCde.statics) (hv : c.bbox.Valid)
    (hok : ∀ pi ∈ ps, pi.Ok env cat) (hn : (c.dynamics.map (·.entity) ++ ps.map PlacedItem.entity).Nodup) :
    ps.foldlM (fun (c : CDE K n) pi => c.registerDbg env.f env.o (Hazard.new pi.entity pi.shape)) c =
      ps.foldlM (fun (c : CDE K n) pi => c.register env.f env.o (Hazard.new pi.entity pi.shape)) c := by
  induction ps generalizing c with
  | nil => rfl
  | cons pi ps ih =>
    have h1 : pi.entity ∉ c.statics.map (·.entity) := by
      intro hm
      obtain ⟨x, hx, he⟩ := List.mem_map.1 hm
      rw [hs] at hx
      exact hb.base.2.2.2 x hx pi.itemId pi.dt he
    have h2 : pi.entity ∉ c.dynamics.map (·.entity) := by
      intro hm
      rw [List.map_cons, List.nodup_append] at hn
      exact hn.2.2 _ hm _ List.mem_cons_self rfl
    have hpre : (CDEOp.register (Hazard.new pi.entity pi.shape)).Pre c := by
      intro x hx he
      rcases List.mem_append.1 hx with hx | hx
      · exact h1 (List.mem_map.2 ⟨x, hx, he⟩)
      · exact h2 (List.mem_map.2 ⟨x, hx, he⟩)
    obtain ⟨c1, r1, r2, r3, r4⟩ := CDEOp.run_inv (o := env.o) hr.inv hpre
    obtain ⟨e1, _⟩ := CDEOp.run_effect hr.inv hpre r1
    rw [List.foldlM_cons, List.foldlM_cons, CDE.registerDbg_eq hr.inv hv h1 h2]
    have r1' : c.register env.f env.o (Hazard.new pi.entity pi.shape) = some c1 := r1
    rw [r1']
    refine ih (hr.run (.cons hpre r1 (.nil _))) (r3.trans hs) (by rw [r4]; exact hv)
      (fun x hx => hok x (List.mem_cons_of_mem _ hx)) ?_
    have hp : (c1.dynamics.map (·.entity) ++ ps.map PlacedItem.entity).Perm
        (c.dynamics.map (·.entity) ++ (pi :: ps).map PlacedItem.entity) := by
      rw [List.map_cons]
      refine (e1.append_right _).trans ?_
      rw [List.cons_append]
      exact List.perm_middle.symm
    exact hp.nodup_iff.2 hn

theorem registerItemsDbg_base {env : Env K} {cat : ℕ → Item K} {l : Layout K n} (h : l.Inv env cat) {bin : Bin K n}
    (hb : bin.Built env) (hv : bin.outer.val.bbox.Valid) :
    l.placed.values.foldlM (fun (c : CDE K n) pi => c.registerDbg env.f env.o (Hazard.new pi.entity pi.shape)) bin.baseCde =
      l.placed.values.foldlM (fun (c : CDE K n) pi => c.register env.f env.o (Hazard.new pi.entity pi.shape)) bin.baseCde :=
  registerItemsDbg_eq hb _ hb.base.1 rfl (hb.bbox_valid hv) h.ok (by rw [hb.base.2.1]; simpa using h.nodup)

/-- engines that hold the same hazards have the same active entries -/
theorem sameActive_treeHaz {c d : CDE K n} (hs : c.statics = d.statics)
    (hd : ∀ x ∈ c.dynamics, ∃ y ∈ d.dynamics, y.erase = x.erase) : QTNode.SameActive c.treeHaz d.treeHaz := by
  intro x hx ha
  unfold CDE.treeHaz at hx
  simp only [List.append_assoc, List.mem_append, List.mem_map] at hx
  rcases hx with ⟨y, hy, rfl⟩ | ⟨y, hy, rfl⟩ | ⟨y, hy, rfl⟩
  · refine ⟨QTHazard.ofHazard y, ?_, ha, rfl⟩
    unfold CDE.treeHaz
    rw [← hs]
    simp only [List.append_assoc, List.mem_append]
    exact .inl (List.mem_map_of_mem hy)
  · obtain ⟨z, hz, he⟩ := hd y hy
    refine ⟨QTHazard.ofHazard z, ?_, ?_, ?_⟩
    · unfold CDE.treeHaz
      simp only [List.append_assoc, List.mem_append]
      exact .inr (.inl (List.mem_map_of_mem hz))
    · have e1 : (QTHazard.ofHazard z).erase.active = (QTHazard.ofHazard y).erase.active := by
        rw [← ofHazard_erase, ← ofHazard_erase, he]
      exact e1.trans ha
    · rw [← ofHazard_erase, ← ofHazard_erase, he]
  · simp [QTHazard.ofInactive] at ha

theorem hazardsMatch_of {a b : List (Hazard K)} (h : (a.map (·.entity)).Perm (b.map (·.entity))) (ha : ∀ x ∈ a, x.active = true)
    (hb : ∀ x ∈ b, x.active = true) : Layout.hazardsMatch a b = true := by
  unfold Layout.hazardsMatch
  dsimp only
  rw [List.filter_eq_self.2 ha, List.filter_eq_self.2 hb, Bool.and_eq_true, List.all_eq_true, List.all_eq_true]
  exact ⟨fun e he => by simpa using h.mem_iff.1 he, fun e he => by simpa using h.mem_iff.2 he⟩

theorem Layout.Inv.dyn_active {env : Env K} {cat : ℕ → Item K} {l : Layout K n} (h : l.Inv env cat) :
    ∀ x ∈ l.cde.dynamics, x.active = true := by
  intro x hx
  have he := h.cons x (List.mem_append.2 (.inl hx))
  obtain ⟨pi, hpi, hpe⟩ := List.mem_map.1 (h.ents.mem_iff.1 (List.mem_map_of_mem (f := (·.entity)) hx))
  have : x.erase.active = true := by
    rw [he, ← hpe]
    rfl
  exact this

/-- the quadtree of a layout matches a fresh one -/
theorem Layout.Inv.matchesFresh {env : Env K} {cat : ℕ → Item K} {l : Layout K n} (h : l.Inv env cat)
    (hv : l.bin.outer.val.bbox.Valid) : l.matchesFresh env = some true := by
  obtain ⟨l', e1, i1, id1, b1, p1⟩ := h.changeBin h.bin
  have hsim := h.same i1 b1.symm (by rw [p1])
  unfold Layout.matchesFresh
  rw [registerItemsDbg_base h h.bin hv]
  unfold Layout.changeBin at e1
  obtain ⟨c, hc, rfl⟩ := Option.map_eq_some_iff.1 e1
  rw [hc, Option.map_some]
  congr 1
  dsimp only at hsim i1
  have hdyn := hsim.dynamics
  rw [Bool.and_eq_true]
  constructor
  · have hc1 : l.cde.tree.Canon env.f l.cde.bbox l.cde.treeHaz := h.reach.inv.canon
    have hc2 : c.tree.Canon env.f l.cde.bbox c.treeHaz := by
      have := i1.reach.inv.canon
      rw [show l.cde.bbox = c.bbox from hsim.bbox]
      exact this
    refine QTNode.Canon.nodesMatch _ _ _ _ _ hc1 hc2 (treeHaz_ok _) (treeHaz_ok _) (sameActive_treeHaz hsim.statics ?_)
      (sameActive_treeHaz hsim.statics.symm ?_)
    · intro x hx
      obtain ⟨y, hy, he⟩ := List.mem_map.1 (hdyn.mem_iff.1 (List.mem_map_of_mem (f := Hazard.erase) hx))
      exact ⟨y, hy, he⟩
    · intro x hx
      obtain ⟨y, hy, he⟩ := List.mem_map.1 (hdyn.mem_iff.2 (List.mem_map_of_mem (f := Hazard.erase) hx))
      exact ⟨y, hy, he⟩
  · refine hazardsMatch_of (h.ents.trans i1.ents.symm) h.dyn_active i1.dyn_active

theorem Layout.Inv.checkFresh {env : Env K} {cat : ℕ → Item K} {l : Layout K n} (h : l.Inv env cat)
    (hv : l.bin.outer.val.bbox.Valid) : Layout.checkFresh env l = some l := by
  unfold Layout.checkFresh
  rw [h.matchesFresh hv, Option.bind_some, assertThen_pos rfl]

theorem Layout.Inv.cde_valid {env : Env K} {cat : ℕ → Item K} {l : Layout K n} (h : l.Inv env cat)
    (hv : l.bin.outer.val.bbox.Valid) : l.cde.bbox.Valid := by
  rw [h.bbox]
  exact h.bin.bbox_valid hv

theorem Layout.Inv.placeItemDbg {env : Env K} {cat : ℕ → Item K} {l : Layout K n} (h : l.Inv env cat)
    (hv : l.bin.outer.val.bbox.Valid) (addr : ℕ) {item : Item K} {dt : DTransf K} (hitem : item = cat item.id)
    (hnew : ∀ pi ∈ l.placed.values, ¬ (pi.itemId = item.id ∧ pi.dt = dt)) :
    l.placeItemDbg env addr item dt = l.placeItem env addr item dt := by
  obtain ⟨k, l', e1, i1, id1, b1, p1, k1, _⟩ := h.placeItem addr hitem hnew
  have h1 : (PlacedItem.new env addr item dt).entity ∉ l.cde.statics.map (·.entity) := by
    intro hm
    obtain ⟨x, hx, he⟩ := List.mem_map.1 hm
    exact h.not_static x hx _ _ he
  have h2 : (PlacedItem.new env addr item dt).entity ∉ l.cde.dynamics.map (·.entity) := by
    intro hm
    obtain ⟨q, hq, hqe⟩ := List.mem_map.1 (h.ents.mem_iff.1 hm)
    exact hnew q hq (HazardEntity.placedItem.inj hqe)
  rw [e1]
  unfold Layout.placeItem at e1
  unfold Layout.placeItemDbg
  dsimp only at e1 ⊢
  rw [CDE.registerDbg_eq h.reach.inv (h.cde_valid hv) h1 h2]
  obtain ⟨c, hc, he⟩ := Option.map_eq_some_iff.1 e1
  rw [hc, Option.bind_some]
  obtain ⟨rfl, rfl⟩ := Prod.mk.inj he
  rw [i1.checkFresh (by rw [b1]; exact hv)]
  rfl

theorem Layout.Inv.removeItemDbg {env : Env K} {cat : ℕ → Item K} {l : Layout K n} (h : l.Inv env cat)
    (hv : l.bin.outer.val.bbox.Valid) (key : SlotKey) (ci : Bool) :
    l.removeItemDbg env key ci = l.removeItem env key ci := by
  cases hk : l.placed.get? key with
  | none =>
    have : l.placed.remove key = none := SlotMap.remove_none hk
    unfold Layout.removeItemDbg Layout.removeItem
    rw [this]
  | some pi =>
    obtain ⟨m, l', w1, e1, i1, id1, b1, p1, hperm⟩ := h.removeItem hk ci
    have hmem : pi ∈ l.placed.values := hperm.mem_iff.2 List.mem_cons_self
    obtain ⟨x, hx, he⟩ := List.mem_map.1 (h.ents.mem_iff.2 (List.mem_map_of_mem (f := PlacedItem.entity) hmem))
    rw [e1]
    unfold Layout.removeItem at e1
    unfold Layout.removeItemDbg
    rw [w1] at e1 ⊢
    dsimp only at e1 ⊢
    rw [CDE.deregisterDbg_eq h.reach.inv hx he]
    obtain ⟨c, hc, he⟩ := Option.map_eq_some_iff.1 e1
    rw [hc, Option.bind_some]
    obtain ⟨-, rfl⟩ := Prod.mk.inj he
    rw [i1.checkFresh (by rw [b1]; exact hv)]
    rfl

theorem Layout.Inv.createSnapshotDbg {env : Env K} {cat : ℕ → Item K} {l : Layout K n} (h : l.Inv env cat) :
    l.createSnapshotDbg = l.createSnapshot := by
  unfold Layout.createSnapshotDbg Layout.createSnapshot
  rw [CDE.createSnapshotDbg_eq h.reach.inv]

theorem Layout.Inv.changeBinDbg {env : Env K} {cat : ℕ → Item K} {l : Layout K n} (h : l.Inv env cat) {bin : Bin K n}
    (hb : bin.Built env) (hv : bin.outer.val.bbox.Valid) : l.changeBinDbg env bin = l.changeBin env bin := by
  unfold Layout.changeBinDbg Layout.changeBin
  rw [registerItemsDbg_base h hb hv]

theorem layoutsMatch_of {l : Layout K n} {s : LayoutSnapshot K n} (hb : l.bin.id = s.bin.id) (hp : l.placed = s.placed) :
    layoutsMatch l s = true := by
  unfold layoutsMatch
  rw [if_neg (not_not.2 hb), List.all_eq_true]
  intro x hx
  rw [List.any_eq_true]
  exact ⟨x, by rw [hp]; exact hx, by simp⟩

theorem Layout.Inv.restoreDbg {env : Env K} {cat : ℕ → Item K} {l : Layout K n} (h : l.Inv env cat)
    (hv : l.bin.outer.val.bbox.Valid) {s : LayoutSnapshot K n} (hs : s.Valid env cat) :
    l.restoreDbg env s = (l.restore env s).bind fun l' => assertThen (l.bin.id = s.bin.id) (some l') := by
  by_cases hid : l.id = s.id
  · obtain ⟨l', e1, i1, id1, b1, p1⟩ := h.restore hs hid
    rw [e1, Option.bind_some]
    unfold Layout.restore at e1
    unfold Layout.restoreDbg
    rw [if_neg (not_not.2 hid)] at e1 ⊢
    rw [CDE.restoreDbg_eq h.reach.inv (h.cde_valid hv) (hs.ents.nodup_iff.2 hs.nodup)]
    · obtain ⟨c, hc, rfl⟩ := Option.map_eq_some_iff.1 e1
      rw [hc, Option.bind_some, i1.checkFresh hv, Option.bind_some]
      by_cases hb : l.bin.id = s.bin.id
      · rw [assertThen_pos (layoutsMatch_of (l := { l with placed := s.placed, cde := c }) hb rfl), assertThen_pos (decide_eq_true hb)]
      · rw [assertThen_neg, assertThen_neg (decide_eq_false hb)]
        unfold layoutsMatch
        rw [if_pos hb]
    · intro x hx hm
      obtain ⟨y, hy, he⟩ := List.mem_map.1 hm
      obtain ⟨pi, hpi, hpe⟩ := List.mem_map.1 (hs.ents.mem_iff.1 (List.mem_map_of_mem (f := (·.entity)) hx))
      exact h.not_static y hy pi.itemId pi.dt (he.trans hpe.symm)
  · rw [Layout.restore_id_ne hid]
    unfold Layout.restoreDbg
    rw [if_pos hid]
    rfl

theorem Layout.Inv.restoreDbg_eq {env : Env K} {cat : ℕ → Item K} {l : Layout K n} (h : l.Inv env cat)
    (hv : l.bin.outer.val.bbox.Valid) {s : LayoutSnapshot K n} (hs : s.Valid env cat) (hb : l.bin.id = s.bin.id) :
    l.restoreDbg env s = l.restore env s := by
  rw [h.restoreDbg hv hs]
  cases l.restore env s with
  | none => rfl
  | some l' => rw [Option.bind_some, assertThen_pos (decide_eq_true hb)]

theorem LayoutSnapshot.Valid.fromSnapshotDbg {env : Env K} {cat : ℕ → Item K} {s : LayoutSnapshot K n} (hs : s.Valid env cat)
    (hv : s.bin.outer.val.bbox.Valid) : Layout.fromSnapshotDbg env s = Layout.fromSnapshot env s :=
  (Layout.inv_new cat s.id hs.bin).restoreDbg_eq hv hs rfl

end Jagua
