import Verif.Lemmas.LBF
import Verif.Lemmas.ProblemRun
import Verif.Lemmas.ProblemSol

/-!
# A placement that the engine accepted keeps a layout feasible
-/

set_option linter.unusedSectionVars false

namespace Jagua

section Any
variable {K : Type*} [Arith K] [LinearOrder K] {n : ℕ} {R : Type*}

theorem mem_binHazards {outer : Arc (SPoly K)} {holes : List (Arc (SPoly K))} {zones : List (Option (QualityZone K))} {h : Hazard K} :
    h ∈ generateBinHazards outer holes zones ↔
      h = ⟨.binExterior, outer, true⟩ ∨ (∃ i s, holes[i]? = some s ∧ h = ⟨.binHole i, s, true⟩) ∨
      ∃ z, some z ∈ zones ∧ ∃ i s, z.zones[i]? = some s ∧ h = ⟨.inferiorQualityZone z.quality i, s, true⟩ := by
  unfold generateBinHazards
  rw [List.mem_append, List.mem_append, List.mem_singleton, or_assoc, List.mem_map, List.mem_flatMap]
  refine or_congr Iff.rfl (or_congr ?_ ?_)
  · constructor
    · rintro ⟨⟨s, i⟩, hs, rfl⟩
      exact ⟨i, s, List.mem_zipIdx_iff_getElem?.1 hs, rfl⟩
    · rintro ⟨i, s, hs, rfl⟩
      exact ⟨(s, i), List.mem_zipIdx_iff_getElem?.2 hs, rfl⟩
  · constructor
    · rintro ⟨z, hz, hh⟩
      cases z with
      | none => simp at hh
      | some z =>
        obtain ⟨⟨s, i⟩, hs, rfl⟩ := List.mem_map.1 hh
        exact ⟨z, hz, i, s, List.mem_zipIdx_iff_getElem?.1 hs, rfl⟩
    · rintro ⟨z, hz, i, s, hs, rfl⟩
      refine ⟨some z, hz, ?_⟩
      exact List.mem_map.2 ⟨(s, i), List.mem_zipIdx_iff_getElem?.2 hs, rfl⟩

theorem Bin.Built.hazards {env : Env K} {b : Bin K n} (h : b.Built env) :
    b.baseCde.statics = generateBinHazards b.outer b.holes b.qualityZones ∧ b.baseCde.bbox = b.outer.val.bbox.inflateToSquare := by
  obtain ⟨id, outer, value, pre, holes, zones, hb⟩ := h
  obtain ⟨_, _, h1, h2, _, h3, _, _, h4, _⟩ := (Bin.new_spec env id outer value pre holes zones).2 b hb
  have hq : b.qualityZones = zoneTable zones := by
    unfold Bin.new at hb
    split_ifs at hb
    obtain ⟨c, _, rfl⟩ := Option.map_eq_some_iff.1 hb
    rfl
  exact ⟨by rw [h3, h1, h2, hq], by rw [h4, h1]⟩

/-- only zones of sufficient quality are ignored -/
theorem mem_lbfIrrelevant {item : Item K} {l : Layout K n} {e : HazardEntity K} (h : e ∈ lbfIrrelevant item l) :
    ∃ q z i, item.hazardFilter = some q ∧ e = .inferiorQualityZone z i ∧ q ≤ z := by
  unfold lbfIrrelevant at h
  split at h
  · simp at h
  · rename_i q hq
    unfold generateIrrelevant at h
    obtain ⟨x, _, hx⟩ := List.mem_filterMap.1 h
    split_ifs at hx with hi
    cases hx
    cases he : x.entity with
    | inferiorQualityZone z i =>
      rw [he] at hi
      exact ⟨q, z, i, hq, rfl, by simpa [HazardFilter.isIrrelevant] using hi⟩
    | _ => rw [he] at hi; simp [HazardFilter.isIrrelevant] at hi

end Any

variable {K : Type*} [Field K] [LinearOrder K] [IsStrictOrderedRing K] {n : ℕ} {R : Type*}

/-- a shape that stays proper when it is moved -/
structure Item.Fine (item : Item K) : Prop where
  proper : item.shape.Proper
  area : signedArea item.shape.points ≠ 0

theorem Item.Fine.placed {item : Item K} (h : item.Fine) {tr : Trig K} (hu : tr.Unit) (dt : DTransf K) :
    (item.shape.transform (Transf.fromDt tr dt)).Proper :=
  SPoly.transform_proper h.proper h.area (Transf.IsRigid.rotTransl hu ..)

theorem Layout.Inv.good {env : Env K} {cat : ℕ → Item K} {l : Layout K n} (h : l.Inv env cat) (hb : l.bin.Shapes)
    (hp : ∀ pi ∈ l.placed.values, pi.shape.val.Proper) : l.cde.Good ∧ ∀ x ∈ l.cde.allHazards, x.shape.val.Proper := by
  obtain ⟨hst, hbox⟩ := h.bin.hazards
  have hdyn : ∀ x ∈ l.cde.dynamics, ∃ pi ∈ l.placed.values, x.erase = pi.haz.erase := by
    intro x hx
    obtain ⟨pi, hpi, he⟩ := List.mem_map.1 (h.hazards.mem_iff.1 (List.mem_map_of_mem (f := Hazard.erase) hx))
    exact ⟨pi, hpi, he.symm⟩
  have hstat : ∀ x ∈ l.cde.statics, x = ⟨.binExterior, l.bin.outer, true⟩ ∨ (∃ i s, l.bin.holes[i]? = some s ∧ x = ⟨.binHole i, s, true⟩) ∨
      ∃ z, some z ∈ l.bin.qualityZones ∧ ∃ i s, z.zones[i]? = some s ∧ x = ⟨.inferiorQualityZone z.quality i, s, true⟩ := by
    intro x hx
    rw [h.statics, hst] at hx
    exact mem_binHazards.1 hx
  have hproper : ∀ x ∈ l.cde.allHazards, x.shape.val.Proper := by
    intro x hx
    rcases List.mem_append.1 hx with hx | hx
    · rcases hstat x hx with rfl | ⟨i, s, hs, rfl⟩ | ⟨z, hz, i, s, hs, rfl⟩
      · exact hb.outer
      · exact hb.holes s (List.mem_of_getElem? hs)
      · exact hb.zones z hz s (List.mem_of_getElem? hs)
    · obtain ⟨pi, hpi, he⟩ := hdyn x hx
      have e1 : x.shape.val = pi.shape.val := congrArg (fun h : Hazard K => h.shape.val) he
      rw [e1]
      exact hp pi hpi
  refine ⟨⟨?_, fun x hx => (hproper x hx).wf, ?_, ?_⟩, hproper⟩
  · rw [h.bbox, hbox]; exact inflate_valid hb.outer.wf.bbox_valid
  · intro x hx
    rcases List.mem_append.1 hx with hx | hx
    · rcases hstat x hx with rfl | ⟨i, s, hs, rfl⟩ | ⟨z, hz, i, s, hs, rfl⟩ <;> rfl
    · obtain ⟨pi, hpi, he⟩ := hdyn x hx
      exact congrArg (fun h : Hazard K => h.active) he
  · intro x hx hpos
    rcases List.mem_append.1 hx with hx | hx
    · rcases hstat x hx with rfl | ⟨i, s, hs, rfl⟩ | ⟨z, hz, i, s, hs, rfl⟩
      · rw [h.bbox, hbox]
        unfold AARect.width AARect.height
        rcases inflate_tight l.bin.outer.val.bbox with h | h
        · left; rw [h.1, h.2]
        · right; rw [h.1, h.2]
      · exact absurd hpos (by simp [HazardEntity.position])
      · exact absurd hpos (by simp [HazardEntity.position])
    · obtain ⟨pi, hpi, he⟩ := hdyn x hx
      have e1 : x.entity = pi.entity := congrArg (fun h : Hazard K => h.entity) he
      rw [e1] at hpos
      exact absurd hpos (by simp [HazardEntity.position, PlacedItem.entity])

theorem Feasible.perm {b : Bin K n} {ps qs : List (PlacedItem K)} (h : Feasible b ps) (hp : ps.Perm qs) : Feasible b qs :=
  ⟨fun pi hpi => h.inside pi (hp.mem_iff.2 hpi), fun pi hpi => h.holes pi (hp.mem_iff.2 hpi), fun pi hpi => h.zones pi (hp.mem_iff.2 hpi),
    (hp.pairwise_iff fun hab => hab.symm).1 h.apart⟩

theorem Feasible.nil (b : Bin K n) : Feasible b [] := ⟨by simp, by simp, by simp, by simp⟩

/-! ## Layouts -/

/-- the layout is feasible and all rotations in it are allowed -/
structure Layout.Neat (env : Env K) (cat : ℕ → Item K) (l : Layout K n) : Prop where
  feasible : Feasible l.bin l.placed.values
  rotations : ∀ pi ∈ l.placed.values, (cat pi.itemId).Allows env.tr pi.dt.rotation

theorem Layout.neat_new (env : Env K) (cat : ℕ → Item K) (id : ℕ) (b : Bin K n) : (Layout.new id b).Neat env cat :=
  ⟨by simpa [Layout.new, SlotMap.empty, SlotMap.values] using Feasible.nil b, by simp [Layout.new, SlotMap.empty, SlotMap.values]⟩

/-- In every layout of the bin that the optimizer can reach with these items, an item that the
engine accepts touches none of the hazards that matter to it. -/
def Bin.Honest (env : Env K) (cat : ℕ → Item K) (items : List (Item K × ℕ)) (b : Bin K n) : Prop :=
  ∀ l : Layout K n, l.Inv env cat → l.bin = b → l.Neat env cat → (∀ pi ∈ l.placed.values, ∃ x ∈ items, cat pi.itemId = x.1) →
    ∀ x ∈ items, ∀ dt : DTransf K, x.1.Allows env.tr dt.rotation →
    l.cde.polyCollides env.f (x.1.shape.transform (Transf.fromDt env.tr dt)) (lbfIrrelevant x.1 l) = some false →
    ∀ h ∈ l.cde.allHazards, h.entity ∉ lbfIrrelevant x.1 l →
      Disjoint (region (x.1.shape.transform (Transf.fromDt env.tr dt)).points) (closedHaz h.entity.position h.shape.val.points)

theorem Layout.Inv.placed_proper {env : Env K} (hu : env.tr.Unit) {cat : ℕ → Item K} {l : Layout K n} (h : l.Inv env cat)
    {items : List (Item K × ℕ)} (hitems : ∀ x ∈ items, x.1.Fine) (hcat : ∀ pi ∈ l.placed.values, ∃ x ∈ items, cat pi.itemId = x.1) :
    ∀ pi ∈ l.placed.values, pi.shape.val.Proper := by
  intro pi hpi
  obtain ⟨x, hx, e⟩ := hcat pi hpi
  rw [(h.ok pi hpi).2, e]
  exact (hitems x hx).placed hu _

/-- without a tolerance the engine is honest -/
theorem Bin.Honest.exact {env : Env K} (hf : env.f = Fpa.exact) (hu : env.tr.Unit) {cat : ℕ → Item K} {items : List (Item K × ℕ)}
    (hitems : ∀ x ∈ items, x.1.Fine) {b : Bin K n} (hb : b.Shapes) : b.Honest env cat items := by
  rintro l h rfl - hcat x hx dt - hfree
  obtain ⟨hg, hP⟩ := h.good hb (h.placed_proper hu hitems hcat)
  have hr := h.reach
  rw [hf] at hr hfree
  exact (C05_accepted_is_feasible hr hg ((hitems x hx).placed hu dt) (fun x hx _ => hP x hx) hfree).2

theorem closedHaz_disjoint_exterior {s : Set (Point K)} {pts : List (Point K)} (h : Disjoint s (closedHaz .exterior pts)) : s ⊆ interior pts := by
  intro p hp
  have := Set.disjoint_left.1 h hp
  by_contra hn
  apply this
  by_cases hb : p ∈ bdry pts
  · exact .inl hb
  · exact .inr fun hr => hr.elim hb hn

/-- an accepted placement is new and keeps the layout feasible -/
theorem Layout.Inv.accept {env : Env K} (hu : env.tr.Unit) {cat : ℕ → Item K} {l : Layout K n} (h : l.Inv env cat) {items : List (Item K × ℕ)}
    (hh : l.bin.Honest env cat items) (hn : l.Neat env cat) (hcat : ∀ pi ∈ l.placed.values, ∃ x ∈ items, cat pi.itemId = x.1)
    {item : Item K} (hitem : item = cat item.id) (hfine : item.Fine) (hmem : ∃ x ∈ items, item = x.1)
    {dt : DTransf K} (hrot : item.Allows env.tr dt.rotation)
    (hfree : l.cde.polyCollides env.f (item.shape.transform (Transf.fromDt env.tr dt)) (lbfIrrelevant item l) = some false) :
    (∀ pi ∈ l.placed.values, ¬ (pi.itemId = item.id ∧ pi.dt = dt)) ∧
    ∀ addr, Feasible l.bin l.placed.values → Feasible l.bin (PlacedItem.new env addr item dt :: l.placed.values) := by
  have hs := hfine.placed hu dt
  have hd : ∀ x ∈ l.cde.allHazards, x.entity ∉ lbfIrrelevant item l →
      Disjoint (region (item.shape.transform (Transf.fromDt env.tr dt)).points) (closedHaz x.entity.position x.shape.val.points) := by
    obtain ⟨x, hx, rfl⟩ := hmem
    exact hh l h rfl hn hcat x hx dt hrot hfree
  have h1 : ∀ x ∈ l.cde.allHazards, x.entity = .binExterior → x.entity ∉ lbfIrrelevant item l →
      region (item.shape.transform (Transf.fromDt env.tr dt)).points ⊆ interior x.shape.val.points := by
    intro x hx he hirr
    have := hd x hx hirr
    rw [he] at this
    exact closedHaz_disjoint_exterior this
  have h2 : ∀ x ∈ l.cde.allHazards, x.entity ≠ .binExterior → x.entity ∉ lbfIrrelevant item l →
      Disjoint (region (item.shape.transform (Transf.fromDt env.tr dt)).points) (region x.shape.val.points) := by
    intro x hx he hirr
    have := hd x hx hirr
    have hpos : x.entity.position = .interior := by
      cases hx' : x.entity with
      | binExterior => exact absurd hx' he
      | _ => rfl
    rw [hpos] at this
    exact this
  obtain ⟨hst, _⟩ := h.bin.hazards
  have hitems : ∀ pi ∈ l.placed.values, Disjoint (region (item.shape.transform (Transf.fromDt env.tr dt)).points) (region pi.shape.val.points) := by
    intro pi hpi
    obtain ⟨x, hx, he⟩ := List.mem_map.1 (h.hazards.mem_iff.2 (List.mem_map_of_mem (f := fun pi : PlacedItem K => pi.haz.erase) hpi))
    have e1 : x.shape.val = pi.shape.val := congrArg (fun h : Hazard K => h.shape.val) he
    have e2 : x.entity = pi.entity := congrArg (fun h : Hazard K => h.entity) he
    rw [← e1]
    refine h2 x (List.mem_append.2 (.inr hx)) (by rw [e2]; simp [PlacedItem.entity]) fun hirr => ?_
    obtain ⟨_, _, _, _, hz, _⟩ := mem_lbfIrrelevant hirr
    rw [e2] at hz
    simp [PlacedItem.entity] at hz
  have hstat : ∀ x ∈ generateBinHazards l.bin.outer l.bin.holes l.bin.qualityZones, x ∈ l.cde.allHazards := by
    intro x hx
    refine List.mem_append.2 (.inl ?_)
    rw [h.statics, hst]
    exact hx
  constructor
  · rintro pi hpi ⟨h3, h4⟩
    have := hitems pi hpi
    rw [(h.ok pi hpi).2, h3, h4, ← hitem] at this
    have := Set.disjoint_left.1 this (.inr hs.poi)
    exact this (.inr hs.poi)
  · intro addr hfeas
    have e : (PlacedItem.new env addr item dt).shape.val = item.shape.transform (Transf.fromDt env.tr dt) := rfl
    refine ⟨?_, ?_, ?_, List.pairwise_cons.2 ⟨hitems, hfeas.apart⟩⟩
    · intro pi hpi
      rcases List.mem_cons.1 hpi with rfl | hpi
      · refine h1 ⟨.binExterior, l.bin.outer, true⟩ (hstat _ (mem_binHazards.2 (.inl rfl))) rfl fun hirr => ?_
        obtain ⟨_, _, _, _, hz, _⟩ := mem_lbfIrrelevant hirr
        cases hz
      · exact hfeas.inside pi hpi
    · intro pi hpi s hsm
      rcases List.mem_cons.1 hpi with rfl | hpi
      · obtain ⟨i, hi⟩ := List.mem_iff_getElem?.1 hsm
        refine h2 ⟨.binHole i, s, true⟩ (hstat _ (mem_binHazards.2 (.inr (.inl ⟨i, s, hi, rfl⟩)))) (by simp) fun hirr => ?_
        obtain ⟨_, _, _, _, hz, _⟩ := mem_lbfIrrelevant hirr
        cases hz
      · exact hfeas.holes pi hpi s hsm
    · intro pi hpi z hz hq s hsm
      rcases List.mem_cons.1 hpi with rfl | hpi
      · obtain ⟨i, hi⟩ := List.mem_iff_getElem?.1 hsm
        refine h2 ⟨.inferiorQualityZone z.quality i, s, true⟩ (hstat _ (mem_binHazards.2 (.inr (.inr ⟨z, hz, i, s, hi, rfl⟩)))) (by simp)
          fun hirr => ?_
        obtain ⟨q, z', i', hq', hz', hle⟩ := mem_lbfIrrelevant hirr
        cases hz'
        exact absurd hle (not_le.2 (hq q hq'))
      · exact hfeas.zones pi hpi z hz hq s hsm

theorem Layout.Inv.place_neat {env : Env K} (hu : env.tr.Unit) {cat : ℕ → Item K} {l : Layout K n} (h : l.Inv env cat)
    {items : List (Item K × ℕ)} (hh : l.bin.Honest env cat items) (hcat : ∀ pi ∈ l.placed.values, ∃ x ∈ items, cat pi.itemId = x.1)
    {item : Item K} (hitem : item = cat item.id) (hfine : item.Fine) (hmem : ∃ x ∈ items, item = x.1)
    {b : DTransf K × K} (hacc : Accepted env l item (lbfIrrelevant item l) b) (hn : l.Neat env cat) :
    (∀ pi ∈ l.placed.values, ¬ (pi.itemId = item.id ∧ pi.dt = b.1)) ∧
    ∀ {addr k l'}, l.placeItem env addr item b.1 = some (k, l') → l'.Neat env cat := by
  obtain ⟨h1, h2⟩ := h.accept hu hh hn hcat hitem hfine hmem hacc.rot hacc.free
  refine ⟨h1, fun {addr k l'} hp => ?_⟩
  obtain ⟨k', l2, e, _, _, hbin, _, _, hperm⟩ := h.placeItem addr hitem h1
  rw [hp] at e
  cases e
  refine ⟨?_, ?_⟩
  · rw [hbin]
    exact (h2 addr hn.feasible).perm hperm.symm
  · intro pi hpi
    rcases List.mem_cons.1 (hperm.mem_iff.1 hpi) with rfl | hpi
    · show (cat item.id).Allows env.tr b.1.rotation
      rw [← hitem]
      exact hacc.rot
    · exact hn.rotations pi hpi

theorem BPInstance.honest_exact {env : Env K} (hf : env.f = Fpa.exact) (hu : env.tr.Unit) {inst : BPInstance K n}
    (hbins : ∀ b ∈ inst.bins, b.1.Shapes) (hitems : ∀ x ∈ inst.items, x.1.Fine) : ∀ b ∈ inst.bins, b.1.Honest env inst.cat inst.items :=
  fun b hb => .exact hf hu hitems (hbins b hb)

/-! ## Bin packing -/

/-- what stays true of the problem while the optimizer runs -/
structure LbfBP (env : Env K) (inst : BPInstance K n) (p : BPProblem K n) : Prop where
  same : p.inst = inst
  inv : BPState.Inv env ⟨p, []⟩
  neat : ∀ l ∈ p.layouts, l.Neat env inst.cat
  nonneg : ∀ m ∈ p.missing, 0 ≤ m
  nonempty : ∀ l ∈ p.layouts, l.placed.values ≠ []

theorem LbfBP.start {env : Env K} {inst : BPInstance K n} (h : inst.Built env) : LbfBP env inst (BPProblem.new inst) :=
  ⟨rfl, BPState.inv_new h, by simp [BPProblem.new], by
    intro m hm
    obtain ⟨x, _, rfl⟩ := List.mem_map.1 hm
    exact Int.natCast_nonneg _, by simp [BPProblem.new]⟩

theorem Layout.Inv.placeItem_nonempty {env : Env K} {cat : ℕ → Item K} {l : Layout K n} (h : l.Inv env cat) {addr : ℕ} {item : Item K}
    {dt : DTransf K} (hitem : item = cat item.id) (hnew : ∀ pi ∈ l.placed.values, ¬ (pi.itemId = item.id ∧ pi.dt = dt)) {k : SlotKey} {l' : Layout K n}
    (hl : l.placeItem env addr item dt = some (k, l')) : l'.placed.values ≠ [] := by
  obtain ⟨k', l'', e1, -, -, -, -, -, e7⟩ := h.placeItem addr hitem hnew
  rw [hl] at e1
  cases e1
  intro he
  rw [he] at e7
  exact List.cons_ne_nil _ _ e7.nil_eq.symm

theorem BPProblem.placeItem_missing {env : Env K} {addr : ℕ} {p : BPProblem K n} (ht : ∀ t ∈ p.templates, t.placed.values = [])
    {opt : PlacingOption K} {r : (LayoutIndex × SlotKey) × BPProblem K n} (h : p.placeItem env addr opt = some r) :
    addAt p.missing opt.itemId (-1) = some r.2.missing := by
  unfold BPProblem.placeItem at h
  obtain ⟨t, ht', h⟩ := Option.bind_eq_some_iff.1 h
  have hmis : t.2.missing = p.missing := by
    cases hi : opt.layoutIdx with
    | real i => rw [hi] at ht'; cases ht'; rfl
    | template i =>
      rw [hi] at ht'
      unfold BPProblem.targetLayout at ht'
      dsimp only at ht'
      cases hti : p.templates[i]? with
      | none => rw [hti] at ht'; cases ht'
      | some l =>
        rw [hti] at ht'
        dsimp only at ht'
        obtain ⟨q, hq, ht'⟩ := Option.bind_eq_some_iff.1 ht'
        unfold BPProblem.registerLayout at hq
        obtain ⟨p1, hp1, hq⟩ := Option.bind_eq_some_iff.1 hq
        have hl := ht l (List.mem_of_getElem? hti)
        rw [show (l.cloneWithId (p.layoutCounter + 1)).placed.values = [] from hl] at hq
        rw [List.foldlM_nil] at hq
        have hq : some _ = some q := hq
        cases hq
        dsimp only at ht'
        cases ht'
        dsimp only
        unfold BPProblem.registerBin at hp1
        split at hp1
        · cases hp1
        · split_ifs at hp1
          cases hp1
          rfl
  split at h
  · obtain ⟨pl, _, h⟩ := Option.bind_eq_some_iff.1 h
    obtain ⟨p2, hp2, rfl⟩ := Option.map_eq_some_iff.1 h
    unfold BPProblem.registerItem at hp2
    obtain ⟨m, hm, rfl⟩ := Option.map_eq_some_iff.1 hp2
    rw [← hmis]
    exact hm
  · cases h

theorem LbfBP.templates {env : Env K} {inst : BPInstance K n} {p : BPProblem K n} (h : LbfBP env inst p) {i : ℕ} {l : Layout K n}
    (hl : p.templates[i]? = some l) : ∃ bin k, l = Layout.new i bin ∧ inst.bins[i]? = some (bin, k) ∧ bin.id = i := by
  rw [show p.templates = _ from h.inv.templates] at hl
  dsimp only at hl
  rw [h.same] at hl
  unfold BPProblem.new at hl
  dsimp only at hl
  rw [List.getElem?_map, List.getElem?_zipIdx] at hl
  obtain ⟨y, hy, rfl⟩ := Option.map_eq_some_iff.1 hl
  obtain ⟨z, hz, rfl⟩ := Option.map_eq_some_iff.1 hy
  have := h.inv.built
  dsimp only at this
  rw [h.same] at this
  exact ⟨z.1, z.2, by simp, hz, this.bin_id hz⟩

/-- the layouts that are searched -/
theorem LbfBP.search {env : Env K} {inst : BPInstance K n} {p : BPProblem K n} (h : LbfBP env inst p)
    {ls : List (LayoutIndex × Layout K n)} (hls : p.searchList = some ls) : ∀ x ∈ ls,
    (∃ i, x.1 = .real i ∧ p.layouts[i]? = some x.2) ∨
    ∃ i bin k q, x.1 = .template i ∧ x.2 = Layout.new i bin ∧ inst.bins[i]? = some (bin, k) ∧ p.binQtys[i]? = some q ∧ 0 < q := by
  have htpl : ∀ (i : ℕ) (l : Layout K n), p.templates[i]? = some l → ∃ bin k, l = Layout.new i bin ∧ inst.bins[i]? = some (bin, k) := by
    intro i l hl
    rw [show p.templates = _ from h.inv.templates] at hl
    dsimp only at hl
    rw [h.same] at hl
    unfold BPProblem.new at hl
    dsimp only at hl
    rw [List.getElem?_map, List.getElem?_zipIdx] at hl
    obtain ⟨y, hy, rfl⟩ := Option.map_eq_some_iff.1 hl
    obtain ⟨z, hz, rfl⟩ := Option.map_eq_some_iff.1 hy
    exact ⟨z.1, z.2, by simp, hz⟩
  unfold BPProblem.searchList at hls
  obtain ⟨ts, hts, hls⟩ := Option.bind_eq_some_iff.1 hls
  intro x hx
  obtain ⟨idx, hidx, hg⟩ := mapM_mem hls x hx
  obtain ⟨l, hl, rfl⟩ := Option.map_eq_some_iff.1 hg
  rcases List.mem_append.1 hidx with hidx | hidx
  · obtain ⟨i, _, rfl⟩ := List.mem_map.1 hidx
    exact .inl ⟨i, rfl, hl⟩
  · right
    unfold BPProblem.templatesWithStock at hts
    obtain ⟨tss, htss, rfl⟩ := Option.map_eq_some_iff.1 hts
    obtain ⟨t, ht, hit⟩ := List.mem_flatten.1 hidx
    obtain ⟨⟨tl, i⟩, hti, hq⟩ := mapM_mem htss t ht
    obtain ⟨q, hq2, rfl⟩ := Option.map_eq_some_iff.1 hq
    split_ifs at hit with hq0
    · simp at hit
    · rw [List.mem_singleton] at hit
      subst hit
      dsimp only at hq2
      obtain ⟨bin, k, rfl, hbin⟩ := htpl i tl (List.mem_zipIdx_iff_getElem?.1 hti)
      obtain ⟨bin', k', rfl, hbin'⟩ := htpl i l hl
      have hid : bin.id = i := by
        have := h.inv.built
        dsimp only at this
        rw [h.same] at this
        exact this.bin_id hbin
      rw [hbin] at hbin'
      cases hbin'
      rw [show (Layout.new i bin).bin.id = i from hid] at hq2
      exact ⟨i, bin, k, q, rfl, rfl, hbin, hq2, Nat.pos_of_ne_zero hq0⟩

theorem nonneg_set {l : List ℤ} (h : ∀ m ∈ l, 0 ≤ m) {i : ℕ} {x : ℤ} (hx : 0 ≤ x) : ∀ m ∈ l.set i x, 0 ≤ m := by
  intro m hm
  rcases List.mem_or_eq_of_mem_set hm with hm | rfl
  · exact h m hm
  · exact hx

/-- a placement that was found can be made -/
theorem LbfBP.place {lenv : LEnv K n R} {env : Env K} {cfg : LbfConfig} {inst : BPInstance K n} {p : BPProblem K n}
    (hh : ∀ b ∈ inst.bins, b.1.Honest env inst.cat inst.items) (hu : env.tr.Unit) (hp : env.tr.Polar)
    (hitems : ∀ x ∈ inst.items, x.1.Fine)
    (h : LbfBP env inst p) {i : ℕ} {m : ℤ} (hm : p.missing[i]? = some m) (hpos : 0 < m) {item : Item K × ℕ} (hi : inst.items[i]? = some item)
    {ls : List (LayoutIndex × Layout K n)} (hls : p.searchList = some ls) {r : R} {o : Option (PlacingOption K) × R}
    (hfp : findPlacement lenv env cfg item.1 ls r = some o) {opt : PlacingOption K} (ho : o.1 = some opt) (addr : ℕ) :
    ∃ q, p.placeItem env addr opt = some q ∧ LbfBP env inst q.2 ∧ q.2.missing = p.missing.set i (m - 1) := by
  obtain ⟨x, hx, e1, e2, c, hacc⟩ := findPlacement_ok hu hp hfp ho
  have hbuilt : inst.Built env := by
    have := h.inv.built
    dsimp only at this
    rwa [h.same] at this
  obtain ⟨hid, hcat⟩ := catOf_id hbuilt.ids hi
  have hlen : item.1.id < p.inst.items.length := by rw [h.same, hid]; exact (List.getElem?_eq_some_iff.1 hi).1
  have hcatMem : ∀ j < inst.items.length, ∃ x ∈ inst.items, inst.cat j = x.1 := by
    intro j hj
    obtain ⟨y, hy⟩ : ∃ y, inst.items[j]? = some y := ⟨_, List.getElem?_eq_getElem hj⟩
    have : inst.cat j = y.1 := by unfold BPInstance.cat catOf; rw [hy]
    exact ⟨y, List.mem_of_getElem? hy, this⟩
  have hfine := hitems item (List.mem_of_getElem? hi)
  have hcat : item.1 = inst.cat item.1.id := hcat
  have htmpl : ∀ t ∈ p.templates, t.placed.values = [] := by
    intro t ht
    rw [show p.templates = _ from h.inv.templates] at ht
    unfold BPProblem.new at ht
    dsimp only at ht
    obtain ⟨b, _, rfl⟩ := List.mem_map.1 ht
    rfl
  have finish : ∀ {q : (LayoutIndex × SlotKey) × BPProblem K n}, p.placeItem env addr opt = some q → q.2.missing = p.missing.set i (m - 1) := by
    intro q hq
    have := BPProblem.placeItem_missing htmpl hq
    rw [e2, hid, addAt_some hm] at this
    rw [← Option.some.inj this]
    rfl
  obtain ⟨idx, oid, dt⟩ := opt
  dsimp only at e1 e2
  subst e1 e2
  rcases h.search hls x hx with ⟨j, e3, hl⟩ | ⟨j, bin, k, q, e3, e4, hbin, hq, hq0⟩
  · obtain ⟨idx, l⟩ := x
    dsimp only at e3 hl hacc finish
    subst e3
    have hin := h.inv.layouts l (List.mem_of_getElem? hl)
    dsimp only at hin
    rw [h.same] at hin
    have hsh : l.bin.Honest env inst.cat inst.items := by
      obtain ⟨q, hq⟩ := hin.bin
      exact hh _ (List.mem_of_getElem? hq)
    obtain ⟨hnew, hneat⟩ := hin.inv.place_neat hu hsh (fun pi hpi => hcatMem _ (hin.items pi hpi)) hcat hfine
      ⟨item, List.mem_of_getElem? hi, rfl⟩ hacc
      (h.neat l (List.mem_of_getElem? hl))
    obtain ⟨k, l', m', f1, f2, f3⟩ := h.inv.placeReal addr (i := j) (id := item.1.id) (dt := dt) hl hlen hnew
    dsimp only at f1 f2
    rw [h.same, ← hcat] at f1
    refine ⟨_, f2, ⟨h.same, f3, ?_, ?_, ?_⟩, finish f2⟩
    · intro l2 hl2
      rcases List.mem_or_eq_of_mem_set hl2 with hl2 | rfl
      · exact h.neat l2 hl2
      · exact hneat f1
    · rw [show m' = p.missing.set i (m - 1) from finish f2]
      exact nonneg_set h.nonneg (by omega)
    · intro l2 hl2
      rcases List.mem_or_eq_of_mem_set hl2 with hl2 | rfl
      · exact h.nonempty l2 hl2
      · exact hin.inv.placeItem_nonempty hcat hnew f1
  · obtain ⟨idx, l⟩ := x
    dsimp only at e3 e4 hacc finish
    subst e3 e4
    obtain ⟨m1, b, bin', k', key, l', m', f1, f2, f3, f4, f5⟩ := h.inv.placeTemplate addr (i := j) (id := item.1.id) (dt := dt) hq hq0 hlen
    dsimp only at f1 f2 f4
    rw [h.same, hbin] at f1
    cases f1
    rw [h.same, ← hcat] at f2
    have hB : bin.Built env := hbuilt.2 _ (List.mem_of_getElem? hbin)
    have hI : (Layout.new (p.layoutCounter + 1) bin).Inv env inst.cat := Layout.inv_new _ _ hB
    have hacc' : Accepted env (Layout.new (p.layoutCounter + 1) bin) item.1 (lbfIrrelevant item.1 (Layout.new (p.layoutCounter + 1) bin)) (dt, c) :=
      ⟨hacc.rot, hacc.free, hacc.cost⟩
    obtain ⟨hnew, hneat⟩ := hI.place_neat hu (hh _ (List.mem_of_getElem? hbin)) (by simp [Layout.new, SlotMap.empty, SlotMap.values])
      hcat hfine ⟨item, List.mem_of_getElem? hi, rfl⟩ hacc' (Layout.neat_new ..)
    refine ⟨_, f4, ⟨h.same, f5, ?_, ?_, ?_⟩, finish f4⟩
    · intro l2 hl2
      rcases List.mem_append.1 hl2 with hl2 | hl2
      · exact h.neat l2 hl2
      · rw [List.mem_singleton] at hl2
        subst hl2
        exact hneat f2
    · rw [show m' = p.missing.set i (m - 1) from finish f4]
      exact nonneg_set h.nonneg (by omega)
    · intro l2 hl2
      rcases List.mem_append.1 hl2 with hl2 | hl2
      · exact h.nonempty l2 hl2
      · rw [List.mem_singleton] at hl2
        subst hl2
        exact hI.placeItem_nonempty hcat hnew f2

/-- how the loop for an item ends -/
def ItemDone (lenv : LEnv K n R) (env : Env K) (cfg : LbfConfig) (i : ℕ) (p : BPProblem K n) : Prop :=
  p.missing[i]? = some 0 ∨ ∃ item ls r r', p.inst.items[i]? = some item ∧ p.searchList = some ls ∧
    findPlacement lenv env cfg item.1 ls r = some (none, r')

theorem lbfPlaceBP_ok {lenv : LEnv K n R} {env : Env K} {cfg : LbfConfig} {inst : BPInstance K n} {addr : ℕ → ℕ}
    (hh : ∀ b ∈ inst.bins, b.1.Honest env inst.cat inst.items) (hu : env.tr.Unit) (hp : env.tr.Polar)
    (hitems : ∀ x ∈ inst.items, x.1.Fine) {i : ℕ} :
    ∀ (k : ℕ) {p : BPProblem K n} {r : R} {x : BPProblem K n × R}, LbfBP env inst p →
    lbfPlaceBP lenv env cfg addr i k p r = some x →
    LbfBP env inst x.1 ∧ ItemDone lenv env cfg i x.1 ∧ ∀ j ≠ i, x.1.missing[j]? = p.missing[j]?
  | 0, p, r, x, h, hx => by cases hx
  | k + 1, p, r, x, h, hx => by
    unfold lbfPlaceBP at hx
    obtain ⟨m, hm, hx⟩ := Option.bind_eq_some_iff.1 hx
    split_ifs at hx with hpos
    · obtain ⟨item, hi, hx⟩ := Option.bind_eq_some_iff.1 hx
      obtain ⟨ls, hls, hx⟩ := Option.bind_eq_some_iff.1 hx
      obtain ⟨o, ho, hx⟩ := Option.bind_eq_some_iff.1 hx
      cases hopt : o.1 with
      | none =>
        rw [hopt] at hx
        cases hx
        refine ⟨h, .inr ⟨item, ls, r, o.2, hi, hls, ?_⟩, fun _ _ => rfl⟩
        rw [ho, ← hopt]
      | some opt =>
        rw [hopt] at hx
        dsimp only at hx
        obtain ⟨q, hq, hx⟩ := Option.bind_eq_some_iff.1 hx
        rw [h.same] at hi
        obtain ⟨q', hq', hL, hmis⟩ := h.place hh hu hp hitems hm hpos hi hls ho hopt (addr m.toNat)
        rw [hq] at hq'
        cases hq'
        obtain ⟨g1, g2, g3⟩ := lbfPlaceBP_ok hh hu hp hitems k hL hx
        refine ⟨g1, g2, fun j hj => ?_⟩
        rw [g3 j hj, hmis, List.getElem?_set_ne (Ne.symm hj)]
    · cases hx
      refine ⟨h, .inl ?_, fun _ _ => rfl⟩
      have := h.nonneg m (List.mem_of_getElem? hm)
      rw [hm, show m = 0 by omega]

/-- the number of rounds is bounded by the demand -/
theorem lbfPlaceBP_fuel {lenv : LEnv K n R} {env : Env K} {cfg : LbfConfig} {inst : BPInstance K n} {addr : ℕ → ℕ}
    (hh : ∀ b ∈ inst.bins, b.1.Honest env inst.cat inst.items) (hu : env.tr.Unit) (hp : env.tr.Polar)
    (hitems : ∀ x ∈ inst.items, x.1.Fine) {i : ℕ} :
    ∀ (k k' : ℕ) {p : BPProblem K n} {r : R} {m : ℤ}, LbfBP env inst p → p.missing[i]? = some m → m.toNat < k → m.toNat < k' →
    lbfPlaceBP lenv env cfg addr i k p r = lbfPlaceBP lenv env cfg addr i k' p r
  | 0, _, p, r, m, h, hm, hk, hk' => by omega
  | _ + 1, 0, p, r, m, h, hm, hk, hk' => by omega
  | k + 1, k' + 1, p, r, m, h, hm, hk, hk' => by
    unfold lbfPlaceBP
    rw [hm, Option.bind_some, Option.bind_some]
    by_cases hpos : 0 < m
    · rw [if_pos hpos, if_pos hpos]
      cases hi : p.inst.items[i]? with
      | none => rfl
      | some item =>
        rw [Option.bind_some, Option.bind_some]
        cases hls : p.searchList with
        | none => rfl
        | some ls =>
          rw [Option.bind_some, Option.bind_some]
          cases ho : findPlacement lenv env cfg item.1 ls r with
          | none => rfl
          | some o =>
            rw [Option.bind_some, Option.bind_some]
            cases hopt : o.1 with
            | none => rfl
            | some opt =>
              dsimp only
              rw [h.same] at hi
              obtain ⟨q, hq, hL, hmis⟩ := h.place hh hu hp hitems hm hpos hi hls ho hopt (addr m.toNat)
              rw [hq, Option.bind_some, Option.bind_some]
              refine lbfPlaceBP_fuel hh hu hp hitems k k' hL (m := m - 1) ?_ (by omega) (by omega)
              rw [hmis, List.getElem?_set_self (List.getElem?_eq_some_iff.1 hm).1]
    · rw [if_neg hpos, if_neg hpos]

theorem lbfFoldBP_ok {lenv : LEnv K n R} {env : Env K} {cfg : LbfConfig} {inst : BPInstance K n} {addr : ℕ → ℕ → ℕ} {fuel : ℕ}
    (hh : ∀ b ∈ inst.bins, b.1.Honest env inst.cat inst.items) (hu : env.tr.Unit) (hp : env.tr.Polar)
    (hitems : ∀ x ∈ inst.items, x.1.Fine) :
    ∀ (order : List ℕ) {s s' : BPProblem K n × R}, LbfBP env inst s.1 →
    order.foldlM (fun (s : BPProblem K n × R) i => lbfPlaceBP lenv env cfg (addr i) i fuel s.1 s.2) s = some s' → LbfBP env inst s'.1
  | [], s, s', h, hs => by
    rw [List.foldlM_nil] at hs
    cases hs
    exact h
  | i :: order, s, s', h, hs => by
    rw [List.foldlM_cons] at hs
    obtain ⟨t, ht, hs⟩ := Option.bind_eq_some_iff.1 hs
    exact lbfFoldBP_ok hh hu hp hitems order (lbfPlaceBP_ok hh hu hp hitems fuel h ht).1 hs

end Jagua
