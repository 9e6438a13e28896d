import Verif.Lemmas.Layout
import Verif.Lemmas.PolyCollides
import Verif.Lemmas.RectGeo2
import Verif.Spec.LayoutExamples

/-! # C26, C27, C42, C48: layouts, hazard filters and bins -/

set_option linter.unusedSectionVars false

namespace Jagua

variable {K : Type*} [Arith K] [LinearOrder K] {n : ℕ}

/-! ## C26 A layout and its collision engine agree -/

/-- C26: no admissible operation panics, and each does what it says to the placed
items: placing adds one, removing takes one away, taking a snapshot and changing
the bin keep them, restoring brings back those of the snapshot. -/
theorem C26_operations {env : Env K} {cat : ℕ → Item K} {st : LayoutState K n} (hr : st.Reachable env cat) {op : LayoutOp K n}
    (hp : op.Pre env cat st) :
    ∃ st', op.run env st = some st' ∧ st'.Reachable env cat ∧ st'.layout.id = st.layout.id ∧ match op with
      | .place addr item dt => st'.layout.bin = st.layout.bin ∧
          st'.layout.placed.values.Perm (PlacedItem.new env addr item dt :: st.layout.placed.values)
      | .remove key _ => st'.layout.bin = st.layout.bin ∧ ∃ pi, st.layout.placed.get? key = some pi ∧
          st.layout.placed.values.Perm (pi :: st'.layout.placed.values)
      | .snapshot => st'.layout.bin = st.layout.bin ∧ st'.layout.placed = st.layout.placed
      | .restore i => st'.layout.bin = st.layout.bin ∧ ∃ s, st.snaps[i]? = some s ∧ st'.layout.placed = s.placed
      | .changeBin bin => st'.layout.bin = bin ∧ st'.layout.placed = st.layout.placed := by
  obtain ⟨st', h1, h2, h3, h4⟩ := LayoutOp.run_inv hr.inv hp
  refine ⟨st', h1, ?_, h3, ?_⟩
  · obtain ⟨id, bin, ops, hb, hrun⟩ := hr
    refine ⟨id, bin, ops ++ [op], hb, ?_⟩
    have app : ∀ {a b : LayoutState K n} {os : List (LayoutOp K n)}, LayoutRun env cat a os b → op.Pre env cat b →
        op.run env b = some st' → LayoutRun env cat a (os ++ [op]) st' := by
      intro a b os hab
      induction hab with
      | nil => intro hp hr; exact .cons hp hr (.nil _)
      | cons hp' hr' _ ih => intro hp hr; exact .cons hp' hr' (ih hp hr)
    exact app hrun hp h1
  · cases op with
    | place => exact ⟨h4.1, h4.2.2.2⟩
    | remove => exact ⟨h4.1, h4.2.2⟩
    | snapshot => exact ⟨h4.1, h4.2.1⟩
    | restore => exact ⟨h4.1, h4.2.2⟩
    | changeBin => exact ⟨h4.1, h4.2.2⟩

/-- C26: the dynamic hazards of the engine are, one to one, the placed items: the
same identity, the same shape, switched on. The fixed hazards and the box are
those of the layout's bin. -/
theorem C26_hazards_are_the_placed_items {env : Env K} {cat : ℕ → Item K} {st : LayoutState K n} (hr : st.Reachable env cat) :
    (st.layout.cde.dynamics.map fun h => (h.entity, h.shape.val, h.active)).Perm
      (st.layout.placed.values.map fun pi => (HazardEntity.placedItem pi.itemId pi.dt, pi.shape.val, true)) ∧
    st.layout.cde.statics = st.layout.bin.baseCde.statics ∧ st.layout.cde.bbox = st.layout.bin.baseCde.bbox := by
  have h := hr.inv.layout
  refine ⟨?_, h.statics, h.bbox⟩
  have := h.hazards.map fun h => (h.entity, h.shape.val, h.active)
  rw [List.map_map, List.map_map] at this
  exact this

/-- C26: a placed item is the item of that number moved by its transformation. -/
theorem C26_placed_items_come_from_the_catalogue {env : Env K} {cat : ℕ → Item K} {st : LayoutState K n}
    (hr : st.Reachable env cat) : ∀ pi ∈ st.layout.placed.values,
      pi.shape.val = (cat pi.itemId).shape.transform (Transf.fromDt env.tr pi.dt) ∧
      pi.hazardFilter = (cat pi.itemId).hazardFilter :=
  fun pi hpi => ⟨(hr.inv.layout.ok pi hpi).2, (hr.inv.layout.ok pi hpi).1⟩

/-- C26: the engine answers like one that is set up from the bin and in which the
placed items are registered one after the other. -/
theorem C26_engine_like_fresh {env : Env K} {cat : ℕ → Item K} {st : LayoutState K n} (hr : st.Reachable env cat) :
    ∃ c, st.layout.placed.values.foldlM (fun (c : CDE K n) pi =>
        c.register env.f env.o ⟨.placedItem pi.itemId pi.dt, pi.shape, true⟩) st.layout.bin.baseCde = some c ∧
      SameAnswers env.f st.layout.cde c := by
  have h := hr.inv.layout
  obtain ⟨l', h1, h2, h3, h4, h5⟩ := h.changeBin h.bin
  unfold Layout.changeBin at h1
  obtain ⟨c, hc, rfl⟩ := Option.map_eq_some_iff.1 h1
  exact ⟨c, hc, (h.same h2 rfl (List.Perm.refl _)).same.answers⟩

/-- C26: looking up the key of a hazard finds the placed item with that identity,
for every dynamic hazard of the engine, and nothing for any other. -/
theorem C26_lookup {env : Env K} {cat : ℕ → Item K} {st : LayoutState K n} (hr : st.Reachable env cat) (e : HazardEntity K) :
    (∀ k, st.layout.hazardToKey e = some k ↔ ∃ pi, st.layout.placed.get? k = some pi ∧ .placedItem pi.itemId pi.dt = e) ∧
    (st.layout.hazardToKey e = none ↔ ∀ h ∈ st.layout.cde.dynamics, h.entity ≠ e) := by
  obtain ⟨h1, h2⟩ := hr.inv.layout.hazardToKey e
  refine ⟨h1, h2.trans ?_⟩
  rw [List.mem_map]
  push Not
  rfl

/-- Non-trivial instance: a reachable layout with two items and a snapshot, in
which both kinds of lookups occur and all operations are possible. -/
example : ∃ st : LayoutState ℚ 2, st.Reachable Ex.env Ex.cat ∧ st.layout.placed.values.length = 2 ∧
    (LayoutOp.place 9 (Ex.cat 5) (Ex.shift 4 4)).Pre Ex.env Ex.cat st ∧ (LayoutOp.restore 0).Pre Ex.env Ex.cat st ∧
    st.layout.hazardToKey (.placedItem 1 (Ex.shift 6 2)) ≠ none ∧ st.layout.hazardToKey (.placedItem 0 (Ex.shift 2 5)) = none := by
  obtain ⟨st, h1, h2, h3, hst⟩ := Ex.exists_layout
  have h : (Ex.mkPlain.bind (fun b => Ex.layoutRun Ex.layoutOps ⟨Layout.new 0 b, []⟩)).map
      (fun st => (st.layout.hazardToKey (.placedItem 1 (Ex.shift 6 2)), st.layout.hazardToKey (.placedItem 0 (Ex.shift 2 5))))
      = some (some ⟨1, 1⟩, none) := by decide +kernel
  rw [hst] at h
  simp only [Option.map_some, Option.some.injEq, Prod.mk.injEq] at h
  refine ⟨st, h1, ?_, ⟨rfl, ?_⟩, ?_, ?_, h.2⟩
  · have := congrArg List.length h2
    simpa using this
  · intro pi hpi hq
    have : pi.entity ∈ st.layout.placed.values.map PlacedItem.entity := List.mem_map_of_mem hpi
    rw [h2] at this
    unfold PlacedItem.entity at this
    rw [hq.1, hq.2] at this
    revert this
    decide +kernel
  · show 0 < _; omega
  · rw [h.1]; simp

/-! ## C27 Snapshot and restore of a layout -/

/-- C27: restoring a snapshot after any operations other than `change_bin` brings
back bin, placed items (with their keys), usage and all collision answers of the
moment the snapshot was taken. With `change_bin` in between, the bin is not
brought back, see `C27_change_bin_is_not_undone`. -/
theorem C27_restore_partial {env : Env K} {cat : ℕ → Item K} {st st₁ st₂ : LayoutState K n} (hr : st.Reachable env cat)
    (hsnap : LayoutOp.snapshot.run env st = some st₁) {ops : List (LayoutOp K n)} (hrun : LayoutRun env cat st₁ ops st₂)
    (hops : ∀ op ∈ ops, ∀ bin, op ≠ .changeBin bin) :
    ∃ st₃, (LayoutOp.restore st.snaps.length).run env st₂ = some st₃ ∧ st₃.layout.bin = st.layout.bin ∧
      st₃.layout.placed = st.layout.placed ∧ st₃.layout.usage = st.layout.usage ∧
      SameAnswers env.f st₃.layout.cde st.layout.cde := by
  obtain ⟨st₁', r1, i1, d1, e1⟩ := LayoutOp.run_inv hr.inv (op := .snapshot) trivial
  rw [hsnap] at r1
  obtain rfl := Option.some.inj r1
  obtain ⟨b1, p1, s, hs, s1, s2, s3, s4⟩ := e1
  obtain ⟨i2, d2, k2, b2⟩ := hrun.inv i1
  have hget : st₂.snaps[st.snaps.length]? = some s := k2 _ _ (by rw [hs]; simp)
  have hlt := (List.getElem?_eq_some_iff.1 hget).1
  obtain ⟨st₃, r3, i3, d3, b3, _, s', hs', p3⟩ := LayoutOp.run_inv i2 (op := .restore st.snaps.length) hlt
  rw [hget] at hs'
  obtain rfl := Option.some.inj hs'
  have hbin : st₃.layout.bin = st.layout.bin := b3.trans ((b2 hops).trans b1)
  have hpl : st₃.layout.placed = st.layout.placed := p3.trans s3
  refine ⟨st₃, r3, hbin, hpl, ?_, ?_⟩
  · unfold Layout.usage; rw [hbin, hpl]
  · exact (i3.layout.same hr.inv.layout hbin (by rw [hpl])).same.answers

/-- C27: creating a new layout from a snapshot brings back everything, whatever
happened in between. -/
theorem C27_from_snapshot {env : Env K} {cat : ℕ → Item K} {st st₁ st₂ : LayoutState K n} (hr : st.Reachable env cat)
    (hsnap : LayoutOp.snapshot.run env st = some st₁) {ops : List (LayoutOp K n)} (hrun : LayoutRun env cat st₁ ops st₂) :
    ∃ s l, st₂.snaps[st.snaps.length]? = some s ∧ Layout.fromSnapshot env s = some l ∧ l.id = st.layout.id ∧
      l.bin = st.layout.bin ∧ l.placed = st.layout.placed ∧ s.usage = st.layout.usage ∧
      SameAnswers env.f l.cde st.layout.cde := by
  obtain ⟨st₁', r1, i1, d1, e1⟩ := LayoutOp.run_inv hr.inv (op := .snapshot) trivial
  rw [hsnap] at r1
  obtain rfl := Option.some.inj r1
  obtain ⟨b1, p1, s, hs, s1, s2, s3, s4⟩ := e1
  obtain ⟨i2, d2, k2, b2⟩ := hrun.inv i1
  have hget : st₂.snaps[st.snaps.length]? = some s := k2 _ _ (by rw [hs]; simp)
  obtain ⟨l, h1, h2, h3, h4, h5⟩ := (i2.snaps s (List.mem_of_getElem? hget)).1.fromSnapshot
  refine ⟨s, l, hget, h1, h3.trans s1, h4.trans s2, h5.trans s3, s4, ?_⟩
  exact (h2.same hr.inv.layout (h4.trans s2) (by rw [h5, s3])).same.answers

/-- C27: taking a snapshot changes nothing a user can see. -/
theorem C27_snapshot_is_invisible {env : Env K} {cat : ℕ → Item K} {st : LayoutState K n} (hr : st.Reachable env cat) :
    ∃ st₁, LayoutOp.snapshot.run env st = some st₁ ∧ st₁.layout.bin = st.layout.bin ∧
      st₁.layout.placed = st.layout.placed ∧ SameAnswers env.f st₁.layout.cde st.layout.cde := by
  obtain ⟨st₁, r1, i1, d1, b1, p1, _⟩ := LayoutOp.run_inv hr.inv (op := .snapshot) trivial
  exact ⟨st₁, r1, b1, p1, (i1.layout.same hr.inv.layout b1 (by rw [p1])).same.answers⟩

/-- C27 fails when the bin is changed in between: restoring leaves the new bin,
and the engine answers differently. -/
theorem C27_change_bin_is_not_undone : ∃ (st st₁ st₂ st₃ : LayoutState ℚ 2) (b : Bin ℚ 2), st.Reachable Ex.env Ex.cat ∧
    LayoutOp.snapshot.run Ex.env st = some st₁ ∧ LayoutRun Ex.env Ex.cat st₁ [.changeBin b] st₂ ∧
    (LayoutOp.restore st.snaps.length).run Ex.env st₂ = some st₃ ∧ st.layout.bin.id = 8 ∧ st₃.layout.bin.id = 7 ∧
    st.layout.cde.polyCollides Ex.env.f Ex.sq [] = some false ∧ st₃.layout.cde.polyCollides Ex.env.f Ex.sq [] = some true := by
  obtain ⟨b, hb, hbb⟩ := Ex.exists_bin
  obtain ⟨b0, hb0, hbb0⟩ := Ex.exists_plain
  have hr : (⟨Layout.new 0 b0, []⟩ : LayoutState ℚ 2).Reachable Ex.env Ex.cat := ⟨0, b0, [], hbb0, .nil _⟩
  obtain ⟨st₁, r1, i1, d1, e1⟩ := LayoutOp.run_inv hr.inv (op := .snapshot) trivial
  obtain ⟨st₂, r2, i2, d2, e2⟩ := LayoutOp.run_inv i1 (op := .changeBin b) hbb
  have hlen : 0 < st₂.snaps.length := by
    obtain ⟨_, _, s, hs, _⟩ := e1
    rw [e2.2.1, hs]
    simp
  obtain ⟨st₃, r3, i3, d3, e3⟩ := LayoutOp.run_inv i2 (op := .restore 0) hlen
  have h : (Ex.mkPlain.bind fun b0 => Ex.mkBin.bind fun b => (LayoutOp.snapshot.run Ex.env ⟨Layout.new 0 b0, []⟩).bind fun s1 =>
      ((LayoutOp.changeBin b).run Ex.env s1).bind fun s2 => ((LayoutOp.restore 0).run Ex.env s2).map fun s3 =>
        (b0.id, s3.layout.bin.id, b0.baseCde.polyCollides Ex.env.f Ex.sq [], s3.layout.cde.polyCollides Ex.env.f Ex.sq []))
      = some (8, 7, some false, some true) := by decide +kernel
  rw [hb0, Option.bind_some, hb, Option.bind_some, r1, Option.bind_some, r2, Option.bind_some, r3] at h
  simp only [Option.map_some, Option.some.injEq, Prod.mk.injEq] at h
  exact ⟨_, st₁, st₂, st₃, b, hr, r1, .cons hbb r2 (.nil _), r3, h.1, h.2.1, h.2.2.1, h.2.2.2⟩

/-- Non-trivial instance of the hypotheses of `C27_restore_partial`: a layout with
one item, after the snapshot another one is placed. -/
example : ∃ st st₁ st₂ : LayoutState ℚ 2, st.Reachable Ex.env Ex.cat ∧ LayoutOp.snapshot.run Ex.env st = some st₁ ∧
    LayoutRun Ex.env Ex.cat st₁ [.place 3 (Ex.cat 4) (Ex.shift 4 4)] st₂ ∧ st.layout.placed.values.length = 2 := by
  obtain ⟨st, h1, h2, h3, hst⟩ := Ex.exists_layout
  obtain ⟨st₁, r1, i1, d1, b1, p1, _⟩ := LayoutOp.run_inv h1.inv (op := .snapshot) trivial
  have hpre : (LayoutOp.place 3 (Ex.cat 4) (Ex.shift 4 4)).Pre Ex.env Ex.cat st₁ := by
    refine ⟨rfl, ?_⟩
    intro pi hpi hq
    rw [p1] at hpi
    have : pi.entity ∈ st.layout.placed.values.map PlacedItem.entity := List.mem_map_of_mem hpi
    rw [h2] at this
    unfold PlacedItem.entity at this
    rw [hq.1, hq.2] at this
    revert this
    decide +kernel
  obtain ⟨st₂, r2, i2, _⟩ := LayoutOp.run_inv i1 hpre
  refine ⟨st, st₁, st₂, h1, r1, .cons hpre r2 (.nil _), ?_⟩
  have := congrArg List.length h2
  simpa using this

/-! ## C42 Hazard filters -/

/-- What a filter is meant to match. -/
inductive HazardFilter.Matches : HazardFilter K → HazardEntity K → Prop
  | exterior : Matches .bin .binExterior
  | hole (i) : Matches .bin (.binHole i)
  | zone (q i) : Matches .bin (.inferiorQualityZone q i)
  | quality (c q i) : c ≤ q → Matches (.quality c) (.inferiorQualityZone q i)
  | entity (es e) : e ∈ es → Matches (.entities es) e
  | combined (fs f e) : f ∈ fs → Matches f e → Matches (.combined fs) e

/-- C42: a filter decides what it is meant to match. -/
theorem C42_filter_exact (f : HazardFilter K) (e : HazardEntity K) : f.isIrrelevant e = true ↔ f.Matches e := by
  have hgo : ∀ fs : List (HazardFilter K), (∀ f ∈ fs, f.isIrrelevant e = true ↔ f.Matches e) →
      (HazardFilter.isIrrelevant.go fs e = true ↔ ∃ f ∈ fs, f.Matches e) := by
    intro fs
    induction fs with
    | nil => intro _; simp [HazardFilter.isIrrelevant.go]
    | cons f fs ih =>
      intro h
      rw [HazardFilter.isIrrelevant.go, Bool.or_eq_true, h f List.mem_cons_self,
        ih fun g hg => h g (List.mem_cons_of_mem _ hg)]
      simp
  have main : ∀ f : HazardFilter K, f.isIrrelevant e = true ↔ f.Matches e := by
    intro f
    induction f using HazardFilter.rec (motive_2 := fun fs => ∀ f ∈ fs, f.isIrrelevant e = true ↔ f.Matches e) with
    | bin =>
      cases e <;> unfold HazardFilter.isIrrelevant
      · exact iff_of_false (by simp) (by rintro ⟨⟩)
      · exact iff_of_true rfl .exterior
      · exact iff_of_true rfl (.hole _)
      · exact iff_of_true rfl (.zone _ _)
    | quality c =>
      cases e <;> unfold HazardFilter.isIrrelevant
      · exact iff_of_false (by simp) (by rintro ⟨⟩)
      · exact iff_of_false (by simp) (by rintro ⟨⟩)
      · exact iff_of_false (by simp) (by rintro ⟨⟩)
      · simp only [ge_iff_le, decide_eq_true_eq]
        exact ⟨fun h => .quality _ _ _ h, fun h => by cases h; assumption⟩
    | entities es =>
      unfold HazardFilter.isIrrelevant
      rw [List.contains_iff_mem]
      exact ⟨fun h => .entity _ _ h, fun h => by cases h; assumption⟩
    | combined fs ih =>
      unfold HazardFilter.isIrrelevant
      rw [hgo fs ih]
      constructor
      · rintro ⟨f, hf, hm⟩
        exact .combined _ f _ hf hm
      · intro h
        cases h with
        | combined _ f _ hf hm => exact ⟨f, hf, hm⟩
    | nil => rename_i hf; simp at hf
    | cons f fs ih1 ih2 =>
      rename_i g hg
      rcases List.mem_cons.1 hg with rfl | hg
      · exact ih1
      · exact ih2 g hg
  exact main f

/-- C42: the list of irrelevant hazards holds exactly the entities that match,
each as often as it occurs. -/
theorem C42_irrelevant_list (f : HazardFilter K) (hs : List (Hazard K)) :
    (∀ e, e ∈ generateIrrelevant f hs ↔ (∃ h ∈ hs, h.entity = e) ∧ f.Matches e) ∧
    ((hs.map (·.entity)).Nodup → (generateIrrelevant f hs).Nodup) := by
  have he : ∀ hs : List (Hazard K), generateIrrelevant f hs = (hs.map (·.entity)).filter f.isIrrelevant := by
    intro hs
    induction hs with
    | nil => rfl
    | cons h hs ih =>
      unfold generateIrrelevant at ih ⊢
      rw [List.filterMap_cons, List.map_cons]
      by_cases hf : f.isIrrelevant h.entity = true
      · rw [if_pos hf, List.filter_cons_of_pos hf, ih]
      · rw [if_neg hf, List.filter_cons_of_neg hf, ih]
  rw [he]
  constructor
  · intro e
    rw [List.mem_filter, List.mem_map, C42_filter_exact]
  · intro h
    exact h.filter _

section
variable {K : Type*} [Field K] [LinearOrder K] {n : ℕ}

/-- C42: with the list made from a filter, exactly the hazards that do not match
stay relevant for the polygon query. -/
theorem C42_filtered_query [IsStrictOrderedRing K] {o : SearchOracle K} {c : CDE K n} (hr : c.Reachable Fpa.exact o) (hg : c.Good)
    {s : SPoly K} (hs : s.Proper) (f : HazardFilter K) (hP : ∀ h ∈ c.allHazards, ¬ f.Matches h.entity → h.shape.val.Proper) :
    ∃ b, c.polyCollides Fpa.exact s (generateIrrelevant f c.allHazards) = some b ∧ (b = true ↔ ¬ s.bbox.pts ⊆ c.bbox.pts ∨
      ∃ h ∈ c.allHazards, ¬ f.Matches h.entity ∧ ∃ w ∈ region s.points, w ∈ closedHaz h.entity.position h.shape.val.points) := by
  have key : ∀ h ∈ c.allHazards, (h.entity ∉ generateIrrelevant f c.allHazards ↔ ¬ f.Matches h.entity) := by
    intro h hh
    rw [(C42_irrelevant_list f c.allHazards).1]
    constructor
    · intro hn hm; exact hn ⟨⟨h, hh, rfl⟩, hm⟩
    · intro hn hm; exact hn hm.2
  obtain ⟨b, hb, hb'⟩ := hr.inv.polyCollides_iff hg hs (irr := generateIrrelevant f c.allHazards)
    fun h hh hn => hP h hh ((key h hh).1 hn)
  refine ⟨b, hb, hb'.trans (or_congr Iff.rfl ?_)⟩
  constructor
  · rintro ⟨h, hh, hn, w⟩; exact ⟨h, hh, (key h hh).1 hn, w⟩
  · rintro ⟨h, hh, hn, w⟩; exact ⟨h, hh, (key h hh).2 hn, w⟩

end

example : generateIrrelevant (.combined [.quality 3, .entities [.binHole 1]])
    [Ex.hBin, ⟨.binHole 1, ⟨0, Ex.sq⟩, true⟩, ⟨.inferiorQualityZone 2 0, ⟨0, Ex.sq⟩, true⟩, ⟨.inferiorQualityZone 3 0, ⟨0, Ex.sq⟩, true⟩]
    = [.binHole 1, .inferiorQualityZone 3 0] := by decide +kernel

/-! ## C48 Bin hazards -/

/-- C48: a bin can be built iff its quality zones have different qualities below
the maximum; its engine then has exactly one hazard for the outline, one per
hole and one per part of a quality zone, all uniquely identified. -/
theorem C48_bin_hazards (env : Env K) (id : ℕ) (outer : Arc (SPoly K)) (value : ℕ) (pre : Transf K)
    (holes : List (Arc (SPoly K))) (zones : List (QualityZone K)) :
    ((∃ b : Bin K n, Bin.new env n id outer value pre holes zones = some b) ↔
      (zones.map (·.quality)).Nodup ∧ ∀ z ∈ zones, z.quality < nQualities) ∧
    ∀ b : Bin K n, Bin.new env n id outer value pre holes zones = some b →
      (b.baseCde.allHazards.map (·.entity)).Nodup ∧ b.baseCde.Reachable env.f env.o ∧
      ∀ h, h ∈ b.baseCde.allHazards ↔ h = ⟨.binExterior, outer, true⟩ ∨
        (∃ i s, holes[i]? = some s ∧ h = ⟨.binHole i, s, true⟩) ∨
        ∃ z ∈ zones, ∃ i s, z.zones[i]? = some s ∧ h = ⟨.inferiorQualityZone z.quality i, s, true⟩ := by
  obtain ⟨h1, h2⟩ := Bin.new_spec (n := n) env id outer value pre holes zones
  refine ⟨⟨fun ⟨b, hb⟩ => (h2 b hb).1, h1⟩, ?_⟩
  intro b hb
  obtain ⟨⟨hn, hq⟩, _, _, _, _, k1, k2, _, _, k3, _⟩ := h2 b hb
  unfold CDE.allHazards
  rw [k1, k2, List.append_nil]
  exact ⟨generateBinHazards_nodup hn, k3, fun h => mem_generateBinHazards hn hq⟩

section
variable {K : Type*} [Field K] [LinearOrder K] {n : ℕ}

/-- C48: the area of the bin is that of the outline minus the holes. -/
theorem C48_area (env : Env K) (id : ℕ) (outer : Arc (SPoly K)) (value : ℕ) (pre : Transf K)
    (holes : List (Arc (SPoly K))) (zones : List (QualityZone K)) (b : Bin K n)
    (hb : Bin.new env n id outer value pre holes zones = some b) :
    b.area = outer.val.area - (holes.map (·.val.area)).sum ∧ b.id = id ∧ b.value = value := by
  obtain ⟨_, k1, _, _, k2, _, _, _, _, _, k3, _⟩ := (Bin.new_spec env id outer value pre holes zones).2 b hb
  rw [fsum_eq] at k2
  exact ⟨k2, k1, k3⟩

end

section
variable {K : Type*} [Field K] [LinearOrder K] [IsStrictOrderedRing K] {n : ℕ}

/-- the engine of a bin meets the geometric assumptions -/
theorem Bin.good {env : Env K} {id : ℕ} {outer : Arc (SPoly K)} {value : ℕ} {pre : Transf K}
    {holes : List (Arc (SPoly K))} {zones : List (QualityZone K)} {b : Bin K n}
    (hb : Bin.new env n id outer value pre holes zones = some b) (ho : outer.val.WF) (hh : ∀ s ∈ holes, s.val.WF)
    (hz : ∀ z ∈ zones, ∀ s ∈ z.zones, s.val.WF) : b.baseCde.Good := by
  obtain ⟨_, _, hm⟩ := (C48_bin_hazards env id outer value pre holes zones).2 b hb
  obtain ⟨_, _, _, _, _, _, _, _, k, _⟩ := (Bin.new_spec env id outer value pre holes zones).2 b hb
  refine ⟨?_, ?_, ?_, ?_⟩
  · rw [k]; exact inflate_valid ho.bbox_valid
  · intro h hx
    rcases (hm h).1 hx with rfl | ⟨i, s, hs, rfl⟩ | ⟨z, hzm, i, s, hs, rfl⟩
    · exact ho
    · exact hh s (List.mem_of_getElem? hs)
    · exact hz z hzm s (List.mem_of_getElem? hs)
  · intro h hx
    rcases (hm h).1 hx with rfl | ⟨i, s, hs, rfl⟩ | ⟨z, hzm, i, s, hs, rfl⟩ <;> rfl
  · intro h hx hpos
    rcases (hm h).1 hx with rfl | ⟨i, s, hs, rfl⟩ | ⟨z, hzm, i, s, hs, rfl⟩
    · rw [k]
      unfold AARect.width AARect.height
      rcases inflate_tight outer.val.bbox with h | h
      · left; rw [h.1, h.2]
      · right; rw [h.1, h.2]
    · exact absurd hpos (by simp [HazardEntity.position])
    · exact absurd hpos (by simp [HazardEntity.position])

/-- C48: the whole bin lies in the engine's box, and everything outside the
outline is occupied: a shape with a point that is not inside the outline is
rejected by the bin's engine, unless the exterior is declared irrelevant. -/
theorem C48_outside_is_occupied {env : Env K} (hf : env.f = Fpa.exact) {id : ℕ} {outer : Arc (SPoly K)} {value : ℕ} {pre : Transf K}
    {holes : List (Arc (SPoly K))} {zones : List (QualityZone K)} {b : Bin K n}
    (hb : Bin.new env n id outer value pre holes zones = some b) (ho : outer.val.Proper) (hh : ∀ s ∈ holes, s.val.Proper)
    (hz : ∀ z ∈ zones, ∀ s ∈ z.zones, s.val.Proper) :
    outer.val.bbox.pts ⊆ b.baseCde.bbox.pts ∧
    ∀ (s : SPoly K) irr, s.Proper → .binExterior ∉ irr → ∀ p ∈ region s.points, p ∉ interior outer.val.points →
      b.baseCde.polyCollides Fpa.exact s irr = some true := by
  obtain ⟨_, hr, hm⟩ := (C48_bin_hazards env id outer value pre holes zones).2 b hb
  obtain ⟨_, _, _, _, _, _, _, _, k, _⟩ := (Bin.new_spec env id outer value pre holes zones).2 b hb
  have hg := Bin.good hb ho.wf (fun s hs => (hh s hs).wf) fun z hzm s hs => (hz z hzm s hs).wf
  rw [hf] at hr
  constructor
  · rw [k]; exact inflate_contains _
  · intro s irr hs hirr p hp hp'
    obtain ⟨c, hc, hc'⟩ := hr.inv.polyCollides_iff hg hs (irr := irr) (by
      intro h hx _
      rcases (hm h).1 hx with rfl | ⟨i, s, hs, rfl⟩ | ⟨z, hzm, i, s, hs, rfl⟩
      · exact ho
      · exact hh s (List.mem_of_getElem? hs)
      · exact hz z hzm s (List.mem_of_getElem? hs))
    rw [hc]
    congr 1
    rw [hc']
    refine .inr ⟨⟨.binExterior, outer, true⟩, (hm _).2 (.inl rfl), hirr, p, hp, ?_⟩
    by_cases hbd : p ∈ bdry outer.val.points
    · exact .inl hbd
    · refine .inr ?_
      show p ∉ region outer.val.points
      rintro (h | h)
      · exact hbd h
      · exact hp' h

end

/-- Non-trivial instance: a bin with a hole and a quality zone. -/
example : ∃ b : Bin ℚ 2, Ex.mkBin = some b ∧ b.baseCde.allHazards.length = 3 ∧ b.area = 60 := by
  obtain ⟨b, hb, _⟩ := Ex.exists_bin
  have h : Ex.mkBin.map (fun b => (b.baseCde.allHazards.length, b.area)) = some (3, 60) := by decide +kernel
  rw [hb] at h
  simp only [Option.map_some, Option.some.injEq, Prod.mk.injEq] at h
  exact ⟨b, hb, h.1, h.2⟩

end Jagua
