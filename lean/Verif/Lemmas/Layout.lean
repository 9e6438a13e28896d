import Verif.Spec.Layout
import Verif.Lemmas.SlotMap
import Verif.Lemmas.CDEReach

/-!
# Lemmas: bins, layouts and their snapshots
-/

set_option linter.unusedSectionVars false

namespace Jagua

variable {K : Type*} [Arith K] [LinearOrder K] {n : ℕ}

/-! ## Bins -/

theorem zoneTable_fold (zones : List (QualityZone K)) (hn : (zones.map (·.quality)).Nodup)
    (t : List (Option (QualityZone K))) (q : ℕ) (z : QualityZone K) :
    (zones.foldl (fun t z => t.set z.quality (some z)) t)[q]? = some (some z) ↔
      (z ∈ zones ∧ z.quality = q ∧ q < t.length) ∨ (t[q]? = some (some z) ∧ q ∉ zones.map (·.quality)) := by
  induction zones generalizing t with
  | nil => simp
  | cons y zones ih =>
    rw [List.map_cons, List.nodup_cons] at hn
    rw [List.foldl_cons, ih hn.2, List.length_set, List.getElem?_set]
    constructor
    · rintro (⟨h1, h2, h3⟩ | ⟨h1, h2⟩)
      · exact .inl ⟨List.mem_cons_of_mem _ h1, h2, h3⟩
      · split_ifs at h1 with h3 h4
        · obtain rfl := Option.some.inj (Option.some.inj h1)
          exact .inl ⟨List.mem_cons_self, h3, h3 ▸ h4⟩
        · refine .inr ⟨h1, ?_⟩
          rw [List.map_cons, List.mem_cons]
          rintro (h | h)
          · exact h3 h.symm
          · exact h2 h
    · rintro (⟨h1, h2, h3⟩ | ⟨h1, h2⟩)
      · rcases List.mem_cons.1 h1 with rfl | h1
        · refine .inr ⟨?_, ?_⟩
          · rw [if_pos h2, if_pos (by rw [h2]; exact h3)]
          · rw [← h2]; exact hn.1
        · exact .inl ⟨h1, h2, h3⟩
      · rw [List.map_cons, List.mem_cons, not_or] at h2
        refine .inr ⟨?_, h2.2⟩
        rw [if_neg (Ne.symm h2.1)]
        exact h1

/-- the table holds each zone at its quality -/
theorem zoneTable_getElem {zones : List (QualityZone K)} (hn : (zones.map (·.quality)).Nodup) {q : ℕ} {z : QualityZone K} :
    (zoneTable zones)[q]? = some (some z) ↔ z ∈ zones ∧ z.quality = q ∧ q < nQualities := by
  unfold zoneTable
  rw [zoneTable_fold zones hn]
  constructor
  · rintro (h | ⟨h, _⟩)
    · simpa using h
    · rw [List.getElem?_replicate] at h
      split_ifs at h
      simp at h
  · intro h
    exact .inl (by simpa using h)

theorem mem_zoneTable {zones : List (QualityZone K)} (hn : (zones.map (·.quality)).Nodup)
    (hq : ∀ z ∈ zones, z.quality < nQualities) {z : QualityZone K} : some z ∈ zoneTable zones ↔ z ∈ zones := by
  rw [List.mem_iff_getElem?]
  constructor
  · rintro ⟨q, h⟩
    exact ((zoneTable_getElem hn).1 h).1
  · intro h
    exact ⟨z.quality, (zoneTable_getElem hn).2 ⟨h, rfl, hq z h⟩⟩

/-- which hazards a bin has -/
theorem mem_generateBinHazards {outer : Arc (SPoly K)} {holes : List (Arc (SPoly K))} {zones : List (QualityZone K)}
    (hn : (zones.map (·.quality)).Nodup) (hq : ∀ z ∈ zones, z.quality < nQualities) {h : Hazard K} :
    h ∈ generateBinHazards outer holes (zoneTable zones) ↔
      h = ⟨.binExterior, outer, true⟩ ∨ (∃ i s, holes[i]? = some s ∧ h = ⟨.binHole i, s, true⟩) ∨
      ∃ z ∈ zones, ∃ i s, z.zones[i]? = some s ∧ h = ⟨.inferiorQualityZone z.quality i, s, true⟩ := by
  unfold generateBinHazards
  rw [List.mem_append, List.mem_append, List.mem_singleton, or_assoc, List.mem_map, List.mem_flatMap]
  refine or_congr Iff.rfl (or_congr ?_ ?_)
  · constructor
    · rintro ⟨⟨s, i⟩, hs, rfl⟩
      exact ⟨i, s, List.mem_zipIdx_iff_getElem?.1 hs, rfl⟩
    · rintro ⟨i, s, hs, rfl⟩
      exact ⟨(s, i), List.mem_zipIdx_iff_getElem?.2 hs, rfl⟩
  · constructor
    · rintro ⟨z, hz, hh⟩
      cases z with
      | none => simp at hh
      | some z =>
        obtain ⟨⟨s, i⟩, hs, rfl⟩ := List.mem_map.1 hh
        exact ⟨z, (mem_zoneTable hn hq).1 hz, i, s, List.mem_zipIdx_iff_getElem?.1 hs, rfl⟩
    · rintro ⟨z, hz, i, s, hs, rfl⟩
      refine ⟨some z, (mem_zoneTable hn hq).2 hz, ?_⟩
      exact List.mem_map.2 ⟨(s, i), List.mem_zipIdx_iff_getElem?.2 hs, rfl⟩

theorem zipIdx_map_nodup {α β : Type*} (l : List α) (g : α × ℕ → β) (hg : ∀ a b, g a = g b → a.2 = b.2) :
    (l.zipIdx.map g).Nodup := by
  have h1 : ((l.zipIdx).map (·.2)).Nodup := by
    rw [List.zipIdx_map_snd]
    exact List.nodup_range'
  rw [List.Nodup, List.pairwise_map] at h1 ⊢
  exact h1.imp fun hab hg' => hab (hg _ _ hg')

/-- the hazards of a bin are uniquely identified -/
theorem generateBinHazards_nodup {outer : Arc (SPoly K)} {holes : List (Arc (SPoly K))} {zones : List (QualityZone K)}
    (hn : (zones.map (·.quality)).Nodup) :
    ((generateBinHazards outer holes (zoneTable zones)).map (·.entity)).Nodup := by
  unfold generateBinHazards
  rw [List.map_append, List.map_append, List.append_assoc, List.nodup_append, List.nodup_append]
  have hhole : ∀ e ∈ (holes.zipIdx.map fun s => Hazard.new (.binHole s.2) s.1).map (·.entity), ∃ i, e = HazardEntity.binHole i := by
    intro e he
    rw [List.map_map] at he
    obtain ⟨s, _, rfl⟩ := List.mem_map.1 he
    exact ⟨s.2, rfl⟩
  have hz : ∀ e ∈ ((zoneTable zones).flatMap fun z => match z with
      | none => []
      | some z => z.zones.zipIdx.map fun s => Hazard.new (.inferiorQualityZone z.quality s.2) s.1).map (·.entity),
      ∃ q i, e = HazardEntity.inferiorQualityZone q i := by
    intro e he
    obtain ⟨h, hh, rfl⟩ := List.mem_map.1 he
    obtain ⟨z, _, hh⟩ := List.mem_flatMap.1 hh
    cases z with
    | none => simp at hh
    | some z =>
      obtain ⟨s, _, rfl⟩ := List.mem_map.1 hh
      exact ⟨z.quality, s.2, rfl⟩
  refine ⟨by simp, ⟨?_, ?_, ?_⟩, ?_⟩
  · rw [List.map_map]
    refine zipIdx_map_nodup _ _ ?_
    intro a b hab
    exact HazardEntity.binHole.inj hab
  · rw [List.map_flatMap, List.nodup_flatMap]
    constructor
    · intro z _
      cases z with
      | none => simp
      | some z =>
        dsimp only
        rw [List.map_map]
        refine zipIdx_map_nodup _ _ ?_
        intro a b hab
        exact (HazardEntity.inferiorQualityZone.inj hab).2
    · rw [List.pairwise_iff_getElem]
      intro i j hi hj hij e h1 h2
      have e1 : (zoneTable zones)[i]? = some (zoneTable zones)[i] := List.getElem?_eq_getElem hi
      have e2 : (zoneTable zones)[j]? = some (zoneTable zones)[j] := List.getElem?_eq_getElem hj
      revert h1 h2 e1 e2
      generalize (zoneTable zones)[i] = a
      generalize (zoneTable zones)[j] = b
      intro h1 h2 e1 e2
      cases a with
      | none => simp at h1
      | some a =>
        cases b with
        | none => simp at h2
        | some b =>
          obtain ⟨x, hx, rfl⟩ := List.mem_map.1 h1
          obtain ⟨s, _, rfl⟩ := List.mem_map.1 hx
          obtain ⟨y, hy, hxy⟩ := List.mem_map.1 h2
          obtain ⟨t, _, rfl⟩ := List.mem_map.1 hy
          have hq := (HazardEntity.inferiorQualityZone.inj hxy).1
          have q1 := ((zoneTable_getElem hn).1 e1).2.1
          have q2 := ((zoneTable_getElem hn).1 e2).2.1
          omega
  · intro a ha b hb
    obtain ⟨i, rfl⟩ := hhole a ha
    obtain ⟨q, j, rfl⟩ := hz b hb
    simp
  · intro a ha b hb
    have ha : a = .binExterior := by simpa [Hazard.new] using ha
    subst ha
    rcases List.mem_append.1 hb with hb | hb
    · obtain ⟨i, rfl⟩ := hhole b hb
      simp
    · obtain ⟨q, j, rfl⟩ := hz b hb
      simp

theorem Bin.new_spec (env : Env K) (id : ℕ) (outer : Arc (SPoly K)) (value : ℕ) (pre : Transf K)
    (holes : List (Arc (SPoly K))) (zones : List (QualityZone K)) :
    ((zones.map (·.quality)).Nodup ∧ (∀ z ∈ zones, z.quality < nQualities) →
      ∃ b : Bin K n, Bin.new env n id outer value pre holes zones = some b) ∧
    ∀ b : Bin K n, Bin.new env n id outer value pre holes zones = some b →
      ((zones.map (·.quality)).Nodup ∧ ∀ z ∈ zones, z.quality < nQualities) ∧
      b.id = id ∧ b.outer = outer ∧ b.holes = holes ∧ b.area = outer.val.area - fsum (holes.map (·.val.area)) ∧
      b.baseCde.statics = generateBinHazards outer holes (zoneTable zones) ∧
      b.baseCde.dynamics = [] ∧ b.baseCde.uncommitted = [] ∧ b.baseCde.bbox = outer.val.bbox.inflateToSquare ∧
      b.baseCde.Reachable env.f env.o ∧ b.value = value ∧ b.pretransform = pre := by
  have key : (zones.map (·.quality)).Nodup → ∃ c : CDE K n,
      CDE.new env.f env.o n outer.val.bbox.inflateToSquare (generateBinHazards outer holes (zoneTable zones)) = some c ∧
      c.Reachable env.f env.o ∧ c.statics = generateBinHazards outer holes (zoneTable zones) ∧ c.dynamics = [] ∧
      c.uncommitted = [] ∧ c.bbox = outer.val.bbox.inflateToSquare := by
    intro hn
    have hnd := generateBinHazards_nodup (outer := outer) (holes := holes) hn
    obtain ⟨c, h1, h2, h3, h4, h5, h6⟩ := CDE.new_inv (n := n) (f := env.f) (o := env.o)
      (r := outer.val.bbox.inflateToSquare) hnd
    exact ⟨c, h1, ⟨_, _, c, [], hnd, h1, .nil _⟩, h3, h4, h5, h6⟩
  constructor
  · rintro ⟨hn, hq⟩
    obtain ⟨c, hc, _⟩ := key hn
    unfold Bin.new
    rw [if_neg (not_not.2 hn), if_neg (not_not.2 hq)]
    dsimp only
    rw [hc]
    exact ⟨_, rfl⟩
  · intro b hb
    unfold Bin.new at hb
    split_ifs at hb with h1 h2
    obtain ⟨c, hc, k1, k2, k3, k4, k5⟩ := key h1
    dsimp only at hb
    rw [hc] at hb
    have hb := Option.some.inj hb
    subst hb
    exact ⟨⟨h1, h2⟩, rfl, rfl, rfl, rfl, k2, k3, k4, k5, k1, rfl, rfl⟩

theorem Bin.Built.base {env : Env K} {b : Bin K n} (hb : b.Built env) :
    b.baseCde.Reachable env.f env.o ∧ b.baseCde.dynamics = [] ∧ b.baseCde.uncommitted = [] ∧
      ∀ h ∈ b.baseCde.statics, ∀ id dt, h.entity ≠ .placedItem id dt := by
  obtain ⟨id, outer, value, pre, holes, zones, hb⟩ := hb
  obtain ⟨⟨hn, hq⟩, _, _, _, _, h1, h2, h3, _, h4, _⟩ := (Bin.new_spec env id outer value pre holes zones).2 b hb
  refine ⟨h4, h2, h3, ?_⟩
  intro h hh id dt
  rw [h1] at hh
  rcases (mem_generateBinHazards hn hq).1 hh with rfl | ⟨i, s, _, rfl⟩ | ⟨z, _, i, s, _, rfl⟩ <;> simp

/-! ## The invariant of layouts -/

/-- the hazard (without address) an entity of a placed item stands for -/
def catHaz (env : Env K) (cat : ℕ → Item K) : HazardEntity K → Hazard K
  | .placedItem id dt => ⟨.placedItem id dt, ⟨0, (cat id).shape.transform (Transf.fromDt env.tr dt)⟩, true⟩
  | e => ⟨e, ⟨0, (cat 0).shape⟩, true⟩

/-- the hazard of a placed item -/
def PlacedItem.haz (pi : PlacedItem K) : Hazard K := Hazard.new pi.entity pi.shape

theorem PlacedItem.Ok.haz {env : Env K} {cat : ℕ → Item K} {pi : PlacedItem K} (h : pi.Ok env cat) :
    pi.haz.erase = catHaz env cat pi.haz.entity := by
  unfold PlacedItem.haz Hazard.new Hazard.erase PlacedItem.entity catHaz
  dsimp only
  rw [h.2]

theorem PlacedItem.ok_new (env : Env K) {cat : ℕ → Item K} (addr : ℕ) {item : Item K} (hc : item = cat item.id) (dt : DTransf K) :
    (PlacedItem.new env addr item dt).Ok env cat := by
  unfold PlacedItem.new PlacedItem.Ok
  dsimp only
  rw [← hc]
  exact ⟨rfl, rfl⟩

structure Layout.Inv (env : Env K) (cat : ℕ → Item K) (l : Layout K n) : Prop where
  bin : l.bin.Built env
  reach : l.cde.Reachable env.f env.o
  cons : l.cde.Consistent (catHaz env cat)
  ents : (l.cde.dynamics.map (·.entity)).Perm (l.placed.values.map PlacedItem.entity)
  ok : ∀ pi ∈ l.placed.values, pi.Ok env cat
  slots : l.placed.WF
  statics : l.cde.statics = l.bin.baseCde.statics
  bbox : l.cde.bbox = l.bin.baseCde.bbox

structure LayoutSnapshot.Valid (env : Env K) (cat : ℕ → Item K) (s : LayoutSnapshot K n) : Prop where
  bin : s.bin.Built env
  cons : ∀ h ∈ s.cdeSnapshot, h.erase = catHaz env cat h.entity
  ents : (s.cdeSnapshot.map (·.entity)).Perm (s.placed.values.map PlacedItem.entity)
  ok : ∀ pi ∈ s.placed.values, pi.Ok env cat
  slots : s.placed.WF
  nodup : (s.placed.values.map PlacedItem.entity).Nodup
  usage : s.usage = fsum (s.placed.values.map (·.shape.val.area)) / s.bin.area

theorem Layout.Inv.nodup {env : Env K} {cat : ℕ → Item K} {l : Layout K n} (h : l.Inv env cat) :
    (l.placed.values.map PlacedItem.entity).Nodup := by
  have := h.reach.inv.distinct
  rw [List.append_assoc, List.nodup_append] at this
  exact (h.ents.nodup_iff).1 (List.nodup_append.1 this.2.1).1

/-- the registered hazards are those of the placed items -/
theorem Layout.Inv.hazards {env : Env K} {cat : ℕ → Item K} {l : Layout K n} (h : l.Inv env cat) :
    (l.cde.dynamics.map Hazard.erase).Perm (l.placed.values.map fun pi => pi.haz.erase) := by
  have := perm_of_consistent (φ := catHaz env cat) (l := l.cde.dynamics) (l' := l.placed.values.map PlacedItem.haz)
    (fun x hx => h.cons x (List.mem_append.2 (.inl hx)))
    (fun x hx => by
      obtain ⟨pi, hpi, rfl⟩ := List.mem_map.1 hx
      exact (h.ok pi hpi).haz)
    (by rw [List.map_map]; exact h.ents)
  rw [List.map_map] at this
  exact this

/-- two layouts with the same bin and the same items answer alike -/
theorem Layout.Inv.same {env : Env K} {cat : ℕ → Item K} {l l' : Layout K n} (h : l.Inv env cat) (h' : l'.Inv env cat)
    (hb : l.bin = l'.bin) (hp : (l.placed.values.map PlacedItem.entity).Perm (l'.placed.values.map PlacedItem.entity)) :
    l.cde.Sim env.f (catHaz env cat) l'.cde where
  inv₁ := h.reach.inv
  inv₂ := h'.reach.inv
  cons₁ := h.cons
  cons₂ := h'.cons
  bbox := by rw [h.bbox, h'.bbox, hb]
  statics := by rw [h.statics, h'.statics, hb]
  dynamics := perm_of_consistent (fun x hx => h.cons x (List.mem_append.2 (.inl hx)))
    (fun x hx => h'.cons x (List.mem_append.2 (.inl hx))) (h.ents.trans (hp.trans h'.ents.symm))

theorem Layout.inv_new {env : Env K} (cat : ℕ → Item K) (id : ℕ) {bin : Bin K n} (hb : bin.Built env) :
    (Layout.new id bin).Inv env cat := by
  obtain ⟨h1, h2, h3, h4⟩ := hb.base
  refine ⟨hb, h1, ?_, ?_, ?_, SlotMap.wf_empty, rfl, rfl⟩
  · intro h hh
    rw [Layout.new] at hh
    dsimp only at hh
    rw [h2, h3] at hh
    simp at hh
  · rw [Layout.new]
    dsimp only
    rw [h2]
    exact List.Perm.nil
  · intro pi hpi
    simp [Layout.new, SlotMap.empty, SlotMap.values] at hpi

theorem Layout.Inv.clone {env : Env K} {cat : ℕ → Item K} {l : Layout K n} (h : l.Inv env cat) (id : ℕ) :
    (l.cloneWithId id).Inv env cat := ⟨h.bin, h.reach, h.cons, h.ents, h.ok, h.slots, h.statics, h.bbox⟩

theorem Layout.Inv.not_static {env : Env K} {cat : ℕ → Item K} {l : Layout K n} (h : l.Inv env cat) :
    ∀ x ∈ l.cde.statics, ∀ id dt, x.entity ≠ .placedItem id dt := by
  rw [h.statics]
  exact h.bin.base.2.2.2

theorem Layout.Inv.step {env : Env K} {cat : ℕ → Item K} {l : Layout K n} (h : l.Inv env cat) {op : CDEOp K}
    (hp : op.Pre l.cde) (hc : op.Consistent (catHaz env cat)) :
    ∃ c, op.run env.f env.o l.cde = some c ∧ c.Reachable env.f env.o ∧ c.Consistent (catHaz env cat) ∧
      c.statics = l.bin.baseCde.statics ∧ c.bbox = l.bin.baseCde.bbox := by
  obtain ⟨c, h1, h2, h3, h4⟩ := CDEOp.run_inv (o := env.o) h.reach.inv hp
  exact ⟨c, h1, h.reach.run (.cons hp h1 (.nil _)), CDEOp.run_consistent h.reach.inv hp h1 h.cons hc, h3.trans h.statics,
    h4.trans h.bbox⟩

theorem Layout.Inv.placeItem {env : Env K} {cat : ℕ → Item K} {l : Layout K n} (h : l.Inv env cat) (addr : ℕ) {item : Item K}
    {dt : DTransf K} (hitem : item = cat item.id)
    (hnew : ∀ pi ∈ l.placed.values, ¬ (pi.itemId = item.id ∧ pi.dt = dt)) :
    ∃ k l', l.placeItem env addr item dt = some (k, l') ∧ l'.Inv env cat ∧ l'.id = l.id ∧ l'.bin = l.bin ∧
      l'.placed = (l.placed.insert (PlacedItem.new env addr item dt)).2 ∧
      k = (l.placed.insert (PlacedItem.new env addr item dt)).1 ∧
      l'.placed.values.Perm (PlacedItem.new env addr item dt :: l.placed.values) := by
  set pi := PlacedItem.new env addr item dt with hpi
  have hok : pi.Ok env cat := PlacedItem.ok_new env addr hitem dt
  have hpre : (CDEOp.register pi.haz).Pre l.cde := by
    intro x hx he
    rcases List.mem_append.1 hx with hx | hx
    · exact h.not_static x hx pi.itemId pi.dt he
    · have := h.ents.mem_iff.1 (List.mem_map_of_mem (f := (·.entity)) hx)
      rw [he] at this
      obtain ⟨q, hq, hqe⟩ := List.mem_map.1 this
      have := HazardEntity.placedItem.inj hqe
      exact hnew q hq this
  obtain ⟨c, h1, h2, h3, h4, h5⟩ := h.step hpre hok.haz
  obtain ⟨e1, e2⟩ := CDEOp.run_effect h.reach.inv hpre h1
  obtain ⟨w1, w2, w3, w4, w5⟩ := SlotMap.insert_spec h.slots pi
  refine ⟨(l.placed.insert pi).1, { l with placed := (l.placed.insert pi).2, cde := c }, ?_, ?_, rfl, rfl, rfl, rfl, w4⟩
  · unfold Layout.placeItem
    rw [← hpi]
    have h1 : l.cde.register env.f env.o (Hazard.new pi.entity pi.shape) = some c := h1
    dsimp only
    rw [h1]
    rfl
  · refine ⟨h.bin, h2, h3, ?_, ?_, w1, h4, h5⟩
    · refine e1.trans ?_
      refine List.Perm.trans ?_ (w4.map _).symm
      rw [List.map_cons]
      exact h.ents.cons _
    · intro x hx
      rcases List.mem_cons.1 (w4.mem_iff.1 hx) with rfl | hx
      · exact hok
      · exact h.ok x hx

theorem Layout.Inv.removeItem {env : Env K} {cat : ℕ → Item K} {l : Layout K n} (h : l.Inv env cat) {key : SlotKey}
    {pi : PlacedItem K} (hk : l.placed.get? key = some pi) (ci : Bool) :
    ∃ m l', l.placed.remove key = some (pi, m) ∧ l.removeItem env key ci = some (pi, l') ∧ l'.Inv env cat ∧ l'.id = l.id ∧
      l'.bin = l.bin ∧ l'.placed = m ∧ l.placed.values.Perm (pi :: m.values) := by
  obtain ⟨m, w1, w2, w3, w4, w5⟩ := SlotMap.remove_spec h.slots hk
  have hmem : pi ∈ l.placed.values := w4.mem_iff.2 List.mem_cons_self
  have hpre : (CDEOp.deregister pi.entity ci).Pre l.cde := by
    obtain ⟨x, hx, he⟩ := List.mem_map.1 (h.ents.mem_iff.2 (List.mem_map_of_mem (f := PlacedItem.entity) hmem))
    exact ⟨x, hx, he⟩
  obtain ⟨c, h1, h2, h3, h4, h5⟩ := h.step hpre trivial
  obtain ⟨y, hy, hperm⟩ := CDEOp.run_effect h.reach.inv hpre h1
  refine ⟨m, { l with placed := m, cde := c }, w1, ?_, ?_, rfl, rfl, rfl, w4⟩
  · unfold Layout.removeItem
    rw [w1]
    have h1 : l.cde.deregister env.o pi.entity ci = some c := h1
    dsimp only
    rw [h1]
    rfl
  · refine ⟨h.bin, h2, h3, ?_, ?_, w2, h4, h5⟩
    · have := (hperm.map (·.entity)).symm.trans (h.ents.trans (w4.map _))
      rw [List.map_cons, List.map_cons, hy] at this
      exact this.cons_inv
    · intro x hx
      exact h.ok x (w4.mem_iff.2 (List.mem_cons_of_mem _ hx))

theorem Layout.Inv.createSnapshot {env : Env K} {cat : ℕ → Item K} {l : Layout K n} (h : l.Inv env cat) :
    ∃ l' s, l.createSnapshot = some (l', s) ∧ l'.Inv env cat ∧ l'.id = l.id ∧ l'.bin = l.bin ∧ l'.placed = l.placed ∧
      s.Valid env cat ∧ s.id = l.id ∧ s.bin = l.bin ∧ s.placed = l.placed ∧ s.usage = l.usage := by
  obtain ⟨c, h1, h2, h3, h4, h5⟩ := h.step (op := .commit) trivial trivial
  obtain ⟨e1, e2⟩ := CDEOp.run_effect h.reach.inv (op := .commit) trivial h1
  refine ⟨{ l with cde := c }, ⟨l.id, l.bin, l.placed, c.dynamics, l.usage⟩, ?_, ⟨h.bin, h2, h3, ?_, h.ok, h.slots, h4, h5⟩,
    rfl, rfl, rfl, ⟨h.bin, ?_, ?_, h.ok, h.slots, h.nodup, rfl⟩, rfl, rfl, rfl, rfl⟩
  · unfold Layout.createSnapshot CDE.createSnapshot
    have h1 : l.cde.commit = some c := h1
    rw [h1]
    rfl
  · dsimp only; rw [e1]; exact h.ents
  · intro x hx
    exact h3 x (List.mem_append.2 (.inl hx))
  · dsimp only; rw [e1]; exact h.ents

theorem Layout.Inv.restore {env : Env K} {cat : ℕ → Item K} {l : Layout K n} (h : l.Inv env cat) {s : LayoutSnapshot K n}
    (hs : s.Valid env cat) (hid : l.id = s.id) :
    ∃ l', l.restore env s = some l' ∧ l'.Inv env cat ∧ l'.id = s.id ∧ l'.bin = l.bin ∧ l'.placed = s.placed := by
  have hpre : (CDEOp.restore s.cdeSnapshot).Pre l.cde := by
    refine ⟨hs.ents.nodup_iff.2 hs.nodup, ?_⟩
    intro x hx y hy he
    obtain ⟨pi, hpi, hpe⟩ := List.mem_map.1 (hs.ents.mem_iff.1 (List.mem_map_of_mem (f := (·.entity)) hx))
    exact h.not_static y hy pi.itemId pi.dt (he.trans hpe.symm)
  obtain ⟨c, h1, h2, h3, h4, h5⟩ := h.step hpre hs.cons
  obtain ⟨e1, e2, e3⟩ := CDEOp.run_effect h.reach.inv hpre h1
  refine ⟨{ l with placed := s.placed, cde := c }, ?_, ⟨h.bin, h2, h3, ?_, hs.ok, hs.slots, h4, h5⟩, hid, rfl, rfl⟩
  · unfold Layout.restore
    have h1 : l.cde.restore env.f env.o s.cdeSnapshot = some c := h1
    rw [if_neg (not_not.2 hid), h1]
    rfl
  · exact e1.trans hs.ents

theorem Layout.restore_id_ne {env : Env K} {l : Layout K n} {s : LayoutSnapshot K n} (h : l.id ≠ s.id) :
    l.restore env s = none := by
  unfold Layout.restore
  rw [if_pos h]

theorem LayoutSnapshot.Valid.fromSnapshot {env : Env K} {cat : ℕ → Item K} {s : LayoutSnapshot K n} (hs : s.Valid env cat) :
    ∃ l, Layout.fromSnapshot env s = some l ∧ l.Inv env cat ∧ l.id = s.id ∧ l.bin = s.bin ∧ l.placed = s.placed :=
  (Layout.inv_new cat s.id hs.bin).restore hs rfl

theorem Layout.Inv.changeBin {env : Env K} {cat : ℕ → Item K} {l : Layout K n} (h : l.Inv env cat) {bin : Bin K n}
    (hb : bin.Built env) :
    ∃ l', l.changeBin env bin = some l' ∧ l'.Inv env cat ∧ l'.id = l.id ∧ l'.bin = bin ∧ l'.placed = l.placed := by
  obtain ⟨b1, b2, b3, b4⟩ := hb.base
  have key : ∀ (ps : List (PlacedItem K)) (c : CDE K n), c.Reachable env.f env.o → c.Consistent (catHaz env cat) →
      c.statics = bin.baseCde.statics → c.bbox = bin.baseCde.bbox → (∀ pi ∈ ps, pi.Ok env cat) →
      (c.dynamics.map (·.entity) ++ ps.map PlacedItem.entity).Nodup →
      ∃ c', ps.foldlM (fun (c : CDE K n) pi => c.register env.f env.o (Hazard.new pi.entity pi.shape)) c = some c' ∧
        c'.Reachable env.f env.o ∧ c'.Consistent (catHaz env cat) ∧ c'.statics = bin.baseCde.statics ∧
        c'.bbox = bin.baseCde.bbox ∧
        (c'.dynamics.map (·.entity)).Perm (c.dynamics.map (·.entity) ++ ps.map PlacedItem.entity) := by
    intro ps
    induction ps with
    | nil =>
      intro c h1 h2 h3 h4 _ _
      exact ⟨c, rfl, h1, h2, h3, h4, by simp⟩
    | cons pi ps ih =>
      intro c h1 h2 h3 h4 h5 h6
      have hpre : (CDEOp.register pi.haz).Pre c := by
        intro x hx he
        rcases List.mem_append.1 hx with hx | hx
        · rw [h3] at hx
          exact b4 x hx pi.itemId pi.dt he
        · rw [List.map_cons, List.nodup_append] at h6
          exact h6.2.2 x.entity (List.mem_map_of_mem (f := (·.entity)) hx) pi.entity List.mem_cons_self he
      obtain ⟨c1, r1, r2, r3, r4⟩ := CDEOp.run_inv (o := env.o) h1.inv hpre
      have k := CDEOp.run_consistent h1.inv hpre r1 h2 (h5 pi List.mem_cons_self).haz
      obtain ⟨e1, _⟩ := CDEOp.run_effect h1.inv hpre r1
      have hp : (c1.dynamics.map (·.entity) ++ ps.map PlacedItem.entity).Perm
          (c.dynamics.map (·.entity) ++ (pi :: ps).map PlacedItem.entity) := by
        rw [List.map_cons]
        refine (e1.append_right _).trans ?_
        rw [List.cons_append]
        exact List.perm_middle.symm
      obtain ⟨c', f1, f2, f3, f4, f5, f6⟩ := ih c1 (h1.run (.cons hpre r1 (.nil _))) k (r3.trans h3) (r4.trans h4)
        (fun x hx => h5 x (List.mem_cons_of_mem _ hx)) (hp.nodup_iff.2 h6)
      refine ⟨c', ?_, f2, f3, f4, f5, f6.trans hp⟩
      have r1 : c.register env.f env.o (Hazard.new pi.entity pi.shape) = some c1 := r1
      rw [List.foldlM_cons, r1]
      exact f1
  obtain ⟨c, f1, f2, f3, f4, f5, f6⟩ := key l.placed.values bin.baseCde b1
    (by intro x hx; rw [b2, b3] at hx; simp at hx) rfl rfl h.ok (by rw [b2]; simpa using h.nodup)
  refine ⟨{ l with bin := bin, cde := c }, ?_, ⟨hb, f2, f3, ?_, h.ok, h.slots, f4, f5⟩, rfl, rfl, rfl⟩
  · unfold Layout.changeBin
    rw [f1]
    rfl
  · rw [b2] at f6
    simpa using f6

/-! ## Sequences of operations -/

/-- the invariant of a layout and the snapshots taken of it -/
structure LayoutState.Inv (env : Env K) (cat : ℕ → Item K) (st : LayoutState K n) : Prop where
  layout : st.layout.Inv env cat
  snaps : ∀ s ∈ st.snaps, s.Valid env cat ∧ s.id = st.layout.id

/-- the effect of an operation on what is placed -/
def LayoutOp.Effect (env : Env K) (st st' : LayoutState K n) : LayoutOp K n → Prop
  | .place addr item dt => st'.layout.bin = st.layout.bin ∧ st'.snaps = st.snaps ∧
      st'.layout.placed = (st.layout.placed.insert (PlacedItem.new env addr item dt)).2 ∧
      st'.layout.placed.values.Perm (PlacedItem.new env addr item dt :: st.layout.placed.values)
  | .remove key _ => st'.layout.bin = st.layout.bin ∧ st'.snaps = st.snaps ∧ ∃ pi, st.layout.placed.get? key = some pi ∧
      st.layout.placed.values.Perm (pi :: st'.layout.placed.values)
  | .snapshot => st'.layout.bin = st.layout.bin ∧ st'.layout.placed = st.layout.placed ∧ ∃ s, st'.snaps = st.snaps ++ [s] ∧
      s.id = st.layout.id ∧ s.bin = st.layout.bin ∧ s.placed = st.layout.placed ∧ s.usage = st.layout.usage
  | .restore i => st'.layout.bin = st.layout.bin ∧ st'.snaps = st.snaps ∧ ∃ s, st.snaps[i]? = some s ∧
      st'.layout.placed = s.placed
  | .changeBin bin => st'.layout.bin = bin ∧ st'.snaps = st.snaps ∧ st'.layout.placed = st.layout.placed

theorem LayoutOp.run_inv {env : Env K} {cat : ℕ → Item K} {st : LayoutState K n} (h : st.Inv env cat) {op : LayoutOp K n}
    (hp : op.Pre env cat st) :
    ∃ st', op.run env st = some st' ∧ st'.Inv env cat ∧ st'.layout.id = st.layout.id ∧ op.Effect env st st' := by
  cases op with
  | place addr item dt =>
    obtain ⟨k, l', h1, h2, h3, h4, h5, h6, h7⟩ := h.layout.placeItem addr hp.1 hp.2
    refine ⟨{ st with layout := l' }, ?_, ⟨h2, fun s hs => ?_⟩, h3, h4, rfl, h5, h7⟩
    · unfold LayoutOp.run; dsimp only; rw [h1]; rfl
    · exact ⟨(h.snaps s hs).1, (h.snaps s hs).2.trans h3.symm⟩
  | remove key ci =>
    obtain ⟨pi, hk⟩ := hp
    obtain ⟨m, l', h0, h1, h2, h3, h4, h5, h6⟩ := h.layout.removeItem hk ci
    refine ⟨{ st with layout := l' }, ?_, ⟨h2, fun s hs => ?_⟩, h3, h4, rfl, pi, hk, ?_⟩
    · unfold LayoutOp.run; dsimp only; rw [h1]; rfl
    · exact ⟨(h.snaps s hs).1, (h.snaps s hs).2.trans h3.symm⟩
    · dsimp only; rw [h5]; exact h6
  | snapshot =>
    obtain ⟨l', s, h1, h2, h3, h4, h5, h6, h7, h8, h9, h10⟩ := h.layout.createSnapshot
    refine ⟨⟨l', st.snaps ++ [s]⟩, ?_, ⟨h2, fun x hx => ?_⟩, h3, h4, h5, s, rfl, h7, h8, h9, h10⟩
    · unfold LayoutOp.run; dsimp only; rw [h1]; rfl
    · rcases List.mem_append.1 hx with hx | hx
      · exact ⟨(h.snaps x hx).1, (h.snaps x hx).2.trans h3.symm⟩
      · rw [List.mem_singleton.1 hx]
        exact ⟨h6, h7.trans h3.symm⟩
  | restore i =>
    have hi : st.snaps[i]? = some st.snaps[i] := List.getElem?_eq_getElem hp
    have hmem : st.snaps[i] ∈ st.snaps := List.getElem_mem hp
    obtain ⟨l', h1, h2, h3, h4, h5⟩ := h.layout.restore (h.snaps _ hmem).1 (h.snaps _ hmem).2.symm
    have h3 : l'.id = st.layout.id := h3.trans (h.snaps _ hmem).2
    refine ⟨{ st with layout := l' }, ?_, ⟨h2, fun s hs => ?_⟩, h3, h4, rfl, st.snaps[i], hi, h5⟩
    · unfold LayoutOp.run; dsimp only; rw [hi]; dsimp only; rw [h1]; rfl
    · exact ⟨(h.snaps s hs).1, (h.snaps s hs).2.trans h3.symm⟩
  | changeBin bin =>
    obtain ⟨l', h1, h2, h3, h4, h5⟩ := h.layout.changeBin hp
    refine ⟨{ st with layout := l' }, ?_, ⟨h2, fun s hs => ?_⟩, h3, h4, rfl, h5⟩
    · unfold LayoutOp.run; dsimp only; rw [h1]; rfl
    · exact ⟨(h.snaps s hs).1, (h.snaps s hs).2.trans h3.symm⟩

theorem LayoutRun.inv {env : Env K} {cat : ℕ → Item K} {st st' : LayoutState K n} {ops : List (LayoutOp K n)}
    (hr : LayoutRun env cat st ops st') (h : st.Inv env cat) : st'.Inv env cat ∧ st'.layout.id = st.layout.id ∧
      (∀ (i : ℕ) (s : LayoutSnapshot K n), st.snaps[i]? = some s → st'.snaps[i]? = some s) ∧
      ((∀ op ∈ ops, ∀ bin, op ≠ .changeBin bin) → st'.layout.bin = st.layout.bin) := by
  induction hr with
  | nil st => exact ⟨h, rfl, fun _ _ h => h, fun _ => rfl⟩
  | @cons st op st1 ops st2 hp hrun _ ih =>
    obtain ⟨st', h1, h2, h3, h4⟩ := LayoutOp.run_inv h hp
    rw [hrun] at h1
    obtain rfl := Option.some.inj h1
    obtain ⟨i1, i2, i3, i4⟩ := ih h2
    refine ⟨i1, i2.trans h3, fun i s hs => i3 i s ?_, fun hb => (i4 fun op' hop => hb op' (List.mem_cons_of_mem _ hop)).trans ?_⟩
    · cases op with
      | place => rw [h4.2.1]; exact hs
      | remove => rw [h4.2.1]; exact hs
      | snapshot =>
        obtain ⟨s', hs', _⟩ := h4.2.2
        rw [hs', List.getElem?_append_left (List.getElem?_eq_some_iff.1 hs).1]
        exact hs
      | restore => rw [h4.2.1]; exact hs
      | changeBin => rw [h4.2.1]; exact hs
    · cases op with
      | changeBin bin => exact absurd rfl (hb _ List.mem_cons_self bin)
      | place => exact h4.1
      | remove => exact h4.1
      | snapshot => exact h4.1
      | restore => exact h4.1

theorem LayoutState.Reachable.inv {env : Env K} {cat : ℕ → Item K} {st : LayoutState K n} (h : st.Reachable env cat) :
    st.Inv env cat := by
  obtain ⟨id, bin, ops, hb, hr⟩ := h
  exact (hr.inv ⟨Layout.inv_new cat id hb, by simp⟩).1

/-- looking up the placed item of a hazard -/
theorem Layout.Inv.hazardToKey {env : Env K} {cat : ℕ → Item K} {l : Layout K n} (h : l.Inv env cat) (e : HazardEntity K) :
    (∀ k, l.hazardToKey e = some k ↔ ∃ pi, l.placed.get? k = some pi ∧ pi.entity = e) ∧
    (l.hazardToKey e = none ↔ e ∉ l.cde.dynamics.map (·.entity)) := by
  have hinj : ∀ a ∈ l.placed.toList, ∀ b ∈ l.placed.toList, a.2.entity = b.2.entity → a = b := by
    have := h.nodup
    rw [← SlotMap.toList_snd, List.map_map] at this
    exact List.inj_on_of_nodup_map this
  have hnone : l.hazardToKey e = none ↔ ∀ k pi, l.placed.get? k = some pi → pi.entity ≠ e := by
    unfold Layout.hazardToKey
    rw [Option.map_eq_none_iff, List.find?_eq_none]
    constructor
    · intro hf k pi hk he
      exact hf (k, pi) (SlotMap.mem_toList.2 hk) (by simpa using he)
    · rintro hf ⟨k, pi⟩ hm hd
      exact hf k pi (SlotMap.mem_toList.1 hm) (by simpa using hd)
  constructor
  · intro k
    constructor
    · intro hk
      unfold Layout.hazardToKey at hk
      obtain ⟨⟨k', pi⟩, hf, rfl⟩ := Option.map_eq_some_iff.1 hk
      exact ⟨pi, SlotMap.mem_toList.1 (List.mem_of_find?_eq_some hf), by simpa using List.find?_some hf⟩
    · rintro ⟨pi, hk, he⟩
      have hm := SlotMap.mem_toList.2 hk
      cases hf : l.hazardToKey e with
      | none => exact absurd he (hnone.1 hf k pi hk)
      | some k' =>
        unfold Layout.hazardToKey at hf
        obtain ⟨⟨k', pi'⟩, hf', rfl⟩ := Option.map_eq_some_iff.1 hf
        have he' : pi'.entity = e := by simpa using List.find?_some hf'
        have := hinj _ (List.mem_of_find?_eq_some hf') _ hm (he'.trans he.symm)
        rw [Prod.mk.injEq] at this
        rw [this.1]
  · rw [hnone, h.ents.mem_iff, List.mem_map]
    constructor
    · rintro hf ⟨pi, hpi, he⟩
      obtain ⟨k, hk⟩ := SlotMap.mem_values.1 hpi
      exact hf k pi hk he
    · intro hf k pi hk he
      exact hf ⟨pi, SlotMap.mem_values.2 ⟨k, hk⟩, he⟩

end Jagua
