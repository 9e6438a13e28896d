import Verif.Spec.Twin
import Verif.Lemmas.LBFRun

/-!
# Twin problems give the same answers
-/

set_option linter.unusedSectionVars false

namespace Jagua

variable {K : Type*} [Arith K] [LinearOrder K] {n : ℕ} {R : Type*}

/-! ## Slot maps -/

theorem mapVals_values {α β : Type*} (g : α → β) (m : SlotMap α) : (m.mapVals g).values = m.values.map g := by
  unfold SlotMap.mapVals SlotMap.values
  dsimp only
  rw [List.filterMap_map, List.map_filterMap]
  rfl

theorem mapVals_insert {α β : Type*} (g : α → β) (m : SlotMap α) (a : α) :
    (m.mapVals g).insert (g a) = ((m.insert a).1, (m.insert a).2.mapVals g) := by
  unfold SlotMap.mapVals SlotMap.insert
  dsimp only
  cases m.free with
  | nil => simp
  | cons i free =>
    dsimp only
    rw [List.getElem?_map]
    cases m.slots[i]? with
    | none => simp
    | some s => simp [List.map_set]

theorem insert_twin {α β : Type*} {g : α → β} {m m' : SlotMap α} (h : m.mapVals g = m'.mapVals g) {a a' : α} (ha : g a = g a') :
    (m.insert a).1 = (m'.insert a').1 ∧ (m.insert a).2.mapVals g = (m'.insert a').2.mapVals g := by
  have h1 := mapVals_insert g m a
  have h2 := mapVals_insert g m' a'
  rw [h, ha, h2] at h1
  simp only [Prod.mk.injEq] at h1
  exact ⟨h1.1.symm, h1.2.symm⟩

/-! ## Engines -/

theorem CDE.Twin.all {c d : CDE K n} (h : c.Twin d) : c.allHazards.map Hazard.erase = d.allHazards.map Hazard.erase := by
  unfold CDE.allHazards
  rw [List.map_append, List.map_append, h.statics, h.dynamics]

theorem CDE.Twin.same {f : Fpa K} {c d : CDE K n} (h : c.Twin d) (hc : c.Inv f) (hd : d.Inv f) : c.Same f d :=
  ⟨hc, hd, h.bbox, fun x => by rw [h.all]⟩

theorem CDE.Twin.entities {c d : CDE K n} (h : c.Twin d) : c.allHazards.map (·.entity) = d.allHazards.map (·.entity) := by
  have := congrArg (List.map fun x : Hazard K => x.entity) h.all
  rwa [List.map_map, List.map_map] at this

theorem generateIrrelevant_entities (q : HazardFilter K) (hs : List (Hazard K)) :
    generateIrrelevant q hs = (hs.map (·.entity)).filterMap fun e => if q.isIrrelevant e then some e else none := by
  unfold generateIrrelevant
  rw [List.filterMap_map]
  rfl

theorem Layout.Twin.irrelevant {l l' : Layout K n} (h : l.Twin l') (item : Item K) : lbfIrrelevant item l = lbfIrrelevant item l' := by
  unfold lbfIrrelevant
  cases item.hazardFilter with
  | none => rfl
  | some q =>
    dsimp only
    rw [generateIrrelevant_entities, generateIrrelevant_entities, h.cde.entities]

theorem CDE.Twin.register {f : Fpa K} {o o' : SearchOracle K} {c d c' : CDE K n} (h : c.Twin d) {x x' : Hazard K} (hx : x.erase = x'.erase)
    (hc : c.register f o x = some c') {d' : CDE K n} (hd : d.register f o' x' = some d') : c'.Twin d' := by
  unfold CDE.register at hc hd
  rw [h.settled.1] at hc
  rw [h.settled.2] at hd
  simp only [List.findIdx?_nil] at hc hd
  cases h1 : c.tree.register f o (QTHazard.ofHazard x) with
  | none => rw [h1] at hc; cases hc
  | some t =>
    cases h2 : d.tree.register f o' (QTHazard.ofHazard x') with
    | none => rw [h2] at hd; cases hd
    | some t' =>
      rw [h1] at hc
      rw [h2] at hd
      cases hc
      cases hd
      refine ⟨h.bbox, h.statics, ?_, rfl, rfl⟩
      dsimp only
      rw [List.map_append, List.map_append, h.dynamics, List.map_singleton, List.map_singleton, hx]

theorem CDE.Twin.snapshot {c d c' d' : CDE K n} (h : c.Twin d) (hc : c.commit = some c') (hd : d.commit = some d') : c'.Twin d' := by
  unfold CDE.commit at hc hd
  rw [h.settled.1] at hc
  rw [h.settled.2] at hd
  cases hc
  cases hd
  exact ⟨h.bbox, h.statics, h.dynamics, rfl, rfl⟩

/-! ## Bins -/

theorem generateBinHazards_erase (outer : Arc (SPoly K)) (holes : List (Arc (SPoly K))) (zones : List (Option (QualityZone K))) :
    (generateBinHazards outer holes zones).map Hazard.erase =
      generateBinHazards outer.strip (holes.map Arc.strip) (zones.map (Option.map QualityZone.erase)) := by
  unfold generateBinHazards
  rw [List.map_append, List.map_append, List.map_singleton, List.zipIdx_map, List.map_map, List.map_map, List.map_flatMap, List.flatMap_map]
  congr 1
  refine List.flatMap_congr fun z _ => ?_
  cases z with
  | none => rfl
  | some z =>
    show _ = (QualityZone.erase z).zones.zipIdx.map _
    unfold QualityZone.erase
    dsimp only
    rw [List.zipIdx_map, List.map_map, List.map_map]
    rfl

theorem zoneTable_erase (zones : List (QualityZone K)) :
    (zoneTable zones).map (Option.map QualityZone.erase) = zoneTable (zones.map QualityZone.erase) := by
  unfold zoneTable
  rw [List.foldl_map]
  have : ∀ (zs : List (QualityZone K)) (t : List (Option (QualityZone K))),
      (zs.foldl (fun t z => t.set z.quality (some z)) t).map (Option.map QualityZone.erase) =
      zs.foldl (fun t z => t.set (QualityZone.erase z).quality (some z.erase)) (t.map (Option.map QualityZone.erase)) := by
    intro zs
    induction zs with
    | nil => exact fun _ => rfl
    | cons z zs ih =>
      intro t
      rw [List.foldl_cons, List.foldl_cons, ih, List.map_set]
      rfl
  rw [this, List.map_replicate]
  rfl

theorem strip_vals {α : Type*} {l l' : List (Arc α)} (h : l.map Arc.strip = l'.map Arc.strip) : l.map (·.val) = l'.map (·.val) := by
  have := congrArg (List.map fun x : Arc α => x.val) h
  rwa [List.map_map, List.map_map] at this

theorem Bin.new_twin {env : Env K} (o' : SearchOracle K) {id : ℕ} {outer outer' : Arc (SPoly K)} {value : ℕ} {pre : Transf K}
    {holes holes' : List (Arc (SPoly K))} {zones zones' : List (QualityZone K)} (h1 : outer.val = outer'.val)
    (h2 : holes.map Arc.strip = holes'.map Arc.strip) (h3 : zones.map QualityZone.erase = zones'.map QualityZone.erase)
    {b : Bin K n} (hb : Bin.new env n id outer value pre holes zones = some b) :
    ∃ b' : Bin K n, Bin.new { env with o := o' } n id outer' value pre holes' zones' = some b' ∧ b.Twin b' := by
  obtain ⟨⟨q1, q2⟩, e1, e2, e3, e4, e5, e6, e7, e8, -, e9, e10⟩ := (Bin.new_spec env id outer value pre holes zones).2 b hb
  have hq : zones.map (·.quality) = zones'.map (·.quality) := by
    have := congrArg (List.map fun z : QualityZone K => z.quality) h3
    rwa [List.map_map, List.map_map] at this
  obtain ⟨b', hb'⟩ := (Bin.new_spec (n := n) { env with o := o' } id outer' value pre holes' zones').1 (by
    refine ⟨hq ▸ q1, fun z hz => ?_⟩
    have : z.quality ∈ zones.map (·.quality) := by rw [hq]; exact List.mem_map_of_mem hz
    obtain ⟨z', hz', he⟩ := List.mem_map.1 this
    rw [← he]
    exact q2 z' hz')
  obtain ⟨-, f1, f2, f3, f4, f5, f6, f7, f8, -, f9, f10⟩ := (Bin.new_spec { env with o := o' } id outer' value pre holes' zones').2 b' hb'
  have hz : ∀ {env : Env K} {outer : Arc (SPoly K)} {holes : List (Arc (SPoly K))} {zones : List (QualityZone K)} {b : Bin K n},
      Bin.new env n id outer value pre holes zones = some b → b.qualityZones = zoneTable zones := by
    intro env outer holes zones b hb
    unfold Bin.new at hb
    split_ifs at hb
    obtain ⟨c, _, rfl⟩ := Option.map_eq_some_iff.1 hb
    rfl
  refine ⟨b', hb', ⟨by rw [e1, f1], by rw [e2, f2, h1], by rw [e9, f9], by rw [e10, f10], by rw [e3, f3, h2], ?_, ?_, ?_⟩⟩
  · rw [hz hb, hz hb', zoneTable_erase, zoneTable_erase, h3]
  · rw [e4, f4, h1]
    have := congrArg (List.map fun s : SPoly K => s.area) (strip_vals h2)
    rw [List.map_map, List.map_map] at this
    rw [show (fun x : Arc (SPoly K) => x.val.area) = (fun s : SPoly K => s.area) ∘ (fun x : Arc (SPoly K) => x.val) from rfl, this]
  · refine ⟨by rw [e8, f8, h1], ?_, by rw [e6, f6], e7, f7⟩
    rw [e5, f5, generateBinHazards_erase, generateBinHazards_erase, zoneTable_erase, zoneTable_erase, h2, h3]
    unfold Arc.strip
    rw [h1]

theorem Bin.fromStrip_twin {env : Env K} (o' : SearchOracle K) (addr addr' : ℕ) {value : SPoly K → ℕ} {rect : AARect K} {b : Bin K n}
    (hb : Bin.fromStrip env n addr value rect = some b) :
    ∃ b' : Bin K n, Bin.fromStrip { env with o := o' } n addr' value rect = some b' ∧ b.Twin b' := by
  unfold Bin.fromStrip at hb ⊢
  dsimp only
  cases hp : SPoly.ofRect env.poi rect with
  | none => rw [hp] at hb; cases hb
  | some poly =>
    rw [hp] at hb
    exact Bin.new_twin o' (outer := ⟨addr, poly⟩) (outer' := ⟨addr', poly⟩) rfl rfl rfl hb

/-! ## Layouts -/

theorem Layout.twin_new (id : ℕ) {b b' : Bin K n} (h : b.Twin b') : (Layout.new id b).Twin (Layout.new id b') := ⟨rfl, h, rfl, h.cde⟩

theorem Layout.Twin.clone {l l' : Layout K n} (h : l.Twin l') (id : ℕ) : (l.cloneWithId id).Twin (l'.cloneWithId id) :=
  ⟨rfl, h.bin, h.placed, h.cde⟩

theorem Layout.Twin.values {l l' : Layout K n} (h : l.Twin l') :
    l.placed.values.map PlacedItem.erase = l'.placed.values.map PlacedItem.erase := by
  rw [← mapVals_values, h.placed, mapVals_values]

/-- what is computed from placed items without looking at addresses -/
theorem Layout.Twin.map_values {β : Type*} {l l' : Layout K n} (h : l.Twin l') (g : PlacedItem K → β) (hg : ∀ pi, g pi.erase = g pi) :
    l.placed.values.map g = l'.placed.values.map g := by
  have := congrArg (List.map g) h.values
  rw [List.map_map, List.map_map] at this
  rwa [show g ∘ PlacedItem.erase = g from funext hg] at this

theorem Layout.Twin.usage {l l' : Layout K n} (h : l.Twin l') : l.usage = l'.usage := by
  unfold Layout.usage
  rw [h.map_values (fun pi => pi.shape.val.area) (fun _ => rfl), h.bin.area]

theorem Layout.Twin.placeItem {env : Env K} {o' : SearchOracle K} {l l' : Layout K n} (h : l.Twin l') {addr addr' : ℕ} {item : Item K}
    {dt : DTransf K} {x x' : SlotKey × Layout K n} (hx : l.placeItem env addr item dt = some x)
    (hx' : l'.placeItem { env with o := o' } addr' item dt = some x') : x.1 = x'.1 ∧ x.2.Twin x'.2 := by
  unfold Layout.placeItem at hx hx'
  dsimp only at hx hx'
  obtain ⟨c, hc, rfl⟩ := Option.map_eq_some_iff.1 hx
  obtain ⟨c', hc', rfl⟩ := Option.map_eq_some_iff.1 hx'
  have hi := insert_twin (g := PlacedItem.erase) h.placed (a := PlacedItem.new env addr item dt)
    (a' := PlacedItem.new { env with o := o' } addr' item dt) rfl
  exact ⟨hi.1, ⟨h.id, h.bin, hi.2, h.cde.register (x := Hazard.new (PlacedItem.new env addr item dt).entity (PlacedItem.new env addr item dt).shape)
    (x' := Hazard.new (PlacedItem.new { env with o := o' } addr' item dt).entity
    (PlacedItem.new { env with o := o' } addr' item dt).shape) rfl hc hc'⟩⟩

/-! ## The search for a placement -/

section
variable {lenv : LEnv K n R} {env : Env K} {o' : SearchOracle K} {l l' : Layout K n}

theorem CDE.Same.surrogateHits {f : Fpa K} {c d : CDE K n} (h : c.Same f d) (s : Surrogate K) (t : Transf K) (irr : List (HazardEntity K)) :
    c.surrogateHits s t irr = d.surrogateHits s t irr := h.answers.surrogate _ _ _

theorem uniLoop_same (h : l.cde.Same env.f l'.cde) (item : Item K) (surr : Surrogate K) (irr : List (HazardEntity K)) (k : ℕ) :
    ∀ (st : UniState K) (r : R), uniLoop lenv env l item surr irr k st r = uniLoop lenv { env with o := o' } l' item surr irr k st r := by
  have hstep : ∀ (st : UniState K) (r : R), uniStep lenv env l item surr irr st r = uniStep lenv { env with o := o' } l' item surr irr st r := by
    intro st r
    unfold uniStep
    simp only [h.surrogateHits, h.answers.poly]
  induction k with
  | zero => exact fun _ _ => rfl
  | succ k ih =>
    intro st r
    unfold uniLoop
    rw [hstep]
    simp only [ih]

theorem lsLoop_same (h : l.cde.Same env.f l'.cde) (item : Item K) (surr : Surrogate K) (irr : List (HazardEntity K)) (budget k : ℕ) :
    ∀ (st : LsState K) (r : R), lsLoop lenv env l item surr irr budget k st r = lsLoop lenv { env with o := o' } l' item surr irr budget k st r := by
  have hstep : ∀ (g : K) (st : LsState K) (r : R),
      lsStep lenv env l item surr irr g st r = lsStep lenv { env with o := o' } l' item surr irr g st r := by
    intro g st r
    unfold lsStep
    simp only [h.surrogateHits, h.answers.poly]
  induction k with
  | zero => exact fun _ _ => rfl
  | succ k ih =>
    intro st r
    unfold lsLoop
    rw [hstep]
    simp only [ih]

theorem sampleLayout_twin (hg : ∀ l l' : Layout K n, l.Twin l' → lenv.grid l = lenv.grid l') (ht : l.Twin l') (h : l.cde.Same env.f l'.cde)
    (cfg : LbfConfig) (idx : LayoutIndex) (item : Item K) (r : R) :
    sampleLayout lenv env cfg idx l item r = sampleLayout lenv { env with o := o' } cfg idx l' item r := by
  have hn : HPGSampler.new lenv item l = HPGSampler.new lenv item l' := by
    unfold HPGSampler.new
    simp only [hg l l' ht, ht.bin.outer]
  unfold sampleLayout
  simp only [hn, ht.irrelevant item, uniLoop_same (o' := o') h, lsLoop_same (o' := o') h, ht.bin.outer]

theorem findPlacement_twin (hg : ∀ l l' : Layout K n, l.Twin l' → lenv.grid l = lenv.grid l') (cfg : LbfConfig) (item : Item K)
    {ls ls' : List (LayoutIndex × Layout K n)}
    (h : List.Forall₂ (fun x x' => x.1 = x'.1 ∧ x.2.Twin x'.2 ∧ x.2.cde.Same env.f x'.2.cde) ls ls') :
    ∀ (r : R), findPlacement lenv env cfg item ls r = findPlacement lenv { env with o := o' } cfg item ls' r := by
  induction h with
  | nil => exact fun _ => rfl
  | cons hx _ ih =>
    intro r
    unfold findPlacement
    rw [sampleLayout_twin (o' := o') hg hx.2.1 hx.2.2, hx.1]
    simp only [ih]

end

end Jagua
