import Verif.Spec.TrialStrip
import Verif.Lemmas.Trial
import Verif.Lemmas.TrialRounded
import Verif.Lemmas.Strip

/-!
# Strip packing, over any arithmetic: what is placed was tested
-/

set_option linter.unusedSectionVars false

namespace Jagua

variable {K : Type*} [Arith K] [LinearOrder K] {n : ℕ} {R : Type*}

theorem Bin.fromStrip_plain {env : Env K} {addr : ℕ} {value : SPoly K → ℕ} {rect : AARect K} {b : Bin K n}
    (h : Bin.fromStrip env n addr value rect = some b) : b.baseCde.uncommitted = [] ∧ b.Built env ∧ ∀ z, some z ∉ b.qualityZones := by
  unfold Bin.fromStrip at h
  split at h
  · cases h
  · rename_i poly hp
    have hB : b.Built env := ⟨_, _, _, _, _, _, h⟩
    refine ⟨hB.base.2.2.1, hB, ?_⟩
    unfold Bin.new at h
    split_ifs at h
    obtain ⟨c, _, rfl⟩ := Option.map_eq_some_iff.1 h
    intro z hz
    simp [zoneTable] at hz

/-- what stays true of the layout of a strip -/
structure StripKept (env : Env K) (items : List (Item K × ℕ)) (l : Layout K n) : Prop where
  unc : l.cde.uncommitted = []
  slots : l.placed.WF
  stat : ∃ h : Hazard K, l.cde.statics = [h] ∧ h.entity = .binExterior ∧ h.shape.val = l.bin.outer.val
  dyn : l.cde.dynamics.Perm (l.placed.values.map PlacedItem.haz)
  known : ∀ pi ∈ l.placed.values, ∃ x, items[pi.itemId]? = some x ∧ pi.hazardFilter = x.1.hazardFilter ∧
      pi.shape.val = x.1.shape.transform (Transf.fromDt env.tr pi.dt) ∧ x.1.Turns env.tr pi.dt.rotation
  reach : l.puts.Nodup → l.Inv env (catOf items)
  holes : l.bin.holes = []
  zones : ∀ z, some z ∉ l.bin.qualityZones

theorem StripKept.new {env : Env K} {items : List (Item K × ℕ)} {addr : ℕ} {value : SPoly K → ℕ} {rect : AARect K} {b : Bin K n}
    (h : Bin.fromStrip env n addr value rect = some b) (id : ℕ) : StripKept env items (Layout.new id b) := by
  obtain ⟨poly, _, _, h2, h3, h4, h5, _⟩ := Bin.fromStrip_spec h
  obtain ⟨k1, k2, k3⟩ := Bin.fromStrip_plain h
  refine ⟨k1, SlotMap.wf_empty, ⟨_, h4, rfl, ?_⟩, ?_, ?_, fun _ => Layout.inv_new _ _ k2, h3, k3⟩
  · show poly = b.outer.val
    rw [h2]
  · show b.baseCde.dynamics.Perm _
    rw [h5]
    exact .refl _
  · simp [Layout.new, SlotMap.empty, SlotMap.values]

theorem Layout.puts_new (id : ℕ) (b : Bin K n) : (Layout.new id b).puts = [] := rfl

theorem StripKept.exterior {env : Env K} {items : List (Item K × ℕ)} {l : Layout K n} (h : StripKept env items l) {irr : List (HazardEntity K)}
    (hi : .binExterior ∉ irr) (s : SPoly K) : (⟨l.cde, s, irr⟩ : Trial K n).AgainstOutline l.bin.outer.val := by
  obtain ⟨hz, h1, h2, h3⟩ := h.stat
  refine ⟨hi, hz, ?_, h2, h3⟩
  unfold CDE.allHazards
  rw [h1]
  simp

theorem StripKept.other {env : Env K} {items : List (Item K × ℕ)} {l : Layout K n} (h : StripKept env items l) {irr : List (HazardEntity K)}
    {c : ℕ × DTransf K} (hc : c ∈ l.puts) (hi : .placedItem c.1 c.2 ∉ irr) (s : SPoly K) : (⟨l.cde, s, irr⟩ : Trial K n).AgainstItem env.tr items c := by
  obtain ⟨pi, hpi, rfl⟩ := List.mem_map.1 hc
  obtain ⟨x, hx, _, hs, _⟩ := h.known pi hpi
  refine ⟨hi, x, hx, pi.haz, ?_, rfl, hs⟩
  exact List.mem_append.2 (.inr (h.dyn.mem_iff.2 (List.mem_map_of_mem hpi)))

theorem StripKept.sound {env : Env K} {items : List (Item K × ℕ)} {l : Layout K n} (h : StripKept env items l) {irr : List (HazardEntity K)}
    {s : SPoly K} (hf : l.cde.polyCollides env.f s irr = some false) : (⟨l.cde, s, irr⟩ : Trial K n).Sound env := by
  refine ⟨hf, fun hn => (h.reach ?_).reach⟩
  unfold CDE.allHazards at hn
  rw [List.map_append] at hn
  have h1 := (List.nodup_append.1 hn).2.1
  have h2 := ((h.dyn.map (·.entity)).nodup_iff.1 h1)
  refine List.Nodup.of_map (fun x : ℕ × DTransf K => HazardEntity.placedItem x.1 x.2) ?_
  rw [List.map_map] at h2
  unfold Layout.puts
  rw [List.map_map]
  exact h2

theorem StripKept.place {env : Env K} {items : List (Item K × ℕ)} {l : Layout K n} (h : StripKept env items l) {item : Item K × ℕ} (hid : item.1 = catOf items item.1.id)
    (hi : items[item.1.id]? = some item) {dt : DTransf K} (ht : item.1.Turns env.tr dt.rotation) {addr : ℕ} {k : SlotKey} {l' : Layout K n}
    (hp : l.placeItem env addr item.1 dt = some (k, l')) : StripKept env items l' ∧ l'.bin = l.bin ∧ l'.puts.Perm ((item.1.id, dt) :: l.puts) := by
  obtain ⟨hbin, hperm⟩ := Layout.placeItem_values h.slots hp
  have hputs : l'.puts.Perm ((item.1.id, dt) :: l.puts) := hperm.map fun pi : PlacedItem K => (pi.itemId, pi.dt)
  have hp0 := hp
  unfold Layout.placeItem at hp
  obtain ⟨c, hc, e⟩ := Option.map_eq_some_iff.1 hp
  obtain ⟨-, e⟩ := Prod.mk.inj e
  have hcde : l'.cde = c := by rw [← e]
  have hpl : l'.placed = (l.placed.insert (PlacedItem.new env addr item.1 dt)).2 := by rw [← e]
  unfold CDE.register at hc
  rw [h.unc] at hc
  simp only [List.findIdx?_nil] at hc
  split at hc
  · cases hc
  rename_i t _
  cases hc
  refine ⟨⟨?_, ?_, ?_, ?_, ?_, ?_, ?_, ?_⟩, hbin, hputs⟩
  · rw [hcde]
  · rw [hpl]; exact (SlotMap.insert_spec h.slots _).1
  · rw [hcde, hbin]; exact h.stat
  · rw [hcde]
    refine (List.perm_append_singleton _ _).trans (List.Perm.trans ?_ (hperm.map PlacedItem.haz).symm)
    rw [List.map_cons]
    exact h.dyn.cons _
  · intro pi hpi
    rcases List.mem_cons.1 (hperm.mem_iff.1 hpi) with rfl | hpi
    · exact ⟨item, hi, rfl, rfl, ht⟩
    · exact h.known pi hpi
  · intro hn
    have hn' := hputs.nodup_iff.1 hn
    rw [List.nodup_cons] at hn'
    obtain ⟨k', l2, e, hI, _⟩ := (h.reach hn'.2).placeItem addr (item := item.1) (dt := dt) hid (by
      rintro pi hpi ⟨h1, h2⟩
      exact hn'.1 (List.mem_map.2 ⟨pi, hpi, by rw [h1, h2]⟩))
    rw [hp0] at e
    cases e
    exact hI
  · rw [hbin]; exact h.holes
  · rw [hbin]; exact h.zones

/-! ## Vetted placements -/

theorem Vetted.mono {tr : Trig K} {items : List (Item K × ℕ)} {ts ts' : List (Trial K n)} {o : SPoly K} {xs : List (ℕ × DTransf K)} (h : Vetted tr items ts o xs)
    (hs : ∀ q ∈ ts, q ∈ ts') : Vetted tr items ts' o xs :=
  ⟨fun a ha => by obtain ⟨q, hq, h'⟩ := h.inside a ha; exact ⟨q, hs q hq, h'⟩,
    h.apart.imp fun ⟨q, hq, h'⟩ => ⟨q, hs q hq, h'⟩⟩

theorem Vetted.perm {tr : Trig K} {items : List (Item K × ℕ)} {ts : List (Trial K n)} {o : SPoly K} {xs ys : List (ℕ × DTransf K)} (h : Vetted tr items ts o xs)
    (hp : xs.Perm ys) : Vetted tr items ts o ys :=
  ⟨fun a ha => h.inside a (hp.mem_iff.2 ha),
    (hp.pairwise_iff (fun {_ _} ⟨q, hq, h'⟩ => ⟨q, hq, h'.symm⟩)).1 h.apart⟩

theorem Vetted.empty {tr : Trig K} {items : List (Item K × ℕ)} (ts : List (Trial K n)) (o : SPoly K) : Vetted tr items ts o [] :=
  ⟨by simp, List.Pairwise.nil⟩

/-- the relation between two vetted placements, with any strip -/
def VettedPair (tr : Trig K) (items : List (Item K × ℕ)) (ts : List (Trial K n)) (a c : ℕ × DTransf K) : Prop :=
  ∃ q ∈ ts, (q.About tr items a ∧ q.AgainstItem tr items c) ∨ (q.About tr items c ∧ q.AgainstItem tr items a)

/-- what stays true while the optimizer runs -/
structure TrialSP (env : Env K) (inst : SPInstance K) (p : SPProblem K n) (ts : List (Trial K n)) : Prop where
  same : p.inst = inst
  kept : StripKept env inst.items p.layout
  sound : ∀ q ∈ ts, q.Sound env
  vetted : Vetted env.tr inst.items ts p.layout.bin.outer.val p.layout.puts

theorem SPProblem.placeItem_parts {env : Env K} {p : SPProblem K n} {addr : ℕ} {opt : PlacingOption K} {q : (LayoutIndex × SlotKey) × SPProblem K n}
    (h : p.placeItem env addr opt = some q) : ∃ item k l, p.inst.items[opt.itemId]? = some item ∧ p.layout.placeItem env addr item.1 opt.dt = some (k, l) ∧
      q.2.inst = p.inst ∧ q.2.layout = l := by
  unfold SPProblem.placeItem at h
  split_ifs at h
  split at h
  · cases h
  · rename_i item hi
    obtain ⟨pl, hpl, h⟩ := Option.bind_eq_some_iff.1 h
    obtain ⟨p', hp', rfl⟩ := Option.map_eq_some_iff.1 h
    unfold SPProblem.registerItem at hp'
    obtain ⟨m, hm, rfl⟩ := Option.map_eq_some_iff.1 hp'
    exact ⟨item, pl.1, pl.2, hi, hpl, rfl, rfl⟩

/-- an item is placed after a test that takes everything into account -/
theorem TrialSP.place {env : Env K} {inst : SPInstance K} (hids : ∀ (i : ℕ) (x : Item K × ℕ), inst.items[i]? = some x → x.1.id = i ∧ x.1 = catOf inst.items x.1.id) {p : SPProblem K n} {ts : List (Trial K n)}
    (h : TrialSP env inst p ts) {item : Item K × ℕ} {opt : PlacingOption K} (hi : inst.items[opt.itemId]? = some item) (ht : p.layout.Tested env item.1 opt.dt)
    {addr : ℕ} {q : (LayoutIndex × SlotKey) × SPProblem K n} (hq : p.placeItem env addr opt = some q) : ∃ t, TrialSP env inst q.2 (t :: ts) := by
  obtain ⟨item', k, l, h1, h2, h3, h4⟩ := SPProblem.placeItem_parts hq
  rw [h.same, hi] at h1
  obtain rfl := Option.some.inj h1
  obtain ⟨i1, i2⟩ := hids _ _ hi
  obtain ⟨t, htr, hfree⟩ := ht
  obtain ⟨k1, k2, k3⟩ := h.kept.place i2 (by rw [i1]; exact hi) htr.turns h2
  have habout : (p.layout.trial item.1 t).About env.tr inst.items (item.1.id, opt.dt) := ⟨item, t, by rw [i1]; exact hi, htr, rfl⟩
  refine ⟨p.layout.trial item.1 t, h3.trans h.same, by rw [h4]; exact k1, ?_, ?_⟩
  · intro q' hq'
    rcases List.mem_cons.1 hq' with rfl | hq'
    · exact h.kept.sound hfree
    · exact h.sound q' hq'
  · rw [h4, k2]
    refine Vetted.perm ?_ k3.symm
    have hv := h.vetted.mono (ts' := p.layout.trial item.1 t :: ts) fun q' hq' => List.mem_cons_of_mem _ hq'
    refine ⟨?_, List.pairwise_cons.2 ⟨?_, hv.apart⟩⟩
    · intro a ha
      rcases List.mem_cons.1 ha with rfl | ha
      · exact ⟨_, List.mem_cons_self, habout, h.kept.exterior (fun hm => by obtain ⟨_, _, _, _, hz, _⟩ := mem_lbfIrrelevant hm; cases hz) _⟩
      · exact hv.inside a ha
    · intro c hc
      exact ⟨_, List.mem_cons_self, .inl ⟨habout, h.kept.other hc (fun hm => by obtain ⟨_, _, _, _, hz, _⟩ := mem_lbfIrrelevant hm; cases hz) _⟩⟩

theorem mem_ignoreList {l : Layout K n} : (.binExterior : HazardEntity K) ∉ SPProblem.ignoreList l := by
  unfold SPProblem.ignoreList
  intro h
  simpa using (List.mem_filter.1 h).2

/-- placing back the items whose pairs were tested before -/
theorem TrialSP.placeBacks {env : Env K} {inst : SPInstance K} (hids : ∀ (i : ℕ) (x : Item K × ℕ), inst.items[i]? = some x → x.1.id = i ∧ x.1 = catOf inst.items x.1.id) :
    ∀ (xs : List (ℕ × ℕ × DTransf K)) {p p' : SPProblem K n} {ts : List (Trial K n)}, TrialSP env inst p ts →
    (∀ x ∈ xs, ∃ y, inst.items[x.2.1]? = some y ∧ y.1.Turns env.tr x.2.2.rotation) →
    (p.layout.puts ++ xs.map (·.2)).Pairwise (VettedPair env.tr inst.items ts) →
    xs.foldlM (SPProblem.placeBack env) p = some p' → ∃ ts', (∀ q ∈ ts, q ∈ ts') ∧ TrialSP env inst p' ts'
  | [], p, p', ts, h, _, _, hf => by
    rw [List.foldlM_nil] at hf
    cases hf
    exact ⟨ts, fun q hq => hq, h⟩
  | x :: xs, p, p', ts, h, hk, hpw, hf => by
    rw [List.foldlM_cons] at hf
    obtain ⟨p1, hp1, hf⟩ := Option.bind_eq_some_iff.1 hf
    obtain ⟨item, hi, hturn⟩ := hk x List.mem_cons_self
    have hk' : ∀ y ∈ xs, ∃ z, inst.items[y.2.1]? = some z ∧ z.1.Turns env.tr y.2.2.rotation := fun y hy => hk y (List.mem_cons_of_mem _ hy)
    unfold SPProblem.placeBack at hp1
    rw [h.same, hi] at hp1
    dsimp only at hp1
    split at hp1
    · cases hp1
    · cases hp1
      refine TrialSP.placeBacks hids xs h hk' ?_ hf
      refine hpw.sublist ?_
      rw [List.map_cons]
      exact List.Sublist.append_left (List.sublist_cons_self _ _) _
    · rename_i hfree
      obtain ⟨q, hq, rfl⟩ := Option.map_eq_some_iff.1 hp1
      obtain ⟨item', k, l, h1, h2, h3, h4⟩ := SPProblem.placeItem_parts hq
      dsimp only at h1 h2
      rw [h.same, hi] at h1
      obtain rfl := Option.some.inj h1
      obtain ⟨i1, i2⟩ := hids _ _ hi
      obtain ⟨k1, k2, k3⟩ := h.kept.place i2 (by rw [i1]; exact hi) hturn h2
      set t : Trial K n := ⟨p.layout.cde, item.1.shape.transform (Transf.fromDt env.tr x.2.2), SPProblem.ignoreList p.layout⟩ with htdef
      have hx : (item.1.id, x.2.2) = x.2 := by rw [i1]
      rw [hx] at k3
      have hsub : ∀ q ∈ ts, q ∈ t :: ts := fun q hq => List.mem_cons_of_mem _ hq
      have hpw' : (q.2.layout.puts ++ xs.map (·.2)).Pairwise (VettedPair env.tr inst.items (t :: ts)) := by
        have e : (p.layout.puts ++ (x :: xs).map (·.2)).Perm (q.2.layout.puts ++ xs.map (·.2)) := by
          rw [h4, List.map_cons]
          exact List.perm_middle.trans (List.Perm.append_right _ k3.symm)
        refine (e.pairwise_iff (fun {_ _} ⟨q, hq, h'⟩ => ⟨q, hq, h'.symm⟩)).1 ?_
        exact hpw.imp fun ⟨q, hq, h'⟩ => ⟨q, hsub q hq, h'⟩
      have hT : TrialSP env inst q.2 (t :: ts) := by
        refine ⟨h3.trans h.same, by rw [h4]; exact k1, ?_, ?_, (List.pairwise_append.1 hpw').1⟩
        · intro q' hq'
          rcases List.mem_cons.1 hq' with rfl | hq'
          · exact h.kept.sound hfree
          · exact h.sound q' hq'
        · rw [h4, k2]
          intro a ha
          rcases List.mem_cons.1 (k3.mem_iff.1 ha) with rfl | ha
          · exact ⟨t, List.mem_cons_self, ⟨item, _, hi, .direct hturn, rfl⟩, h.kept.exterior mem_ignoreList _⟩
          · obtain ⟨q', hq', h'⟩ := h.vetted.inside a ha
            exact ⟨q', hsub q' hq', h'⟩
      obtain ⟨ts', e1, e2⟩ := TrialSP.placeBacks hids xs hT hk' hpw' hf
      exact ⟨ts', fun q' hq' => e1 q' (hsub q' hq'), e2⟩

theorem TrialSP.modify {env : StripEnv K} {inst : SPInstance K} (hids : ∀ (i : ℕ) (x : Item K × ℕ), inst.items[i]? = some x → x.1.id = i ∧ x.1 = catOf inst.items x.1.id)
    {p p' : SPProblem K n} {ts : List (Trial K n)} (h : TrialSP env.toEnv inst p ts) {addr : ℕ} {addrs : ℕ → ℕ} {rect : AARect K}
    (hm : p.modifyStrip env addr addrs rect = some p') : ∃ ts', TrialSP env.toEnv inst p' ts' := by
  unfold SPProblem.modifyStrip at hm
  dsimp only at hm
  obtain ⟨b, hb, hm⟩ := Option.bind_eq_some_iff.1 hm
  have hmap : ((p.layout.placed.values.map fun pi => (pi.itemId, pi.dt)).zipIdx.map
      fun (x : (ℕ × DTransf K) × ℕ) => (addrs x.2, x.1)).map (·.2) = p.layout.puts := by
    rw [List.map_map]
    exact List.zipIdx_map_fst 0 _
  obtain ⟨ts', -, h'⟩ := TrialSP.placeBacks hids _ (ts := ts) (env := env.toEnv) (inst := inst)
    (p := { inst := p.inst, layout := Layout.new (p.layoutCounter + 1) b, missing := p.inst.items.map fun (x : Item K × ℕ) => (x.2 : ℤ),
            layoutCounter := p.layoutCounter + 1, solutionCounter := p.solutionCounter })
    ⟨h.same, StripKept.new hb _, h.sound, Vetted.empty _ _⟩ (by
      intro x hx
      have := List.mem_map_of_mem (f := (·.2)) hx
      rw [hmap] at this
      obtain ⟨pi, hpi, he⟩ := List.mem_map.1 this
      obtain ⟨y, hy, _, _, ht⟩ := h.kept.known pi hpi
      exact ⟨y, by rw [← he]; exact hy, by rw [← he]; exact ht⟩) (by
      rw [hmap]
      exact h.vetted.apart) hm
  exact ⟨ts', h'⟩

theorem SPInstance.Built.cats {inst : SPInstance K} (hb : inst.Built) : ∀ (i : ℕ) (x : Item K × ℕ), inst.items[i]? = some x → x.1.id = i ∧ x.1 = catOf inst.items x.1.id :=
  fun _ _ hi => catOf_id (bins := ([] : List (Bin K 0 × ℕ))) hb.ids hi

theorem lbfPlaceSP_vetted {lenv : LEnv K n R} {env : StripEnv K} {cfg : LbfConfig} {inst : SPInstance K} (hb : inst.Built) {addr : ℕ → ℕ} {addrs : ℕ → ℕ → ℕ} {i : ℕ} :
    ∀ (k : ℕ) {p : SPProblem K n} {r : R} {x : SPProblem K n × R} {ts : List (Trial K n)}, TrialSP env.toEnv inst p ts →
    lbfPlaceSP lenv env cfg addr addrs i k p r = some x → ∃ ts', TrialSP env.toEnv inst x.1 ts'
  | 0, p, r, x, ts, h, hx => by cases hx
  | k + 1, p, r, x, ts, h, hx => by
    unfold lbfPlaceSP at hx
    obtain ⟨m, hm, hx⟩ := Option.bind_eq_some_iff.1 hx
    split_ifs at hx with hpos
    · obtain ⟨item, hi, hx⟩ := Option.bind_eq_some_iff.1 hx
      obtain ⟨o, ho, hx⟩ := Option.bind_eq_some_iff.1 hx
      rw [h.same] at hi
      cases hopt : o.1 with
      | none =>
        rw [hopt] at hx
        dsimp only at hx
        obtain ⟨q, hq, hx⟩ := Option.bind_eq_some_iff.1 hx
        unfold SPProblem.modifyInBack at hq
        dsimp only at hq
        obtain ⟨rect, _, hq⟩ := Option.bind_eq_some_iff.1 hq
        obtain ⟨ts', h'⟩ := h.modify hb.cats hq
        exact lbfPlaceSP_vetted hb k h' hx
      | some opt =>
        rw [hopt] at hx
        dsimp only at hx
        obtain ⟨q, hq, hx⟩ := Option.bind_eq_some_iff.1 hx
        obtain ⟨l, hl, e1, e2, ht⟩ := findPlacement_tested ho hopt
        rw [List.mem_singleton] at hl
        subst hl
        obtain ⟨t, h'⟩ := h.place hb.cats (item := item) (by rw [e2, (hb.cats _ _ hi).1]; exact hi) ht hq
        exact lbfPlaceSP_vetted hb k h' hx
    · cases hx
      exact ⟨ts, h⟩

theorem lbfFoldSP_vetted {lenv : LEnv K n R} {env : StripEnv K} {cfg : LbfConfig} {inst : SPInstance K} (hb : inst.Built) {addr : ℕ → ℕ → ℕ} {addrs : ℕ → ℕ → ℕ → ℕ} {fuel : ℕ} :
    ∀ (order : List ℕ) {s s' : SPProblem K n × R} {ts : List (Trial K n)}, TrialSP env.toEnv inst s.1 ts →
    order.foldlM (fun (s : SPProblem K n × R) i => lbfPlaceSP lenv env cfg (addr i) (addrs i) i fuel s.1 s.2) s = some s' → ∃ ts', TrialSP env.toEnv inst s'.1 ts'
  | [], s, s', ts, h, hs => by
    rw [List.foldlM_nil] at hs
    cases hs
    exact ⟨ts, h⟩
  | i :: order, s, s', ts, h, hs => by
    rw [List.foldlM_cons] at hs
    obtain ⟨t, ht, hs⟩ := Option.bind_eq_some_iff.1 hs
    obtain ⟨ts', h'⟩ := lbfPlaceSP_vetted hb fuel h ht
    exact lbfFoldSP_vetted hb order h' hs

theorem lbfSolveSP_vetted {lenv : LEnv K n R} {env : StripEnv K} {cfg : LbfConfig} {addr : ℕ → ℕ → ℕ} {addrs : ℕ → ℕ → ℕ → ℕ} {addr0 addr1 : ℕ} {addrs1 : ℕ → ℕ} {fuel : ℕ}
    {inst : SPInstance K} {r : R} (hb : inst.Built) {sol : Solution K n} {p : SPProblem K n}
    (h : lbfSolveSP lenv env cfg addr addrs addr0 addr1 addrs1 fuel inst r = some (sol, p)) :
    ∃ (l : Layout K n) (ts : List (Trial K n)) (sn : LayoutSnapshot K n), sol.snapshots = [sn] ∧ sn.bin = l.bin ∧ sn.placed = l.placed ∧ StripKept env.toEnv inst.items l ∧
      (∀ q ∈ ts, q.Sound env.toEnv) ∧ Vetted env.tr inst.items ts l.bin.outer.val l.puts := by
  unfold lbfSolveSP at h
  split_ifs at h
  dsimp only at h
  obtain ⟨p0, hp0, h⟩ := Option.bind_eq_some_iff.1 h
  obtain ⟨order, ho, h⟩ := Option.bind_eq_some_iff.1 h
  obtain ⟨s, hs, h⟩ := Option.bind_eq_some_iff.1 h
  obtain ⟨p1, hp1, h⟩ := Option.bind_eq_some_iff.1 h
  have h0 : TrialSP env.toEnv inst p0 [] := by
    unfold SPProblem.new at hp0
    split at hp0
    · cases hp0
    obtain ⟨b, hbn, rfl⟩ := Option.map_eq_some_iff.1 hp0
    exact ⟨rfl, StripKept.new hbn _, by simp, Vetted.empty _ _⟩
  obtain ⟨ts, h1⟩ := lbfFoldSP_vetted hb order h0 hs
  obtain ⟨hfit, -⟩ := SPProblem.fitStrip_some hp1
  unfold SPProblem.modifyCentered at hfit
  dsimp only at hfit
  obtain ⟨rect, _, hfit⟩ := Option.bind_eq_some_iff.1 hfit
  obtain ⟨ts', h2⟩ := h1.modify hb.cats hfit
  unfold SPProblem.createSolution Layout.createSnapshot at h
  dsimp only at h
  obtain ⟨c, hc, h⟩ := Option.map_eq_some_iff.1 h
  obtain ⟨y, hy, hyc⟩ := Option.map_eq_some_iff.1 hc
  obtain ⟨rfl, -⟩ := Prod.mk.inj h
  subst hyc
  exact ⟨p1.layout, ts', _, rfl, rfl, rfl, h2.kept, h2.sound, h2.vetted⟩

end Jagua
