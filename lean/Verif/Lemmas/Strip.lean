import Verif.Spec.Strip
import Verif.Lemmas.ProblemRestore

/-!
# Invariant of strip packing problems
-/

set_option linter.unusedSectionVars false

namespace Jagua

variable {K : Type*} [Arith K] [LinearOrder K] {n : ℕ}

theorem SPInstance.Built.ids {inst : SPInstance K} (h : inst.Built) :
    idsCorrect inst.items ([] : List (Bin K 0 × ℕ)) = true := by
  unfold SPInstance.Built SPInstance.new at h
  split_ifs at h with hc
  unfold idsCorrect
  rw [hc]
  rfl

/-- the bin of the layout is a strip -/
def Bin.IsStrip (env : StripEnv K) (b : Bin K n) : Prop :=
  ∃ addr rect, Bin.fromStrip env.toEnv n addr env.stripValue rect = some b

theorem Bin.IsStrip.built {env : StripEnv K} {b : Bin K n} (h : b.IsStrip env) : b.Built env.toEnv := by
  obtain ⟨addr, rect, h⟩ := h
  unfold Bin.fromStrip at h
  split at h
  · cases h
  · exact ⟨_, _, _, _, _, _, h⟩

structure SPLayoutIn (env : StripEnv K) (inst : SPInstance K) (l : Layout K n) : Prop where
  inv : l.Inv env.toEnv inst.cat
  items : ∀ pi ∈ l.placed.values, pi.itemId < inst.items.length
  strip : l.bin.IsStrip env

structure SPSnapIn (env : StripEnv K) (inst : SPInstance K) (s : LayoutSnapshot K n) : Prop where
  valid : s.Valid env.toEnv inst.cat
  items : ∀ pi ∈ s.placed.values, pi.itemId < inst.items.length
  strip : s.bin.IsStrip env

structure SPSolIn (env : StripEnv K) (inst : SPInstance K) (s : Solution K n) (sn : LayoutSnapshot K n) : Prop where
  snaps : s.snapshots = [sn]
  snap : SPSnapIn env inst sn
  placed : ∀ i, s.placed[i]? = (inst.items[i]?).map fun _ => copiesIn sn.placed i
  target : s.target = inst.qtys
  usage : s.usage = (0 + sn.bin.area * sn.usage) / (0 + sn.bin.area)

/-- the ids and bins of the layout and of the snapshots in solutions -/
def SPState.known (st : SPState K n) : List (ℕ × Bin K n) :=
  (st.p.layout.id, st.p.layout.bin) :: st.sols.flatMap fun s => s.snapshots.map fun sn => (sn.id, sn.bin)

structure SPProblem.Core (env : StripEnv K) (p : SPProblem K n) : Prop where
  built : p.inst.Built
  layout : SPLayoutIn env p.inst p.layout
  missing : MissingOk p.inst.items p.missing (copiesIn p.layout.placed)

structure SPState.Inv (env : StripEnv K) (st : SPState K n) : Prop where
  core : st.p.Core env
  sols : ∀ s ∈ st.sols, ∃ sn, SPSolIn env st.p.inst s sn
  known : ∀ x ∈ st.known, ∀ y ∈ st.known, x.1 = y.1 → x.2 = y.2
  fresh : ∀ x ∈ st.known, x.1 ≤ st.p.layoutCounter

theorem SPProblem.Core.cat {env : StripEnv K} {p : SPProblem K n} (h : p.Core env) {id : ℕ} {x : Item K × ℕ}
    (hx : p.inst.items[id]? = some x) : x.1.id = id ∧ x.1 = p.inst.cat x.1.id := catOf_id h.built.ids hx

theorem SPProblem.Core.place {env : StripEnv K} {p : SPProblem K n} (h : p.Core env) (addr : ℕ) {id : ℕ} {dt : DTransf K}
    {x : Item K × ℕ} (hx : p.inst.items[id]? = some x)
    (hnew : ∀ pi ∈ p.layout.placed.values, ¬ (pi.itemId = id ∧ pi.dt = dt)) :
    ∃ k l' m, p.placeItem env.toEnv addr ⟨.real 0, id, dt⟩ = some ((.real 0, k), { p with layout := l', missing := m }) ∧
      SPProblem.Core env { p with layout := l', missing := m } ∧ l'.id = p.layout.id ∧ l'.bin = p.layout.bin ∧
      k = (p.layout.placed.insert (PlacedItem.new env.toEnv addr x.1 dt)).1 ∧
      l'.placed = (p.layout.placed.insert (PlacedItem.new env.toEnv addr x.1 dt)).2 ∧
      l'.placed.values.Perm (PlacedItem.new env.toEnv addr x.1 dt :: p.layout.placed.values) := by
  have hid := (List.getElem?_eq_some_iff.1 hx).1
  obtain ⟨c1, c2⟩ := h.cat hx
  obtain ⟨k, l', e1, e2, e3, e4, e5, e6, e7⟩ := h.layout.inv.placeItem addr (item := x.1) (dt := dt) c2 (by
    intro pi hpi; rw [c1]; exact hnew pi hpi)
  have hpid : (PlacedItem.new env.toEnv addr x.1 dt).itemId = id := c1
  obtain ⟨m, f1, f2⟩ := h.missing.add hid (d := -1) (c' := copiesIn l'.placed) (by
      intro j
      rw [copiesIn_perm e7 j, hpid]
      unfold copiesIn
      split_ifs <;> push_cast <;> ring)
  refine ⟨k, l', m, ?_, ⟨h.built, ⟨e2, ?_, by dsimp only; rw [e4]; exact h.layout.strip⟩, f2⟩, e3, e4, e6, e5, e7⟩
  · unfold SPProblem.placeItem
    rw [if_neg (by simp), hx]
    dsimp only
    rw [e1, Option.bind_some]
    unfold SPProblem.registerItem
    dsimp only
    rw [f1]
    rfl
  · intro pi hpi
    rcases List.mem_cons.1 (e7.mem_iff.1 hpi) with rfl | hpi
    · rw [hpid]; exact hid
    · exact h.layout.items pi hpi

theorem SPProblem.Core.remove {env : StripEnv K} {p : SPProblem K n} (h : p.Core env) {key : SlotKey} {pi : PlacedItem K}
    (hk : p.layout.placed.get? key = some pi) (ci : Bool) :
    ∃ l' m, p.removeItem env.toEnv (.real 0) key ci = some (⟨.real 0, pi.itemId, pi.dt⟩, { p with layout := l', missing := m }) ∧
      SPProblem.Core env { p with layout := l', missing := m } ∧ l'.id = p.layout.id ∧ l'.bin = p.layout.bin ∧
      p.layout.placed.remove key = some (pi, l'.placed) ∧ p.layout.placed.values.Perm (pi :: l'.placed.values) := by
  obtain ⟨sm, l', e1, e2, e3, e4, e5, e6, e7⟩ := h.layout.inv.removeItem hk ci
  subst e6
  have hpi : pi ∈ p.layout.placed.values := e7.mem_iff.2 List.mem_cons_self
  obtain ⟨m, f1, f2⟩ := h.missing.add (h.layout.items pi hpi) (d := 1) (c' := copiesIn l'.placed) (by
      intro j
      rw [copiesIn_perm e7 j]
      unfold copiesIn
      split_ifs <;> push_cast <;> ring)
  refine ⟨l', m, ?_, ⟨h.built, ⟨e3, ?_, by dsimp only; rw [e5]; exact h.layout.strip⟩, f2⟩, e4, e5, e1, e7⟩
  · unfold SPProblem.removeItem
    rw [if_neg (by simp), e2, Option.bind_some]
    unfold SPProblem.deregisterItem
    dsimp only
    rw [f1]
    rfl
  · intro q hq
    exact h.layout.items q (e7.mem_iff.2 (List.mem_cons_of_mem _ hq))

/-- two engines with the same box and the same relevant hazards answer alike -/
theorem CDE.Inv.polyCollides_congr {f : Fpa K} {c d : CDE K n} (hc : c.Inv f) (hd : d.Inv f) (hb : c.bbox = d.bbox)
    {irr irr' : List (HazardEntity K)}
    (hh : ∀ h, (h ∈ c.allHazards ∧ h.entity ∉ irr) ↔ (h ∈ d.allHazards ∧ h.entity ∉ irr')) (s : SPoly K) :
    c.polyCollides f s irr = d.polyCollides f s irr' := by
  obtain ⟨b1, e1, s1⟩ := hc.byEdge s irr
  obtain ⟨b2, e2, s2⟩ := hd.byEdge s irr'
  obtain ⟨b3, e3, s3⟩ := hc.byContainment s irr
  obtain ⟨b4, e4, s4⟩ := hd.byContainment s irr'
  have k1 : b1 = b2 := by
    apply bool_ext
    rw [s1, s2, hb]
    refine exists_congr fun e => and_congr_right fun _ => exists_congr fun h => ?_
    rw [← and_assoc, ← and_assoc, hh]
  have k2 : b3 = b4 := by
    apply bool_ext
    rw [s3, s4]
    refine exists_congr fun h => ?_
    have key : h ∈ c.allHazards → h ∈ d.allHazards → c.containedTest f s h = d.containedTest f s h := by
      intro h1 h2
      unfold CDE.containedTest
      rw [(hc.definitelyWith _ h.entity).2 h h1 rfl, (hd.definitelyWith _ h.entity).2 h h2 rfl, hb]
    have := hh h
    constructor
    · rintro ⟨a, b, c', d'⟩
      have := this.1 ⟨a, c'⟩
      refine ⟨this.1, b, this.2, ?_⟩
      rw [← key a this.1, d']
    · rintro ⟨a, b, c', d'⟩
      have := this.2 ⟨a, c'⟩
      refine ⟨this.1, b, this.2, ?_⟩
      rw [key this.1 a, d']
  unfold CDE.polyCollides
  rw [hb, e1, e2, e3, e4, k1, k2]

/-- the hazards of the engine of a strip: only the exterior is static -/
theorem Bin.fromStrip_spec {env : Env K} {addr : ℕ} {value : SPoly K → ℕ} {rect : AARect K} {b : Bin K n}
    (h : Bin.fromStrip env n addr value rect = some b) :
    ∃ poly, SPoly.ofRect env.poi rect = some poly ∧ b.id = 0 ∧ b.outer = ⟨addr, poly⟩ ∧ b.holes = [] ∧
      b.baseCde.statics = [⟨.binExterior, ⟨addr, poly⟩, true⟩] ∧ b.baseCde.dynamics = [] ∧
      b.baseCde.bbox = poly.bbox.inflateToSquare ∧ b.baseCde.Reachable env.f env.o ∧ b.area = poly.area - 0 := by
  unfold Bin.fromStrip at h
  split at h
  · cases h
  · rename_i poly hp
    obtain ⟨_, h1, h2, h3, h4, h5, h6, h7, h8, h9, _⟩ := (Bin.new_spec env _ _ _ _ _ _).2 b h
    refine ⟨poly, hp, h1, h2, h3, ?_, h6, h8, h9, h4⟩
    rw [h5]
    unfold generateBinHazards
    simp [Hazard.new, zoneTable]

/-- In the engine of a strip with items, ignoring the items leaves the exterior only. -/
theorem Layout.Inv.strip_polyCollides {env : StripEnv K} {cat : ℕ → Item K} {l : Layout K n} (h : l.Inv env.toEnv cat)
    (hs : l.bin.IsStrip env) (s : SPoly K) :
    l.cde.polyCollides env.f s (SPProblem.ignoreList l) = l.bin.baseCde.polyCollides env.f s [] := by
  obtain ⟨addr, rect, hb⟩ := hs
  obtain ⟨poly, _, _, _, _, h1, h2, h3, h4, _⟩ := Bin.fromStrip_spec hb
  refine h.reach.inv.polyCollides_congr h4.inv h.bbox ?_ s
  intro x
  have hd : ∀ y ∈ l.cde.dynamics, y.entity ≠ .binExterior := by
    intro y hy
    obtain ⟨pi, _, he⟩ := List.mem_map.1 (h.ents.mem_iff.1 (List.mem_map_of_mem (f := (·.entity)) hy))
    rw [← he]
    simp [PlacedItem.entity]
  unfold SPProblem.ignoreList CDE.allHazards
  rw [h.statics, h1, h2]
  constructor
  · rintro ⟨hx, hn⟩
    rcases List.mem_append.1 hx with hx | hx
    · exact ⟨List.mem_append.2 (.inl hx), by simp⟩
    · exact absurd (List.mem_filter.2 ⟨List.mem_map_of_mem (List.mem_append.2 (.inr hx)), by simpa using hd x hx⟩) hn
  · rintro ⟨hx, _⟩
    simp only [List.append_nil, List.mem_singleton] at hx
    subst hx
    refine ⟨by simp, fun hc => ?_⟩
    have := (List.mem_filter.1 hc).2
    simp at this

/-- the item fits in the strip according to the engine of the empty strip -/
def stripKeeps (env : StripEnv K) (inst : SPInstance K) (b : Bin K n) (x : ℕ × DTransf K) : Bool :=
  b.baseCde.polyCollides env.f ((inst.cat x.1).shape.transform (Transf.fromDt env.tr x.2)) [] == some false

theorem SPProblem.Core.placeBacks {env : StripEnv K} (xs : List (ℕ × ℕ × DTransf K)) :
    ∀ {p : SPProblem K n}, p.Core env → (∀ x ∈ xs, x.2.1 < p.inst.items.length) → (xs.map (·.2)).Nodup →
      (∀ pi ∈ p.layout.placed.values, (pi.itemId, pi.dt) ∉ xs.map (·.2)) →
      ∃ l m, xs.foldlM (placeBack env.toEnv) p = some { p with layout := l, missing := m } ∧
        SPProblem.Core env { p with layout := l, missing := m } ∧
        l.id = p.layout.id ∧ l.bin = p.layout.bin ∧
        (l.placed.values.map fun pi => (pi.itemId, pi.dt)).Perm
          ((xs.map (·.2)).filter (stripKeeps env p.inst p.layout.bin) ++ p.layout.placed.values.map fun pi => (pi.itemId, pi.dt)) := by
  induction xs with
  | nil => intro p h _ _ _; exact ⟨p.layout, p.missing, rfl, h, rfl, rfl, by simp⟩
  | cons x xs ih =>
    intro p h hid hnd hnew
    have hx := hid x List.mem_cons_self
    have hx' : p.inst.items[x.2.1]? = some (p.inst.items[x.2.1]'hx) := List.getElem?_eq_getElem hx
    obtain ⟨c1, c2⟩ := h.cat hx'
    rw [c1] at c2
    rw [List.map_cons, List.nodup_cons] at hnd
    have hsp := h.layout.inv.strip_polyCollides h.layout.strip ((p.inst.items[x.2.1]'hx).1.shape.transform (Transf.fromDt env.tr x.2.2))
    obtain ⟨⟨b, hb⟩⟩ : Nonempty (∃ b, p.layout.cde.polyCollides env.f
        ((p.inst.items[x.2.1]'hx).1.shape.transform (Transf.fromDt env.tr x.2.2)) (ignoreList p.layout) = some b) :=
      ⟨h.layout.inv.reach.inv.polyCollides_some _ _⟩
    have hkeep : stripKeeps env p.inst p.layout.bin x.2 = !b := by
      unfold stripKeeps
      rw [← c2, ← hsp, hb]
      cases b <;> rfl
    rw [List.foldlM_cons]
    cases b with
    | true =>
      have e : placeBack env.toEnv p x = some p := by
        unfold placeBack
        rw [hx']
        dsimp only
        rw [hb]
      rw [e]
      obtain ⟨l, m, e1, e2, e3, e4, e5⟩ := ih h (fun y hy => hid y (List.mem_cons_of_mem _ hy)) hnd.2
        (fun pi hpi hc => hnew pi hpi (List.mem_cons_of_mem _ hc))
      refine ⟨l, m, e1, e2, e3, e4, ?_⟩
      rw [List.map_cons, List.filter_cons, hkeep]
      exact e5
    | false =>
      obtain ⟨k, l1, m1, f1, f2, f3, f4, _, _, f5⟩ := h.place x.1 (id := x.2.1) (dt := x.2.2) hx' (by
        rintro pi hpi ⟨ha, hb⟩
        refine hnew pi hpi ?_
        rw [ha, hb]
        exact List.mem_map_of_mem List.mem_cons_self)
      have e : placeBack env.toEnv p x = some { p with layout := l1, missing := m1 } := by
        unfold placeBack
        rw [hx']
        dsimp only
        rw [hb]
        dsimp only
        rw [f1]
        rfl
      rw [e]
      have hval : (l1.placed.values.map fun pi => (pi.itemId, pi.dt)).Perm (x.2 :: p.layout.placed.values.map fun pi => (pi.itemId, pi.dt)) := by
        have := f5.map fun pi : PlacedItem K => (pi.itemId, pi.dt)
        rw [List.map_cons] at this
        have he : ((PlacedItem.new env.toEnv x.1 (p.inst.items[x.2.1]'hx).1 x.2.2).itemId,
            (PlacedItem.new env.toEnv x.1 (p.inst.items[x.2.1]'hx).1 x.2.2).dt) = x.2 := by
          simp [PlacedItem.new, c1]
        rw [he] at this
        exact this
      obtain ⟨l, m, e1, e2, e3, e4, e5⟩ := ih f2 (fun y hy => hid y (List.mem_cons_of_mem _ hy)) hnd.2 (by
        intro pi hpi hc
        rcases List.mem_cons.1 (hval.mem_iff.1 (List.mem_map_of_mem (f := fun pi => (pi.itemId, pi.dt)) hpi)) with he | he
        · rw [he] at hc
          exact hnd.1 hc
        · obtain ⟨q, hq, he⟩ := List.mem_map.1 he
          refine hnew q hq ?_
          rw [he]
          exact List.mem_cons_of_mem _ hc)
      refine ⟨l, m, e1, e2, e3.trans f3, e4.trans f4, ?_⟩
      rw [List.map_cons, List.filter_cons, hkeep]
      rw [f4] at e5
      refine e5.trans ((List.Perm.append_left _ hval).trans ?_)
      simp

theorem missingOk_full (items : List (Item K × ℕ)) :
    MissingOk items (items.map fun (x : Item K × ℕ) => (x.2 : ℤ)) fun _ => 0 := by
  intro i
  rw [List.getElem?_map]
  cases items[i]? <;> simp

theorem copiesIn_empty : copiesIn (SlotMap.empty : SlotMap (PlacedItem K)) = fun _ => 0 := by
  funext i
  simp [copiesIn, SlotMap.values, SlotMap.empty]

theorem SPProblem.Core.modifyStrip {env : StripEnv K} {p : SPProblem K n} (h : p.Core env) (addr : ℕ) (addrs : ℕ → ℕ)
    {rect : AARect K} {b : Bin K n} (hb : Bin.fromStrip env.toEnv n addr env.stripValue rect = some b) :
    ∃ l m, p.modifyStrip env addr addrs rect = some { p with layout := l, missing := m, layoutCounter := p.layoutCounter + 1 } ∧
      SPProblem.Core env { p with layout := l, missing := m, layoutCounter := p.layoutCounter + 1 } ∧
      l.id = p.layoutCounter + 1 ∧ l.bin = b ∧
      (l.placed.values.map fun pi => (pi.itemId, pi.dt)).Perm
        ((p.layout.placed.values.map fun pi => (pi.itemId, pi.dt)).filter (stripKeeps env p.inst b)) := by
  have hst : b.IsStrip env := ⟨addr, rect, hb⟩
  have hc : SPProblem.Core env { p with
      layout := Layout.new (p.layoutCounter + 1) b, missing := p.inst.items.map fun (x : Item K × ℕ) => (x.2 : ℤ),
      layoutCounter := p.layoutCounter + 1 } :=
    ⟨h.built, ⟨Layout.inv_new _ _ hst.built, by simp [Layout.new, SlotMap.empty, SlotMap.values], hst⟩, by
      show MissingOk _ _ (copiesIn SlotMap.empty)
      rw [copiesIn_empty]
      exact missingOk_full _⟩
  have hmap : ((p.layout.placed.values.map fun pi => (pi.itemId, pi.dt)).zipIdx.map
      fun (x : (ℕ × DTransf K) × ℕ) => (addrs x.2, x.1)).map (·.2) = p.layout.placed.values.map fun pi => (pi.itemId, pi.dt) := by
    rw [List.map_map]
    exact List.zipIdx_map_fst 0 _
  obtain ⟨l, m, e1, e2, e3, e4, e5⟩ := SPProblem.Core.placeBacks
    ((p.layout.placed.values.map fun pi => (pi.itemId, pi.dt)).zipIdx.map fun (x : (ℕ × DTransf K) × ℕ) => (addrs x.2, x.1)) hc
    (by
      intro x hx
      have := List.mem_map_of_mem (f := (·.2)) hx
      rw [hmap] at this
      obtain ⟨pi, hpi, he⟩ := List.mem_map.1 this
      rw [← he]
      exact h.layout.items pi hpi)
    (by
      rw [hmap]
      have := h.layout.inv.nodup
      refine List.Nodup.of_map (fun x : ℕ × DTransf K => HazardEntity.placedItem x.1 x.2) ?_
      rw [List.map_map]
      exact this)
    (by simp [Layout.new, SlotMap.empty, SlotMap.values])
  refine ⟨l, m, ?_, e2, e3, e4, ?_⟩
  · unfold SPProblem.modifyStrip
    dsimp only
    rw [hb, Option.bind_some]
    exact e1
  · rw [hmap] at e5
    have e5 : (l.placed.values.map fun pi => (pi.itemId, pi.dt)).Perm
        (List.filter (stripKeeps env p.inst b) (p.layout.placed.values.map fun pi => (pi.itemId, pi.dt)) ++ []) := by
      simpa [Layout.new, SlotMap.empty, SlotMap.values] using e5
    rwa [List.append_nil] at e5

theorem SPState.inv_new {env : StripEnv K} {inst : SPInstance K} (h : inst.Built) {addr : ℕ} {width : K} {p : SPProblem K n}
    (hp : SPProblem.new env n addr inst width = some p) : SPState.Inv env ⟨p, []⟩ ∧ p.inst = inst := by
  unfold SPProblem.new at hp
  split at hp
  · cases hp
  rename_i rect hr
  obtain ⟨b, hb, rfl⟩ := Option.map_eq_some_iff.1 hp
  have hst : b.IsStrip env := ⟨addr, rect, hb⟩
  refine ⟨⟨⟨h, ⟨Layout.inv_new _ _ hst.built, by simp [Layout.new, SlotMap.empty, SlotMap.values], hst⟩, ?_⟩, by simp, ?_, ?_⟩, rfl⟩
  · show MissingOk _ _ (copiesIn SlotMap.empty)
    rw [copiesIn_empty]
    exact missingOk_full _
  · intro x hx y hy _
    simp only [SPState.known, List.flatMap_nil, List.mem_singleton] at hx hy
    rw [hx, hy]
  · intro x hx
    simp only [SPState.known, List.flatMap_nil, List.mem_singleton] at hx
    rw [hx]
    exact le_refl _

theorem SPState.Inv.update {env : StripEnv K} {st : SPState K n} (h : st.Inv env) {p' : SPProblem K n} (hc : p'.Core env)
    (hi : p'.inst = st.p.inst) (hcnt : st.p.layoutCounter ≤ p'.layoutCounter)
    (hk : (p'.layout.id, p'.layout.bin) ∈ st.known ∨ (p'.layout.id = p'.layoutCounter ∧ st.p.layoutCounter < p'.layoutCounter)) :
    SPState.Inv env ⟨p', st.sols⟩ := by
  have hsol : ∀ x ∈ (st.sols.flatMap fun s => s.snapshots.map fun sn => (sn.id, sn.bin)), x ∈ st.known :=
    fun x hx => List.mem_cons_of_mem _ hx
  refine ⟨hc, ?_, ?_, ?_⟩
  · intro s hs
    dsimp only at hs ⊢
    rw [hi]
    exact h.sols s hs
  · intro x hx y hy he
    rcases List.mem_cons.1 hx with rfl | hx <;> rcases List.mem_cons.1 hy with rfl | hy
    · rfl
    · rcases hk with hk | ⟨hk, hlt⟩
      · exact h.known _ hk _ (hsol y hy) he
      · have := h.fresh y (hsol y hy)
        dsimp only at he
        omega
    · rcases hk with hk | ⟨hk, hlt⟩
      · exact h.known _ (hsol x hx) _ hk he
      · have := h.fresh x (hsol x hx)
        dsimp only at he
        omega
    · exact h.known _ (hsol x hx) _ (hsol y hy) he
  · intro x hx
    rcases List.mem_cons.1 hx with rfl | hx
    · rcases hk with hk | ⟨hk, hlt⟩
      · exact (h.fresh _ hk).trans hcnt
      · exact hk.le
    · exact (h.fresh _ (hsol x hx)).trans hcnt

theorem SPState.Inv.createSolution {env : StripEnv K} {st : SPState K n} (h : st.Inv env) :
    ∃ s l, st.p.createSolution = some (s, { st.p with layout := l, solutionCounter := st.p.solutionCounter + 1 }) ∧
      SPState.Inv env ⟨{ st.p with layout := l, solutionCounter := st.p.solutionCounter + 1 }, st.sols ++ [s]⟩ ∧
      l.view = st.p.layout.view ∧ s.id = st.p.solutionCounter + 1 ∧
      ∃ sn, SPSolIn env st.p.inst s sn ∧ sn.view = st.p.layout.view := by
  obtain ⟨l, sn, e1, e2, e3, e4, e5, e6, e7, e8, e9, e10⟩ := h.core.layout.inv.createSnapshot
  have hsol : SPSolIn env st.p.inst ⟨st.p.solutionCounter + 1, [sn], problemUsage [l], placedQtys st.p.inst.qtys st.p.missing,
      st.p.inst.qtys, [0]⟩ sn := by
    refine ⟨rfl, ⟨e6, by rw [e9]; exact h.core.layout.items, by rw [e8]; exact h.core.layout.strip⟩, ?_, rfl, ?_⟩
    · intro i
      dsimp only
      rw [SPInstance.qtys, placedQtys_spec h.core.missing i, e9]
    · have : l.usage = sn.usage := by rw [e10]; unfold Layout.usage; rw [e4, e5]
      simp [problemUsage, fsum, this, e4, e8]
  have hv : l.view = st.p.layout.view := by unfold Layout.view; rw [e3, e4, e5]
  have hv' : sn.view = st.p.layout.view := by unfold Layout.view LayoutSnapshot.view; rw [e7, e8, e9]
  refine ⟨_, l, ?_, ?_, hv, rfl, sn, hsol, hv'⟩
  · unfold SPProblem.createSolution
    dsimp only
    rw [e1]
    rfl
  · have hk : ∀ x ∈ SPState.known (⟨{ st.p with layout := l, solutionCounter := st.p.solutionCounter + 1 },
        st.sols ++ [⟨st.p.solutionCounter + 1, [sn], problemUsage [l], placedQtys st.p.inst.qtys st.p.missing,
      st.p.inst.qtys, [0]⟩]⟩ : SPState K n), x ∈ st.known := by
      intro x hx
      unfold SPState.known at hx ⊢
      rw [List.flatMap_append, List.flatMap_singleton] at hx
      simp only [List.map_cons, List.map_nil, List.mem_cons, List.mem_append, List.not_mem_nil, or_false] at hx ⊢
      rw [e3, e4, e7, e8] at hx
      tauto
    refine ⟨⟨h.core.built, ⟨e2, by rw [e5]; exact h.core.layout.items, by rw [e4]; exact h.core.layout.strip⟩, ?_⟩, ?_, ?_, ?_⟩
    · dsimp only
      rw [e5]
      exact h.core.missing
    · intro s hs
      rcases List.mem_append.1 hs with hs | hs
      · exact h.sols s hs
      · rw [List.mem_singleton.1 hs]
        exact ⟨sn, hsol⟩
    · exact fun x hx y hy => h.known x (hk x hx) y (hk y hy)
    · exact fun x hx => h.fresh x (hk x hx)

theorem SPState.Inv.restore {env : StripEnv K} {st : SPState K n} (h : st.Inv env) {o : Solution K n} (ho : o ∈ st.sols)
    (hoc : env.overflowChecks = true →
      ∀ (i : ℕ) (x : Item K × ℕ) (c : ℕ), st.p.inst.items[i]? = some x → o.placed[i]? = some c → c ≤ x.2) :
    ∃ l m sn, o.snapshots = [sn] ∧ l.view = sn.view ∧
      st.p.restore env.toEnv o = some { st.p with layout := l, missing := m } ∧
      SPState.Inv env ⟨{ st.p with layout := l, missing := m }, st.sols⟩ := by
  obtain ⟨sn, hs⟩ := h.sols o ho
  obtain ⟨m, e', hm⟩ := missingOfSolution_spec h.core.missing hs.placed env.overflowChecks hoc
  have hkn : (sn.id, sn.bin) ∈ st.known := by
    refine List.mem_cons_of_mem _ (List.mem_flatMap.2 ⟨o, ho, ?_⟩)
    rw [hs.snaps]
    simp
  obtain ⟨l, e1, e2, e3, e4, e5⟩ : ∃ l, (if st.p.layout.id = sn.id then st.p.layout.restore env.toEnv sn
      else Layout.fromSnapshot env.toEnv sn) = some l ∧ l.Inv env.toEnv st.p.inst.cat ∧ l.id = sn.id ∧ l.bin = sn.bin ∧
      l.placed = sn.placed := by
    split_ifs with hid
    · obtain ⟨l, e1, e2, e3, e4, e5⟩ := h.core.layout.inv.restore hs.snap.valid hid
      refine ⟨l, e1, e2, e3, ?_, e5⟩
      rw [e4]
      exact h.known (_, _) List.mem_cons_self _ hkn hid
    · exact hs.snap.valid.fromSnapshot
  refine ⟨l, m, sn, hs.snaps, by unfold Layout.view LayoutSnapshot.view; rw [e3, e4, e5], ?_, ?_⟩
  · unfold SPProblem.restore
    rw [hs.snaps]
    dsimp only
    rw [e1, Option.bind_some]
    rw [SPInstance.qtys, e']
    rfl
  · refine h.update ⟨h.core.built, ⟨e2, by rw [e5]; exact hs.snap.items, by rw [e4]; exact hs.snap.strip⟩, ?_⟩ rfl (le_refl _) ?_
    · dsimp only
      rw [e5]
      exact hm
    · left
      dsimp only
      rw [e3, e4]
      exact hkn

/-- modifying the strip, if the new strip can be built -/
theorem SPState.Inv.modify {env : StripEnv K} {st : SPState K n} (h : st.Inv env) {addr : ℕ} {addrs : ℕ → ℕ} {rect : AARect K}
    {p' : SPProblem K n} (hp : st.p.modifyStrip env addr addrs rect = some p') :
    SPState.Inv env ⟨p', st.sols⟩ ∧ p'.inst = st.p.inst := by
  cases hb : Bin.fromStrip env.toEnv n addr env.stripValue rect with
  | none =>
    unfold SPProblem.modifyStrip at hp
    dsimp only at hp
    rw [hb] at hp
    cases hp
  | some b =>
    obtain ⟨l, m, e1, e2, e3, e4, _⟩ := h.core.modifyStrip addr addrs hb
    rw [e1] at hp
    obtain rfl := Option.some.inj hp
    exact ⟨h.update e2 rfl (Nat.le_succ _) (.inr ⟨e3, Nat.lt_succ_self _⟩), rfl⟩

theorem SPProblem.fitStrip_some {env : StripEnv K} {p p' : SPProblem K n} {addr : ℕ} {addrs : ℕ → ℕ}
    (h : p.fitStrip env addr addrs = some p') :
    p.modifyCentered env addr addrs (occupiedWidth p.layout * (1 + env.tolerance)) = some p' ∧
      p.layout.placed.len = p'.layout.placed.len := by
  unfold SPProblem.fitStrip at h
  obtain ⟨q, hq, h⟩ := Option.bind_eq_some_iff.1 h
  split_ifs at h with hl
  obtain rfl := Option.some.inj h
  exact ⟨hq, hl⟩

/-- Operations keep the invariant. -/
theorem SPOp.run_inv {env : StripEnv K} {st st' : SPState K n} (h : st.Inv env) {op : SPOp K} (hp : op.Pre env st)
    (hr : op.run env st = some st') : st'.Inv env ∧ st'.p.inst = st.p.inst ∧ ∃ t, st'.sols = st.sols ++ t := by
  have hm : ∀ {addr addrs rect p'}, st.p.modifyStrip env addr addrs rect = some p' →
      SPState.Inv env ⟨p', st.sols⟩ ∧ p'.inst = st.p.inst ∧ ∃ t, st.sols = st.sols ++ t :=
    fun hq => ⟨(h.modify hq).1, (h.modify hq).2, [], by simp⟩
  cases op with
  | place addr opt =>
    obtain ⟨h1, h2, h3⟩ := hp
    obtain ⟨idx, id, dt⟩ := opt
    dsimp only at h1 h2 h3
    subst h1
    obtain ⟨k, l', m, e1, e2, e3, e4, _⟩ := h.core.place addr (List.getElem?_eq_getElem h2) h3
    simp only [SPOp.run] at hr
    rw [e1] at hr
    obtain rfl := Option.some.inj hr
    exact ⟨h.update e2 rfl (le_refl _) (.inl (by dsimp only; rw [e3, e4]; exact List.mem_cons_self)), rfl, [], by simp⟩
  | remove idx key ci =>
    obtain ⟨rfl, pi, hk⟩ := hp
    obtain ⟨l', m, e1, e2, e3, e4, _⟩ := h.core.remove hk ci
    simp only [SPOp.run] at hr
    rw [e1] at hr
    obtain rfl := Option.some.inj hr
    exact ⟨h.update e2 rfl (le_refl _) (.inl (by dsimp only; rw [e3, e4]; exact List.mem_cons_self)), rfl, [], by simp⟩
  | modify addr addrs rect =>
    obtain ⟨q, hq, rfl⟩ := Option.map_eq_some_iff.1 hr
    exact hm hq
  | inBack addr addrs w =>
    obtain ⟨q, hq, rfl⟩ := Option.map_eq_some_iff.1 hr
    obtain ⟨r, _, hq⟩ := Option.bind_eq_some_iff.1 hq
    exact hm hq
  | atFront addr addrs w =>
    obtain ⟨q, hq, rfl⟩ := Option.map_eq_some_iff.1 hr
    obtain ⟨r, _, hq⟩ := Option.bind_eq_some_iff.1 hq
    exact hm hq
  | centered addr addrs w =>
    obtain ⟨q, hq, rfl⟩ := Option.map_eq_some_iff.1 hr
    obtain ⟨r, _, hq⟩ := Option.bind_eq_some_iff.1 hq
    exact hm hq
  | fit addr addrs =>
    obtain ⟨q, hq, rfl⟩ := Option.map_eq_some_iff.1 hr
    obtain ⟨r, _, hq⟩ := Option.bind_eq_some_iff.1 (SPProblem.fitStrip_some hq).1
    exact hm hq
  | solution =>
    obtain ⟨s, l, e1, e2, _⟩ := h.createSolution
    simp only [SPOp.run] at hr
    rw [e1] at hr
    obtain rfl := Option.some.inj hr
    exact ⟨e2, rfl, [s], rfl⟩
  | restore j =>
    obtain ⟨s, hs, hoc⟩ := hp
    obtain ⟨l, m, sn, _, _, e1, e2⟩ := h.restore (List.mem_of_getElem? hs) hoc
    simp only [SPOp.run] at hr
    rw [hs] at hr
    dsimp only at hr
    rw [e1] at hr
    obtain rfl := Option.some.inj hr
    exact ⟨e2, rfl, [], by simp⟩

theorem SPRun.inv {env : StripEnv K} {st st' : SPState K n} {ops : List (SPOp K)} (h : SPRun env st ops st') (hi : st.Inv env) :
    st'.Inv env ∧ st'.p.inst = st.p.inst ∧ ∃ t, st'.sols = st.sols ++ t := by
  induction h with
  | nil st => exact ⟨hi, rfl, [], by simp⟩
  | cons hp hr _ ih =>
    obtain ⟨h1, h2, t, h3⟩ := SPOp.run_inv hi hp hr
    obtain ⟨h4, h5, t', h6⟩ := ih h1
    exact ⟨h4, h5.trans h2, t ++ t', by rw [h6, h3, List.append_assoc]⟩

theorem SPState.Reachable.inv {env : StripEnv K} {st : SPState K n} (h : st.Reachable env) : st.Inv env := by
  obtain ⟨inst, addr, width, p, ops, h1, h2, h3⟩ := h
  exact (h3.inv (SPState.inv_new h1 h2).1).1

theorem SPRun.append {env : StripEnv K} {st st' st'' : SPState K n} {ops ops' : List (SPOp K)} (h : SPRun env st ops st')
    (h' : SPRun env st' ops' st'') : SPRun env st (ops ++ ops') st'' := by
  induction h with
  | nil => exact h'
  | cons hp hr _ ih => exact .cons hp hr (ih h')

theorem SPState.Reachable.run {env : StripEnv K} {st st' : SPState K n} (h : st.Reachable env) {ops : List (SPOp K)}
    (hr : SPRun env st ops st') : st'.Reachable env := by
  obtain ⟨inst, addr, width, p, ops', h1, h2, h3⟩ := h
  exact ⟨inst, addr, width, p, ops' ++ ops, h1, h2, h3.append hr⟩

/-! ## Runs where placements are checked -/

/-- fewer relevant hazards, fewer collisions -/
theorem CDE.Inv.polyCollides_mono {f : Fpa K} {c : CDE K n} (hi : c.Inv f) {s : SPoly K} {irr irr' : List (HazardEntity K)}
    (hsub : ∀ e ∈ irr, e ∈ irr') (h : c.polyCollides f s irr = some false) : c.polyCollides f s irr' = some false := by
  obtain ⟨b1, e1, s1⟩ := hi.byEdge s irr
  obtain ⟨b2, e2, s2⟩ := hi.byEdge s irr'
  obtain ⟨b3, e3, s3⟩ := hi.byContainment s irr
  obtain ⟨b4, e4, s4⟩ := hi.byContainment s irr'
  unfold CDE.polyCollides at h ⊢
  rw [e1, e3] at h
  rw [e2, e4]
  cases hrel : c.bbox.relationTo s.bbox with
  | surrounding =>
    rw [hrel] at h
    cases b1 with
    | true => simp at h
    | false =>
      dsimp only at h
      obtain rfl := Option.some.inj h
      have k2 : b2 = false := by
        by_contra hb
        obtain ⟨e, he, x, hx, hn, hc⟩ := s2.1 (by simpa using hb)
        have := s1.2 ⟨e, he, x, hx, fun hc => hn (hsub _ hc), hc⟩
        cases this
      have k4 : b4 = false := by
        by_contra hb
        obtain ⟨x, hx, ha, hn, hc⟩ := s4.1 (by simpa using hb)
        have := s3.2 ⟨x, hx, ha, fun hc => hn (hsub _ hc), hc⟩
        cases this
      rw [k2, k4]
  | disjoint => rw [hrel] at h; cases h
  | enclosed => rw [hrel] at h; cases h
  | intersecting => rw [hrel] at h; cases h

/-- all items fit in the strip they are in, also in the solutions -/
structure SPState.Inside (env : StripEnv K) (st : SPState K n) : Prop where
  layout : ∀ pi ∈ st.p.layout.placed.values, stripKeeps env st.p.inst st.p.layout.bin (pi.itemId, pi.dt) = true
  sols : ∀ s ∈ st.sols, ∀ sn ∈ s.snapshots, ∀ pi ∈ sn.placed.values, stripKeeps env st.p.inst sn.bin (pi.itemId, pi.dt) = true

theorem SPState.Inside.modify {env : StripEnv K} {st : SPState K n} (h : st.Inv env) (hi : st.Inside env) {addr : ℕ} {addrs : ℕ → ℕ}
    {rect : AARect K} {p' : SPProblem K n} (hp : st.p.modifyStrip env addr addrs rect = some p') :
    SPState.Inside env ⟨p', st.sols⟩ := by
  cases hb : Bin.fromStrip env.toEnv n addr env.stripValue rect with
  | none =>
    unfold SPProblem.modifyStrip at hp
    dsimp only at hp
    rw [hb] at hp
    cases hp
  | some b =>
    obtain ⟨l, m, e1, e2, e3, e4, e5⟩ := h.core.modifyStrip addr addrs hb
    rw [e1] at hp
    obtain rfl := Option.some.inj hp
    refine ⟨?_, hi.sols⟩
    intro pi hpi
    dsimp only
    rw [e4]
    exact (List.mem_filter.1 (e5.mem_iff.1 (List.mem_map_of_mem (f := fun pi => (pi.itemId, pi.dt)) hpi))).2

theorem SPOp.run_inside {env : StripEnv K} {st st' : SPState K n} (h : st.Inv env) (hi : st.Inside env) {op : SPOp K}
    (hp : op.Pre env st) (hc : op.Checked env st) (hr : op.run env st = some st') : st'.Inside env := by
  have hm : ∀ {addr addrs rect p'}, st.p.modifyStrip env addr addrs rect = some p' → SPState.Inside env ⟨p', st.sols⟩ :=
    fun hq => SPState.Inside.modify h hi hq
  cases op with
  | place addr opt =>
    obtain ⟨h1, h2, h3⟩ := hp
    obtain ⟨idx, id, dt⟩ := opt
    dsimp only at h1 h2 h3
    subst h1
    obtain ⟨k, l', m, e1, e2, e3, e4, _, _, e5⟩ := h.core.place addr (List.getElem?_eq_getElem h2) h3
    obtain ⟨c1, c2⟩ := h.core.cat (List.getElem?_eq_getElem h2)
    rw [c1] at c2
    have hc := hc _ (List.getElem?_eq_getElem h2)
    have hc := h.core.layout.inv.reach.inv.polyCollides_mono (irr' := SPProblem.ignoreList st.p.layout) (by simp) hc
    rw [h.core.layout.inv.strip_polyCollides h.core.layout.strip, c2] at hc
    simp only [SPOp.run] at hr
    rw [e1] at hr
    obtain rfl := Option.some.inj hr
    refine ⟨?_, hi.sols⟩
    intro pi hpi
    dsimp only at hpi ⊢
    rw [e4]
    rcases List.mem_cons.1 (e5.mem_iff.1 hpi) with rfl | hpi
    · unfold stripKeeps PlacedItem.new
      dsimp only
      rw [c1, beq_iff_eq]
      exact hc
    · exact hi.layout pi hpi
  | remove idx key ci =>
    obtain ⟨rfl, pi, hk⟩ := hp
    obtain ⟨l', m, e1, e2, e3, e4, _, e5⟩ := h.core.remove hk ci
    simp only [SPOp.run] at hr
    rw [e1] at hr
    obtain rfl := Option.some.inj hr
    refine ⟨?_, hi.sols⟩
    intro q hq
    dsimp only at hq ⊢
    rw [e4]
    exact hi.layout q (e5.mem_iff.2 (List.mem_cons_of_mem _ hq))
  | modify addr addrs rect =>
    obtain ⟨q, hq, rfl⟩ := Option.map_eq_some_iff.1 hr
    exact hm hq
  | inBack addr addrs w =>
    obtain ⟨q, hq, rfl⟩ := Option.map_eq_some_iff.1 hr
    obtain ⟨r, _, hq⟩ := Option.bind_eq_some_iff.1 hq
    exact hm hq
  | atFront addr addrs w =>
    obtain ⟨q, hq, rfl⟩ := Option.map_eq_some_iff.1 hr
    obtain ⟨r, _, hq⟩ := Option.bind_eq_some_iff.1 hq
    exact hm hq
  | centered addr addrs w =>
    obtain ⟨q, hq, rfl⟩ := Option.map_eq_some_iff.1 hr
    obtain ⟨r, _, hq⟩ := Option.bind_eq_some_iff.1 hq
    exact hm hq
  | fit addr addrs =>
    obtain ⟨q, hq, rfl⟩ := Option.map_eq_some_iff.1 hr
    obtain ⟨r, _, hq⟩ := Option.bind_eq_some_iff.1 (SPProblem.fitStrip_some hq).1
    exact hm hq
  | solution =>
    obtain ⟨s, l, e1, e2, e3, _, sn, e4, e5⟩ := h.createSolution
    simp only [SPOp.run] at hr
    rw [e1] at hr
    obtain rfl := Option.some.inj hr
    simp only [Layout.view, LayoutSnapshot.view, Prod.mk.injEq] at e3 e5
    constructor
    · intro pi hpi
      dsimp only at hpi ⊢
      rw [e3.2.2] at hpi
      rw [e3.2.1]
      exact hi.layout pi hpi
    · intro o ho
      rcases List.mem_append.1 ho with ho | ho
      · exact hi.sols o ho
      · rw [List.mem_singleton] at ho
        subst ho
        intro sn' hsn
        rw [e4.snaps, List.mem_singleton] at hsn
        subst hsn
        rw [e5.2.1, e5.2.2]
        exact hi.layout
  | restore j =>
    obtain ⟨s, hs, hoc⟩ := hp
    obtain ⟨l, m, sn, e0, ev, e1, e2⟩ := h.restore (List.mem_of_getElem? hs) hoc
    simp only [SPOp.run] at hr
    rw [hs] at hr
    dsimp only at hr
    rw [e1] at hr
    obtain rfl := Option.some.inj hr
    simp only [Layout.view, LayoutSnapshot.view, Prod.mk.injEq] at ev
    refine ⟨?_, hi.sols⟩
    intro pi hpi
    dsimp only at hpi ⊢
    rw [ev.2.2] at hpi
    rw [ev.2.1]
    exact hi.sols s (List.mem_of_getElem? hs) sn (by rw [e0]; exact List.mem_singleton_self _) pi hpi

theorem SPCheckedRun.run {env : StripEnv K} {st st' : SPState K n} {ops : List (SPOp K)} (h : SPCheckedRun env st ops st') :
    SPRun env st ops st' := by
  induction h with
  | nil => exact .nil _
  | cons hp _ hr _ ih => exact .cons hp hr ih

theorem SPState.CheckedReachable.reachable {env : StripEnv K} {st : SPState K n} (h : st.CheckedReachable env) : st.Reachable env := by
  obtain ⟨inst, addr, width, p, ops, h1, h2, h3⟩ := h
  exact ⟨inst, addr, width, p, ops, h1, h2, h3.run⟩

theorem SPState.CheckedReachable.inside {env : StripEnv K} {st : SPState K n} (h : st.CheckedReachable env) : st.Inside env := by
  obtain ⟨inst, addr, width, p, ops, h1, h2, h3⟩ := h
  have key : ∀ {st st' : SPState K n} {ops : List (SPOp K)}, SPCheckedRun env st ops st' → st.Inv env → st.Inside env →
      st'.Inside env := by
    intro st st' ops h
    induction h with
    | nil => exact fun _ h => h
    | cons hp hc hr _ ih => exact fun hv hi => ih (SPOp.run_inv hv hp hr).1 (SPOp.run_inside hv hi hp hc hr)
  refine key h3 (SPState.inv_new h1 h2).1 ⟨?_, by simp⟩
  unfold SPProblem.new at h2
  split at h2
  · cases h2
  obtain ⟨b, hb, rfl⟩ := Option.map_eq_some_iff.1 h2
  simp [Layout.new, SlotMap.empty, SlotMap.values]

end Jagua
