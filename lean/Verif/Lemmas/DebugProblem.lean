import Verif.Spec.Debug
import Verif.Lemmas.DebugLayout
import Verif.Lemmas.ProblemRun
import Verif.Lemmas.Strip
import Verif.Lemmas.PolyNew

/-!
# The checks of problems always succeed
-/

set_option linter.unusedSectionVars false

namespace Jagua

variable {K : Type*} [Field K] [LinearOrder K] [IsStrictOrderedRing K] {n : ℕ}

theorem mapM_congr_mem {α β : Type*} {f g : α → Option β} (l : List α) (h : ∀ a ∈ l, f a = g a) : l.mapM f = l.mapM g := by
  induction l with
  | nil => rfl
  | cons a l ih =>
    rw [List.mapM_cons, List.mapM_cons, h a List.mem_cons_self, ih fun x hx => h x (List.mem_cons_of_mem _ hx)]

theorem problemMatches_of {ls : List (Layout K n)} {s : Solution K n} (hnd : (s.snapshots.map (·.id)).Nodup)
    (hl : ∀ l ∈ ls, ∃ sn ∈ s.snapshots, l.view = sn.view) : problemMatchesSolution ls s = some true := by
  unfold problemMatchesSolution
  rw [anyM_some (g := fun _ => false)]
  · simp
  · intro l hll
    obtain ⟨sn, hsn, hv⟩ := hl l hll
    simp only [Layout.view, LayoutSnapshot.view, Prod.mk.injEq] at hv
    have hf : s.snapshots.find? (fun x => x.id = sn.id) = some sn := by
      generalize hf : s.snapshots.find? (fun x => x.id = sn.id) = r
      rcases r with _ | y
      · rw [List.find?_eq_none] at hf
        exact absurd (hf sn hsn) (by simp)
      · have h1 := List.mem_of_find?_eq_some hf
        have h2 := List.find?_some hf
        rw [List.inj_on_of_nodup_map hnd h1 hsn (by simpa using h2)]
    rw [hv.1, hf, Option.map_some]
    congr 1
    rw [Bool.not_eq_false']
    exact layoutsMatch_of (by rw [hv.2.1]) hv.2.2

theorem checkSolution_of {α : Type*} {ls : List (Layout K n)} {s : Solution K n} (hnd : (s.snapshots.map (·.id)).Nodup)
    (hl : ∀ l ∈ ls, ∃ sn ∈ s.snapshots, l.view = sn.view) (a : α) : BPProblem.checkSolution ls s a = some a := by
  unfold BPProblem.checkSolution
  rw [problemMatches_of hnd hl, Option.bind_some, assertThen_pos rfl]

/-! ## Bin packing -/

theorem LayoutIn.sized {env : Env K} {inst : BPInstance K n} {l : Layout K n} (h : LayoutIn env inst l) (hz : inst.Sized) :
    l.bin.outer.val.bbox.Valid := by
  obtain ⟨q, hq⟩ := h.bin
  exact hz _ (List.mem_of_getElem? hq)

theorem SnapshotIn.sized {env : Env K} {inst : BPInstance K n} {s : LayoutSnapshot K n} (h : SnapshotIn env inst s) (hz : inst.Sized) :
    s.bin.outer.val.bbox.Valid := by
  obtain ⟨q, hq⟩ := h.bin
  exact hz _ (List.mem_of_getElem? hq)

theorem BPState.Inv.placeRealDbg {env : Env K} {st : BPState K n} (h : st.Inv env) (hz : st.p.inst.Sized) (addr : ℕ) {i id : ℕ}
    {dt : DTransf K} {l : Layout K n} (hl : st.p.layouts[i]? = some l)
    (hnew : ∀ pi ∈ l.placed.values, ¬ (pi.itemId = id ∧ pi.dt = dt)) :
    st.p.placeItemDbg env addr ⟨.real i, id, dt⟩ = st.p.placeItem env addr ⟨.real i, id, dt⟩ := by
  have hin := h.layouts l (List.mem_of_getElem? hl)
  unfold BPProblem.placeItemDbg BPProblem.placeItem BPProblem.targetLayout
  rw [Option.bind_some, Option.bind_some]
  dsimp only
  rw [hl]
  cases hx : st.p.inst.items[id]? with
  | none => rfl
  | some x =>
    obtain ⟨c1, c2⟩ := catOf_id h.built.ids hx
    dsimp only
    rw [hin.inv.placeItemDbg (hin.sized hz) addr c2 (by intro pi hpi; rw [c1]; exact hnew pi hpi)]

theorem BPState.Inv.placeTemplateDbg {env : Env K} {st : BPState K n} (h : st.Inv env) (hz : st.p.inst.Sized) (addr : ℕ) {i id q : ℕ}
    {dt : DTransf K} (hq : st.p.binQtys[i]? = some q) (hpos : 0 < q) :
    st.p.placeItemDbg env addr ⟨.template i, id, dt⟩ = st.p.placeItem env addr ⟨.template i, id, dt⟩ := by
  obtain ⟨m, b, bin, k, e, hb, hI⟩ := h.targetTemplate hq hpos
  have hlast : (st.p.layouts ++ [Layout.new (st.p.layoutCounter + 1) bin])[st.p.layouts.length]? =
      some (Layout.new (st.p.layoutCounter + 1) bin) := by simp
  have := hI.placeRealDbg hz addr (i := st.p.layouts.length) (id := id) (dt := dt) hlast
    (by simp [Layout.new, SlotMap.empty, SlotMap.values])
  unfold BPProblem.placeItemDbg BPProblem.placeItem at this ⊢
  dsimp only at this ⊢
  rw [e]
  exact this

theorem BPState.Inv.removeDbg {env : Env K} {st : BPState K n} (h : st.Inv env) (hz : st.p.inst.Sized) (idx : LayoutIndex) (key : SlotKey)
    (ci : Bool) : st.p.removeItemDbg env idx key ci = st.p.removeItem env idx key ci := by
  unfold BPProblem.removeItemDbg BPProblem.removeItem
  cases idx with
  | template i => rfl
  | real i =>
    dsimp only
    cases hl : st.p.layouts[i]? with
    | none => rfl
    | some l =>
      have hin := h.layouts l (List.mem_of_getElem? hl)
      dsimp only
      rw [hin.inv.removeItemDbg (hin.sized hz)]

theorem BPState.Inv.createSolutionDbg {env : Env K} {st : BPState K n} (h : st.Inv env) (old : Option (Solution K n))
    (ho : ∀ o, old = some o → o ∈ st.sols ∧ st.p.refSolution = some o.id) :
    st.p.createSolutionDbg old = st.p.createSolution old := by
  have h1 : st.p.layouts.mapM (BPProblem.snapshotLayoutDbg st.p.unmodified old) =
      st.p.layouts.mapM (BPProblem.snapshotLayout st.p.unmodified old) := by
    refine mapM_congr_mem _ fun l hl => ?_
    unfold BPProblem.snapshotLayoutDbg BPProblem.snapshotLayout
    rw [(h.layouts l hl).inv.createSnapshotDbg]
    rfl
  obtain ⟨rs, e1, hF⟩ := mapM_forall₂ (R := SnapRel env st.p.inst) st.p.layouts
    (fun l hl => h.snapshotLayout hl old ho)
  unfold BPProblem.createSolutionDbg BPProblem.createSolution
  dsimp only
  rw [if_pos (fun o h' => (ho o h').2), if_pos (fun o h' => (ho o h').2), h1, e1, Option.bind_some, Option.map_some]
  refine checkSolution_of ?_ ?_ _
  · have hv2 : (rs.map (·.2)).map LayoutSnapshot.view = st.p.layouts.map Layout.view := by
      rw [List.map_map]
      exact (Forall₂.map_eq hF (f := Layout.view) (g := fun r => r.2.view) fun a b r => r.snapView.symm).symm
    have hids2 : (rs.map (·.2)).map (·.id) = st.p.layouts.map (·.id) := by
      have := congrArg (List.map (·.1)) hv2
      simp only [List.map_map] at this ⊢
      exact this
    dsimp only
    rw [hids2]
    exact h.nodup
  · intro l hl
    obtain ⟨r, hr', rfl⟩ := List.mem_map.1 hl
    obtain ⟨l0, _, hR⟩ := Forall₂.exists_left hF hr'
    exact ⟨r.2, List.mem_map_of_mem hr', hR.view.trans hR.snapView.symm⟩

theorem BPState.Inv.restoreMissingDbg {env : Env K} {st : BPState K n} (h : st.Inv env) (hz : st.p.inst.Sized) {o : Solution K n}
    (ho : o ∈ st.sols) (present : List ℕ) (snaps : List (LayoutSnapshot K n)) (hs : ∀ s ∈ snaps, s ∈ o.snapshots) :
    ∀ (x : List (Layout K n) × List (Layout K n)), (∀ l ∈ x.2, l ∈ st.p.removed) →
      snaps.foldlM (BPProblem.restoreMissingDbg env present) x = snaps.foldlM (BPProblem.restoreMissing env present) x := by
  induction snaps with
  | nil => intro x _; rfl
  | cons s snaps ih =>
    intro x hR
    have ih := ih fun x hx => hs x (List.mem_cons_of_mem _ hx)
    have hso := hs s List.mem_cons_self
    have hsn := (h.sols o ho).snaps s hso
    have e : BPProblem.restoreMissingDbg env present x s = BPProblem.restoreMissing env present x s := by
      unfold BPProblem.restoreMissingDbg BPProblem.restoreMissing
      split_ifs with hp
      · rfl
      generalize hf : List.findIdx? _ x.2 = r
      rcases r with _ | i
      · dsimp only
        rw [hsn.valid.fromSnapshotDbg (hsn.sized hz)]
      · dsimp only
        obtain ⟨hi, hid, _⟩ := List.findIdx?_eq_some_iff_getElem.1 hf
        have hmem : x.2[i] ∈ st.p.removed := hR _ (List.getElem_mem hi)
        have hid : x.2[i].id = s.id := by simpa using hid
        have hbin : x.2[i].bin = s.bin :=
          h.known (x.2[i].id, x.2[i].bin) (BPState.known_removed hmem) (s.id, s.bin) (BPState.known_snap ho hso) hid
        rw [List.getElem?_eq_getElem hi]
        dsimp only
        rw [(h.removed _ hmem).inv.restoreDbg_eq ((h.removed _ hmem).sized hz) hsn.valid (by rw [hbin])]
    rw [List.foldlM_cons, List.foldlM_cons, e]
    cases hr : BPProblem.restoreMissing env present x s with
    | none => rfl
    | some y =>
      refine ih y ?_
      unfold BPProblem.restoreMissing at hr
      split_ifs at hr with hp
      · cases hr
        exact hR
      revert hr
      generalize hf : List.findIdx? _ x.2 = r
      intro hr
      rcases r with _ | i
      · dsimp only at hr
        obtain ⟨l, _, rfl⟩ := Option.map_eq_some_iff.1 hr
        exact hR
      · obtain ⟨hi, _⟩ := List.findIdx?_eq_some_iff_getElem.1 hf
        dsimp only at hr
        rw [List.getElem?_eq_getElem hi] at hr
        dsimp only at hr
        obtain ⟨l, _, rfl⟩ := Option.map_eq_some_iff.1 hr
        exact fun z hz => hR z ((swapRemove_perm (List.getElem?_eq_getElem hi)).mem_iff.2 (List.mem_cons_of_mem _ hz))

theorem BPState.Inv.restoreLayoutsDbg {env : Env K} {st : BPState K n} (h : st.Inv env) (hz : st.p.inst.Sized) {o : Solution K n}
    (ho : o ∈ st.sols) : BPProblem.restoreLayoutsDbg env st.p o = BPProblem.restoreLayouts env st.p o := by
  unfold BPProblem.restoreLayoutsDbg BPProblem.restoreLayouts
  split_ifs with hr
  · exact mapM_congr_mem _ fun s hs => ((h.sols o ho).snaps s hs).valid.fromSnapshotDbg (((h.sols o ho).snaps s hs).sized hz)
  · have e1 : st.p.layouts.mapM (BPProblem.restoreCommonDbg env st.p.unmodified o.snapshots) =
        st.p.layouts.mapM (BPProblem.restoreCommon env st.p.unmodified o.snapshots) := by
      refine mapM_congr_mem _ fun l hl => ?_
      have hin := h.layouts l hl
      unfold BPProblem.restoreCommonDbg BPProblem.restoreCommon
      generalize hf : List.find? _ o.snapshots = r
      rcases r with _ | s
      · rfl
      dsimp only
      have hs := List.mem_of_find?_eq_some hf
      have hid : s.id = l.id := by simpa using List.find?_some hf
      have hbin : s.bin = l.bin :=
        h.known (s.id, s.bin) (BPState.known_snap ho hs) (l.id, l.bin) (BPState.known_layout hl) hid
      rw [hin.inv.restoreDbg_eq (hin.sized hz) ((h.sols o ho).snaps s hs).valid (by rw [hbin])]
    rw [e1]
    congr 1
    funext ls
    dsimp only
    rw [h.restoreMissingDbg hz ho _ o.snapshots (fun s hs => hs) _ (fun l hl => hl)]

theorem BPState.Inv.restoreSolDbg {env : Env K} {st : BPState K n} (h : st.Inv env) (hz : st.p.inst.Sized) {o : Solution K n}
    (ho : o ∈ st.sols) : st.p.restoreDbg env o = st.p.restore env o := by
  obtain ⟨ls, e1, e2, e3⟩ := h.restoreLayouts ho
  unfold BPProblem.restoreDbg BPProblem.restore
  rw [h.restoreLayoutsDbg hz ho, e1, Option.bind_some, Option.bind_some]
  congr 1
  funext m
  split_ifs
  · rfl
  refine checkSolution_of (h.sols o ho).nodup (fun l hl => ?_) _
  obtain ⟨sn, hsn, he⟩ := List.mem_map.1 (e3.mem_iff.1 (List.mem_map_of_mem (f := Layout.view) hl))
  exact ⟨sn, hsn, he.symm⟩

theorem BPOp.runDbg_eq {env : Env K} {st : BPState K n} (h : st.Inv env) (hz : st.p.inst.Sized) {op : BPOp K n} (hp : op.Pre env st) :
    op.runDbg env st = op.run env st := by
  cases op with
  | place addr opt =>
    obtain ⟨idx, id, dt⟩ := opt
    unfold BPOp.runDbg BPOp.run
    cases idx with
    | real i =>
      obtain ⟨_, l, hl, hnew⟩ := hp
      dsimp only
      rw [h.placeRealDbg hz addr hl hnew]
    | template i =>
      obtain ⟨_, q, hq, hpos⟩ := hp
      dsimp only
      rw [h.placeTemplateDbg hz addr hq hpos]
  | remove idx key ci =>
    unfold BPOp.runDbg BPOp.run
    dsimp only
    rw [h.removeDbg hz]
  | registerLayout l => rfl
  | deregisterLayout idx => rfl
  | solution hint =>
    cases hint with
    | none =>
      unfold BPOp.runDbg BPOp.run
      dsimp only
      rw [h.createSolutionDbg none (by simp)]
    | some j =>
      obtain ⟨s, hs, hr⟩ := hp j rfl
      unfold BPOp.runDbg BPOp.run
      dsimp only
      rw [hs]
      dsimp only
      rw [h.createSolutionDbg (some s) (by rintro o ⟨⟩; exact ⟨List.mem_of_getElem? hs, hr⟩)]
  | restore j =>
    obtain ⟨s, hs, _⟩ := hp
    unfold BPOp.runDbg BPOp.run
    dsimp only
    rw [hs]
    dsimp only
    rw [h.restoreSolDbg hz (List.mem_of_getElem? hs)]

/-! ## Strip packing -/

theorem SPoly.ofRect_valid {poi : List (Point K) → Circle K} {r : AARect K} {s : SPoly K} (h : SPoly.ofRect poi r = some s) :
    s.bbox.Valid := (SPoly.new_wf h).bbox_valid

theorem Bin.IsStrip.sized {env : StripEnv K} {b : Bin K n} (h : b.IsStrip env) : b.outer.val.bbox.Valid ∧ b.id = 0 := by
  obtain ⟨addr, rect, hb⟩ := h
  obtain ⟨poly, h1, h2, h3, _⟩ := Bin.fromStrip_spec hb
  rw [h3]
  exact ⟨SPoly.ofRect_valid h1, h2⟩

theorem Bin.fromStripDbg_eq (env : Env K) (addr : ℕ) (value : SPoly K → ℕ) (rect : AARect K) :
    Bin.fromStripDbg env n addr value rect = Bin.fromStrip env n addr value rect := by
  unfold Bin.fromStripDbg Bin.fromStrip
  cases h : SPoly.ofRect env.poi rect with
  | none => rfl
  | some poly => exact Bin.newDbg_eq env 0 (outer := ⟨addr, poly⟩) (SPoly.ofRect_valid h) _ _ _ _

theorem SPProblem.newDbg_eq {env : StripEnv K} (hoc : env.overflowChecks = true) (addr : ℕ) (inst : SPInstance K) (width : K) :
    SPProblem.newDbg env n addr inst width = SPProblem.new env n addr inst width := by
  unfold SPProblem.newDbg SPProblem.new
  rw [hoc]
  cases AARect.new true 0 0 width inst.stripHeight with
  | none => rfl
  | some rect =>
    dsimp only
    rw [Bin.fromStripDbg_eq]

theorem SPProblem.Core.placeDbg {env : StripEnv K} {p : SPProblem K n} (h : p.Core env) (addr : ℕ) (opt : PlacingOption K)
    (hnew : ∀ pi ∈ p.layout.placed.values, ¬ (pi.itemId = opt.itemId ∧ pi.dt = opt.dt)) :
    p.placeItemDbg env.toEnv addr opt = p.placeItem env.toEnv addr opt := by
  unfold SPProblem.placeItemDbg SPProblem.placeItem
  split_ifs
  · rfl
  cases hx : p.inst.items[opt.itemId]? with
  | none => rfl
  | some x =>
    obtain ⟨c1, c2⟩ := h.cat hx
    dsimp only
    rw [h.layout.inv.placeItemDbg h.layout.strip.sized.1 addr c2 (by intro pi hpi; rw [c1]; exact hnew pi hpi)]

theorem SPProblem.Core.removeDbg {env : StripEnv K} {p : SPProblem K n} (h : p.Core env) (idx : LayoutIndex) (key : SlotKey)
    (ci : Bool) : p.removeItemDbg env.toEnv idx key ci = p.removeItem env.toEnv idx key ci := by
  unfold SPProblem.removeItemDbg SPProblem.removeItem
  rw [h.layout.inv.removeItemDbg h.layout.strip.sized.1]

theorem SPProblem.Core.placeBackDbg {env : StripEnv K} {p : SPProblem K n} (h : p.Core env) (x : ℕ × ℕ × DTransf K)
    (hnew : ∀ pi ∈ p.layout.placed.values, (pi.itemId, pi.dt) ≠ x.2) :
    p.placeBackDbg env.toEnv x = p.placeBack env.toEnv x := by
  unfold SPProblem.placeBackDbg SPProblem.placeBack
  cases hx : p.inst.items[x.2.1]? with
  | none => rfl
  | some item =>
    dsimp only
    rw [CDE.polyCollidesDbg_eq h.layout.inv.reach.inv, h.placeDbg x.1 ⟨.real 0, x.2.1, x.2.2⟩ (by
      rintro pi hpi ⟨h1, h2⟩
      exact hnew pi hpi (Prod.ext h1 h2))]
    rfl

theorem SPProblem.Core.placeBacksDbg {env : StripEnv K} (xs : List (ℕ × ℕ × DTransf K)) :
    ∀ {p : SPProblem K n}, p.Core env → (∀ x ∈ xs, x.2.1 < p.inst.items.length) → (xs.map (·.2)).Nodup →
      (∀ pi ∈ p.layout.placed.values, (pi.itemId, pi.dt) ∉ xs.map (·.2)) →
      xs.foldlM (SPProblem.placeBackDbg env.toEnv) p = xs.foldlM (SPProblem.placeBack env.toEnv) p := by
  induction xs with
  | nil => intro p _ _ _ _; rfl
  | cons x xs ih =>
    intro p h hid hnd hnew
    rw [List.map_cons, List.nodup_cons] at hnd
    rw [List.foldlM_cons, List.foldlM_cons, h.placeBackDbg x fun pi hpi he =>
      hnew pi hpi (by rw [he]; exact List.mem_map_of_mem List.mem_cons_self)]
    obtain ⟨l, m, e1, e2, _, e4, e5⟩ := SPProblem.Core.placeBacks [x] h
      (fun y hy => hid y (by rw [List.mem_singleton.1 hy]; exact List.mem_cons_self)) (by simp)
      (fun pi hpi hc => hnew pi hpi (by
        rw [List.map_cons, List.map_nil, List.mem_singleton] at hc
        rw [hc]; exact List.mem_map_of_mem List.mem_cons_self))
    have e1' : p.placeBack env.toEnv x = some { p with layout := l, missing := m } := by
      rw [List.foldlM_cons] at e1
      cases hb : p.placeBack env.toEnv x with
      | none => rw [hb] at e1; cases e1
      | some q => rw [hb] at e1; exact e1
    rw [e1']
    refine ih e2 (fun y hy => hid y (List.mem_cons_of_mem _ hy)) hnd.2 ?_
    intro pi hpi hc
    have := e5.mem_iff.1 (List.mem_map_of_mem (f := fun pi => (pi.itemId, pi.dt)) hpi)
    rcases List.mem_append.1 this with hm | hm
    · have hm := List.mem_of_mem_filter hm
      rw [List.map_cons, List.map_nil, List.mem_singleton] at hm
      rw [hm] at hc
      exact hnd.1 hc
    · obtain ⟨q, hq, he⟩ := List.mem_map.1 hm
      refine hnew q hq ?_
      rw [he]
      exact List.mem_cons_of_mem _ hc

theorem SPProblem.Core.modifyStripDbg {env : StripEnv K} {p : SPProblem K n} (h : p.Core env) (addr : ℕ) (addrs : ℕ → ℕ)
    (rect : AARect K) : p.modifyStripDbg env addr addrs rect = p.modifyStrip env addr addrs rect := by
  unfold SPProblem.modifyStripDbg SPProblem.modifyStrip
  dsimp only
  rw [Bin.fromStripDbg_eq]
  cases hb : Bin.fromStrip env.toEnv n addr env.stripValue rect with
  | none => rfl
  | some b =>
    rw [Option.bind_some, Option.bind_some]
    have hst : b.IsStrip env := ⟨addr, rect, hb⟩
    have hc : SPProblem.Core env { p with
        layout := Layout.new (p.layoutCounter + 1) b, missing := p.inst.items.map fun (x : Item K × ℕ) => (x.2 : ℤ),
        layoutCounter := p.layoutCounter + 1 } :=
      ⟨h.built, ⟨Layout.inv_new _ _ hst.built, by simp [Layout.new, SlotMap.empty, SlotMap.values], hst⟩, by
        show MissingOk _ _ (copiesIn SlotMap.empty)
        rw [copiesIn_empty]
        exact missingOk_full _⟩
    have hmap : ((p.layout.placed.values.map fun pi => (pi.itemId, pi.dt)).zipIdx.map
        fun (x : (ℕ × DTransf K) × ℕ) => (addrs x.2, x.1)).map (·.2) = p.layout.placed.values.map fun pi => (pi.itemId, pi.dt) := by
      rw [List.map_map]
      exact List.zipIdx_map_fst 0 _
    refine SPProblem.Core.placeBacksDbg _ hc ?_ ?_ ?_
    · intro x hx
      have := List.mem_map_of_mem (f := (·.2)) hx
      rw [hmap] at this
      obtain ⟨pi, hpi, he⟩ := List.mem_map.1 this
      rw [← he]
      exact h.layout.items pi hpi
    · rw [hmap]
      have := h.layout.inv.nodup
      refine List.Nodup.of_map (fun x : ℕ × DTransf K => HazardEntity.placedItem x.1 x.2) ?_
      rw [List.map_map]
      exact this
    · simp [Layout.new, SlotMap.empty, SlotMap.values]

theorem bind_congr_fun {α β : Type*} (o : Option α) {f g : α → Option β} (h : ∀ a, f a = g a) : o.bind f = o.bind g := by
  cases o with
  | none => rfl
  | some a => exact h a

theorem SPProblem.Core.modifyCenteredDbg {env : StripEnv K} {p : SPProblem K n} (h : p.Core env) (hoc : env.overflowChecks = true)
    (addr : ℕ) (addrs : ℕ → ℕ) (w : K) : p.modifyCenteredDbg env addr addrs w = p.modifyCentered env addr addrs w := by
  unfold SPProblem.modifyCenteredDbg SPProblem.modifyCentered
  rw [hoc]
  exact bind_congr_fun _ (h.modifyStripDbg addr addrs)

theorem SPState.Inv.createSolutionDbg {env : StripEnv K} {st : SPState K n} (h : st.Inv env) :
    st.p.createSolutionDbg = st.p.createSolution := by
  obtain ⟨l, sn, e1, e2, e3, e4, e5, e6, e7, e8, e9, e10⟩ := h.core.layout.inv.createSnapshot
  unfold SPProblem.createSolutionDbg SPProblem.createSolution
  dsimp only
  rw [h.core.layout.inv.createSnapshotDbg, e1, Option.bind_some, Option.map_some]
  refine checkSolution_of (by simp) ?_ _
  intro l' hl'
  rw [List.mem_singleton] at hl'
  subst hl'
  refine ⟨sn, by simp, ?_⟩
  unfold Layout.view LayoutSnapshot.view
  rw [e3, e4, e5, e7, e8, e9]

theorem SPState.Inv.restoreDbg {env : StripEnv K} {st : SPState K n} (h : st.Inv env) {o : Solution K n} (ho : o ∈ st.sols) :
    st.p.restoreDbg env.toEnv o = st.p.restore env.toEnv o := by
  obtain ⟨sn, hs⟩ := h.sols o ho
  have hkn : (sn.id, sn.bin) ∈ st.known := by
    refine List.mem_cons_of_mem _ (List.mem_flatMap.2 ⟨o, ho, ?_⟩)
    rw [hs.snaps]
    simp
  have e0 : (if st.p.layout.id = sn.id then st.p.layout.restoreDbg env.toEnv sn else Layout.fromSnapshotDbg env.toEnv sn) =
      (if st.p.layout.id = sn.id then st.p.layout.restore env.toEnv sn else Layout.fromSnapshot env.toEnv sn) := by
    rw [h.core.layout.inv.restoreDbg_eq h.core.layout.strip.sized.1 hs.snap.valid
      (h.core.layout.strip.sized.2.trans hs.snap.strip.sized.2.symm), hs.snap.valid.fromSnapshotDbg hs.snap.strip.sized.1]
  obtain ⟨l, e1, e2, e3, e4, e5⟩ : ∃ l, (if st.p.layout.id = sn.id then st.p.layout.restore env.toEnv sn
      else Layout.fromSnapshot env.toEnv sn) = some l ∧ l.Inv env.toEnv st.p.inst.cat ∧ l.id = sn.id ∧ l.bin = sn.bin ∧
      l.placed = sn.placed := by
    split_ifs with hid
    · obtain ⟨l, e1, e2, e3, e4, e5⟩ := h.core.layout.inv.restore hs.snap.valid hid
      refine ⟨l, e1, e2, e3, ?_, e5⟩
      rw [e4]
      exact h.known (_, _) List.mem_cons_self _ hkn hid
    · exact hs.snap.valid.fromSnapshot
  unfold SPProblem.restoreDbg SPProblem.restore
  rw [hs.snaps, assertThen_pos (c := decide ([sn].length = 1)) rfl]
  dsimp only
  rw [e0, e1, Option.bind_some, Option.bind_some]
  cases missingOfSolution env.overflowChecks st.p.inst.qtys o.placed st.p.missing with
  | none => rfl
  | some m =>
    rw [Option.bind_some, Option.map_some]
    refine checkSolution_of (by rw [hs.snaps]; simp) ?_ _
    intro l' hl'
    rw [List.mem_singleton] at hl'
    subst hl'
    refine ⟨sn, by rw [hs.snaps]; simp, ?_⟩
    unfold Layout.view LayoutSnapshot.view
    rw [e3, e4, e5]

theorem SPOp.runDbg_eq {env : StripEnv K} {st : SPState K n} (h : st.Inv env) (hoc : env.overflowChecks = true) {op : SPOp K}
    (hp : op.Pre env st) : op.runDbg env st = op.run env st := by
  cases op with
  | place addr opt => simp only [SPOp.runDbg, SPOp.run]; rw [h.core.placeDbg addr opt hp.2.2]
  | remove idx key ci => simp only [SPOp.runDbg, SPOp.run]; rw [h.core.removeDbg]
  | modify addr addrs rect => simp only [SPOp.runDbg, SPOp.run]; rw [h.core.modifyStripDbg]
  | inBack addr addrs w =>
    simp only [SPOp.runDbg, SPOp.run]
    unfold SPProblem.modifyInBackDbg SPProblem.modifyInBack
    rw [hoc]
    dsimp only
    rw [bind_congr_fun _ (h.core.modifyStripDbg addr addrs)]
  | atFront addr addrs w =>
    simp only [SPOp.runDbg, SPOp.run]
    unfold SPProblem.modifyAtFrontDbg SPProblem.modifyAtFront
    rw [hoc]
    dsimp only
    rw [bind_congr_fun _ (h.core.modifyStripDbg addr addrs)]
  | centered addr addrs w =>
    simp only [SPOp.runDbg, SPOp.run]
    rw [h.core.modifyCenteredDbg hoc]
  | fit addr addrs =>
    simp only [SPOp.runDbg, SPOp.run]
    unfold SPProblem.fitStripDbg SPProblem.fitStrip
    rw [h.core.modifyCenteredDbg hoc]
  | solution => simp only [SPOp.runDbg, SPOp.run]; rw [h.createSolutionDbg]
  | restore j =>
    obtain ⟨s, hs, _⟩ := hp
    simp only [SPOp.runDbg, SPOp.run]
    rw [hs]
    dsimp only
    rw [h.restoreDbg (List.mem_of_getElem? hs)]

end Jagua
