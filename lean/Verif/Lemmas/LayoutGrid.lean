import Verif.Spec.LayoutGrid
import Verif.Lemmas.LBFGridSkip
import Verif.Lemmas.HPGTotal
import Verif.Props.HPG

/-! # Layouts with proximity grids -/

set_option linter.unusedSectionVars false

namespace Jagua

section

variable {K : Type*} [Arith K] [LinearOrder K] {n : ℕ}

/-- hazards by entity; entities that are not placed items stand for the first item, so that all can be registered -/
def gridHaz (env : Env K) (cat : ℕ → Item K) : HazardEntity K → Hazard K
  | .placedItem id dt => catHaz env cat (.placedItem id dt)
  | _ => catHaz env cat (.placedItem 0 ⟨0, 0, 0⟩)

theorem PlacedItem.Ok.gridHaz {env : Env K} {cat : ℕ → Item K} {pi : PlacedItem K} (h : pi.Ok env cat) :
    pi.haz.erase = gridHaz env cat pi.haz.entity := h.haz

/-- the engine of a new bin with its grid -/
theorem Bin.Built.newGrid {env : Env K} {bin : Bin K n} (hb : bin.Built env) {henv : HEnv K} (hf : henv.f = env.f) {nCells : ℕ} {g : Option (HPG K)}
    (hg : bin.newGrid henv nCells = some g) : HCDE.new henv env.o n bin.baseCde.bbox bin.baseCde.statics nCells = some ⟨bin.baseCde, g⟩ := by
  obtain ⟨id, outer, value, pre, holes, zones, hb⟩ := hb
  have hnew : CDE.new henv.f env.o n bin.baseCde.bbox bin.baseCde.statics = some bin.baseCde := by
    rw [hf]
    unfold Bin.new at hb
    split_ifs at hb
    obtain ⟨c, hc, he⟩ := Option.map_eq_some_iff.1 hb
    rw [← he]
    dsimp only
    have := hc
    unfold CDE.new at this
    split at this
    · cases this
    · cases this
      exact hc
  unfold HCDE.new
  unfold Bin.newGrid at hg
  rw [hg, hnew]
  rfl

theorem Bin.newGrid_clean {bin : Bin K n} {henv : HEnv K} {nCells : ℕ} {g : HPG K} (hg : bin.newGrid henv nCells = some (some g)) : g.isDirty = false := by
  unfold Bin.newGrid at hg
  split_ifs at hg
  · cases hg
  obtain ⟨g', h2, h1⟩ := Option.map_eq_some_iff.1 hg
  cases h1
  unfold HPG.isDirty
  rw [(HPG.new_cells h2).2.1]
  rfl

theorem Bin.Built.statics_nodup {env : Env K} {bin : Bin K n} (hb : bin.Built env) : (bin.baseCde.statics.map (·.entity)).Nodup := by
  have := hb.base.1.inv.distinct
  rw [List.append_assoc, List.nodup_append] at this
  exact this.1

/-! ## The engine inside -/

theorem HCDE.register_cde {henv : HEnv K} {o : SearchOracle K} {c c' : HCDE K n} {h : Hazard K} (e : c.register henv o h = some c') :
    c.cde.register henv.f o h = some c'.cde := by
  unfold HCDE.register at e
  obtain ⟨cde, h1, e⟩ := Option.bind_eq_some_iff.1 e
  obtain ⟨hpg, -, rfl⟩ := Option.map_eq_some_iff.1 e
  exact h1

theorem HCDE.deregister_cde {henv : HEnv K} {o : SearchOracle K} {c c' : HCDE K n} {x : HazardEntity K} {ci : Bool} (e : c.deregister henv o x ci = some c') :
    c.cde.deregister o x ci = some c'.cde := by
  unfold HCDE.deregister at e
  obtain ⟨cde, h1, e⟩ := Option.bind_eq_some_iff.1 e
  obtain ⟨hpg, -, rfl⟩ := Option.map_eq_some_iff.1 e
  exact h1

theorem HCDE.flush_cde {henv : HEnv K} {c c' : HCDE K n} (e : c.flush henv = some c') : c'.cde = c.cde := by
  unfold HCDE.flush at e
  obtain ⟨hpg, -, rfl⟩ := Option.map_eq_some_iff.1 e
  rfl

theorem HCDE.snapshot_cde {henv : HEnv K} {c : HCDE K n} {r : HCDE K n × HSnap K} (e : c.createSnapshot henv = some r) :
    c.commit henv = some r.1 ∧ c.cde.createSnapshot = some (r.1.cde, r.2.dynamics) := by
  unfold HCDE.createSnapshot at e
  obtain ⟨c', h1, e⟩ := Option.bind_eq_some_iff.1 e
  split_ifs at e
  cases e
  refine ⟨h1, ?_⟩
  unfold HCDE.commit at h1
  obtain ⟨cde, h2, h1⟩ := Option.bind_eq_some_iff.1 h1
  unfold CDE.createSnapshot
  rw [h2, HCDE.flush_cde h1]
  rfl

theorem HCDE.restore_cde {henv : HEnv K} {o : SearchOracle K} {c c' : HCDE K n} {s : HSnap K} (e : c.restore henv o s = some c') :
    c.cde.restore henv.f o s.dynamics = some c'.cde := by
  unfold HCDE.restore at e
  obtain ⟨cde, h1, e⟩ := Option.bind_eq_some_iff.1 e
  obtain ⟨hpg, -, rfl⟩ := Option.map_eq_some_iff.1 e
  exact h1

theorem HCDE.registers_cde {henv : HEnv K} {env : Env K} (hf : henv.f = env.f) : ∀ {ps : List (PlacedItem K)} {c c' : HCDE K n},
    ps.foldlM (fun (c : HCDE K n) pi => c.register henv env.o (Hazard.new pi.entity pi.shape)) c = some c' →
    ps.foldlM (fun (c : CDE K n) pi => c.register env.f env.o (Hazard.new pi.entity pi.shape)) c.cde = some c'.cde
  | [], c, c', h => by cases h; rfl
  | p :: ps, c, c', h => by
    rw [List.foldlM_cons] at h ⊢
    obtain ⟨c1, h1, h⟩ := Option.bind_eq_some_iff.1 h
    have := HCDE.register_cde h1
    rw [hf] at this
    rw [this]
    exact HCDE.registers_cde hf h

/-- the part of an operation that is not about the grid -/
theorem GridLayoutOp.run_forget {henv : HEnv K} {env : Env K} (hf : henv.f = env.f) {op : GridLayoutOp K n} {st st' : GridLayoutState K n}
    (h : op.run henv env st = some st') : op.runForget env st.forget = some st'.forget := by
  cases op with
  | place addr item dt =>
    obtain ⟨r, h1, rfl⟩ := Option.map_eq_some_iff.1 h
    unfold GridLayout.placeItem at h1
    obtain ⟨c, h2, rfl⟩ := Option.map_eq_some_iff.1 h1
    have h2 := HCDE.register_cde h2
    rw [hf] at h2
    have h2 : st.layout.layout.cde.register env.f env.o _ = some c.cde := h2
    show (Layout.placeItem env addr st.layout.layout item dt).map _ = _
    unfold Layout.placeItem
    dsimp only
    rw [h2]
    rfl
  | remove key ci =>
    obtain ⟨r, h1, rfl⟩ := Option.map_eq_some_iff.1 h
    unfold GridLayout.removeItem at h1
    show (Layout.removeItem env st.layout.layout key ci).map _ = _
    unfold Layout.removeItem
    cases e : st.layout.layout.placed.remove key with
    | none => rw [e] at h1; cases h1
    | some q =>
      obtain ⟨pi, m⟩ := q
      rw [e] at h1
      dsimp only at h1 ⊢
      obtain ⟨c, h2, rfl⟩ := Option.map_eq_some_iff.1 h1
      have h2 : st.layout.layout.cde.deregister env.o _ ci = some c.cde := HCDE.deregister_cde h2
      rw [h2]
      rfl
  | flush =>
    obtain ⟨r, h1, rfl⟩ := Option.map_eq_some_iff.1 h
    unfold GridLayout.flushChanges at h1
    obtain ⟨c, h2, rfl⟩ := Option.map_eq_some_iff.1 h1
    unfold GridLayoutState.forget
    dsimp only
    rw [HCDE.flush_cde h2]
    rfl
  | snapshot =>
    obtain ⟨r, h1, rfl⟩ := Option.map_eq_some_iff.1 h
    unfold GridLayout.createSnapshot at h1
    obtain ⟨c, h2, rfl⟩ := Option.map_eq_some_iff.1 h1
    have h2 : st.layout.layout.cde.createSnapshot = _ := (HCDE.snapshot_cde h2).2
    show (Layout.createSnapshot st.layout.layout).map _ = _
    unfold Layout.createSnapshot GridLayoutState.forget
    rw [h2]
    simp
  | restore i =>
    unfold GridLayoutOp.run at h
    show (match (st.snaps.map (·.snap))[i]? with | none => none | some s => _) = _
    rw [List.getElem?_map]
    dsimp only at h
    cases e : st.snaps[i]? with
    | none => rw [e] at h; cases h
    | some s =>
      rw [e] at h
      dsimp only [Option.map_some] at h ⊢
      obtain ⟨r, h1, rfl⟩ := Option.map_eq_some_iff.1 h
      unfold GridLayout.restore at h1
      split_ifs at h1 with hid
      obtain ⟨c, h2, rfl⟩ := Option.map_eq_some_iff.1 h1
      have h2 := HCDE.restore_cde h2
      rw [hf] at h2
      have h2 : st.layout.layout.cde.restore env.f env.o s.snap.cdeSnapshot = some c.cde := h2
      unfold Layout.restore
      rw [if_neg (show ¬ st.forget.layout.id ≠ s.snap.id from hid)]
      show ((st.layout.layout.cde.restore env.f env.o s.snap.cdeSnapshot).map _).map _ = _
      rw [h2]
      rfl
  | changeBin bin nCells =>
    obtain ⟨r, h1, rfl⟩ := Option.map_eq_some_iff.1 h
    unfold GridLayout.changeBin at h1
    obtain ⟨g, -, h1⟩ := Option.bind_eq_some_iff.1 h1
    obtain ⟨c, h2, rfl⟩ := Option.map_eq_some_iff.1 h1
    have h2 := HCDE.registers_cde hf h2
    show ((Layout.changeBin env st.layout.layout bin).map _).map _ = _
    unfold Layout.changeBin
    rw [h2]
    rfl

/-! ## The invariant -/

structure GridLayoutState.Inv (henv : HEnv K) (env : Env K) (cat : ℕ → Item K) (st : GridLayoutState K n) (b : Bool) : Prop where
  layout : st.forget.Inv env cat
  dirty : ∀ g, st.layout.grid = some g → g.isDirty = b
  reach : ∃ nCells, HReach henv env.o st.layout.layout.bin.baseCde.bbox st.layout.layout.bin.baseCde.statics nCells (gridHaz env cat) (.inl st.layout.engine) ∧
    (nCells = 0 ↔ st.layout.grid = none) ∧
    ∀ s ∈ st.snaps, HReach (n := n) henv env.o st.layout.layout.bin.baseCde.bbox st.layout.layout.bin.baseCde.statics nCells (gridHaz env cat) (.inr s.engine)

/-- an engine without a grid does not get one -/
theorem HOp.run_keeps_none {henv : HEnv K} {o : SearchOracle K} {c c' : HCDE K n} {op : HOp K} (h : op.run henv o c = some c') (e : c.hpg = none) : c'.hpg = none := by
  have hfl : ∀ {c c' : HCDE K n}, c.flush henv = some c' → c.hpg = none → c'.hpg = none := by
    intro c c' h hn
    unfold HCDE.flush at h
    rw [hn] at h
    cases h
    rfl
  have hco : ∀ {c c' : HCDE K n}, c.commit henv = some c' → c.hpg = none → c'.hpg = none := by
    intro c c' h hn
    unfold HCDE.commit at h
    obtain ⟨cde, _, h⟩ := Option.bind_eq_some_iff.1 h
    exact hfl h hn
  cases op with
  | register x =>
    simp only [HOp.run, HCDE.register] at h
    obtain ⟨cde, _, h⟩ := Option.bind_eq_some_iff.1 h
    rw [e] at h
    cases h
    rfl
  | deregister x ci =>
    simp only [HOp.run, HCDE.deregister] at h
    obtain ⟨cde, _, h⟩ := Option.bind_eq_some_iff.1 h
    rw [e] at h
    cases h
    rfl
  | flush => exact hfl h e
  | commit => exact hco h e
  | snapshot =>
    obtain ⟨⟨c1, s⟩, h1, rfl⟩ := Option.map_eq_some_iff.1 h
    exact hco (HCDE.snapshot_cde h1).1 e
  | restore s =>
    simp only [HOp.run, HCDE.restore] at h
    obtain ⟨cde, _, h⟩ := Option.bind_eq_some_iff.1 h
    rw [e] at h
    cases h
    rfl

theorem HOp.run_grid {henv : HEnv K} {o : SearchOracle K} {c c' : HCDE K n} {op : HOp K} (h : op.run henv o c = some c') :
    (c'.hpg = none ↔ c.hpg = none) ∧ ∀ b, (∀ g, c.hpg = some g → g.isDirty = b) → ∀ g, c'.hpg = some g → g.isDirty = HOp.pending b [op] := by
  cases e : c.hpg with
  | none =>
    have h1 := HOp.run_keeps_none h e
    exact ⟨by simp [h1], fun b _ g hg => by rw [h1] at hg; cases hg⟩
  | some g0 =>
    obtain ⟨g', h1, h2⟩ := HOp.run_dirty h e
    refine ⟨by simp [h1], fun b hb g hg => ?_⟩
    rw [hg] at h1
    cases h1
    rw [h2, hb g0 rfl]

theorem HCDE.registers_grid {henv : HEnv K} {o : SearchOracle K} : ∀ {ps : List (PlacedItem K)} {c c' : HCDE K n},
    ps.foldlM (fun (c : HCDE K n) pi => c.register henv o (Hazard.new pi.entity pi.shape)) c = some c' →
    (c'.hpg = none ↔ c.hpg = none) ∧ ((∀ g, c.hpg = some g → g.isDirty = false) → ∀ g, c'.hpg = some g → g.isDirty = false)
  | [], c, c', h => by cases h; exact ⟨Iff.rfl, id⟩
  | p :: ps, c, c', h => by
    rw [List.foldlM_cons] at h
    obtain ⟨c1, h1, h⟩ := Option.bind_eq_some_iff.1 h
    obtain ⟨a1, a2⟩ := HOp.run_grid (op := .register _) h1
    obtain ⟨b1, b2⟩ := HCDE.registers_grid h
    exact ⟨b1.trans a1, fun hb => b2 (a2 false hb)⟩

/-- the items of a layout registered one by one in the engine of another bin -/
theorem HReach.registerItems {henv : HEnv K} {env : Env K} {bbox : AARect K} {statics : List (Hazard K)} (hst : (statics.map (·.entity)).Nodup)
    (hns : ∀ x ∈ statics, ∀ id dt, x.entity ≠ .placedItem id dt) {nCells : ℕ} {cat : ℕ → Item K} :
    ∀ {ps : List (PlacedItem K)} {c c' : HCDE K n}, HReach henv env.o bbox statics nCells (gridHaz env cat) (.inl c) → (∀ pi ∈ ps, pi.Ok env cat) →
    (c.cde.dynamics.map (·.entity) ++ ps.map PlacedItem.entity).Nodup →
    ps.foldlM (fun (c : HCDE K n) pi => c.register henv env.o (Hazard.new pi.entity pi.shape)) c = some c' →
    HReach henv env.o bbox statics nCells (gridHaz env cat) (.inl c')
  | [], c, c', hr, _, _, h => by cases h; exact hr
  | p :: ps, c, c', hr, hok, hnd, h => by
    rw [List.foldlM_cons] at h
    obtain ⟨c1, h1, h⟩ := Option.bind_eq_some_iff.1 h
    have hi : HInv henv env.o statics (gridHaz env cat) c := hr.inv hst
    have hpre : (CDEOp.register p.haz).Pre c.cde := by
      intro x hx he
      rcases List.mem_append.1 hx with hx | hx
      · rw [hi.stat] at hx
        exact hns x hx p.itemId p.dt he
      · rw [List.map_cons, List.nodup_append] at hnd
        exact hnd.2.2 x.entity (List.mem_map_of_mem (f := (·.entity)) hx) p.entity List.mem_cons_self he
    obtain ⟨e1, -⟩ := CDEOp.run_effect hi.reach.inv hpre (HCDE.register_cde h1)
    refine HReach.registerItems hst hns (hr.register hpre (hok p List.mem_cons_self).gridHaz h1) (fun x hx => hok x (List.mem_cons_of_mem _ hx)) ?_ h
    have hp : (c1.cde.dynamics.map (·.entity) ++ ps.map PlacedItem.entity).Perm
        (c.cde.dynamics.map (·.entity) ++ (p :: ps).map PlacedItem.entity) := by
      rw [List.map_cons]
      refine (e1.append_right _).trans ?_
      rw [List.cons_append]
      exact List.perm_middle.symm
    exact hp.nodup_iff.2 hnd

theorem GridLayoutState.Inv.new {henv : HEnv K} {env : Env K} (hf : henv.f = env.f) {cat : ℕ → Item K} {nCells id : ℕ} {bin : Bin K n} {l : GridLayout K n}
    (hb : bin.Built env) (h : GridLayout.new henv nCells id bin = some l) : GridLayoutState.Inv henv env cat ⟨l, []⟩ false := by
  unfold GridLayout.new at h
  obtain ⟨g, hg, rfl⟩ := Option.map_eq_some_iff.1 h
  refine ⟨⟨Layout.inv_new cat id hb, by simp [GridLayoutState.forget]⟩, ?_, nCells, .new (hb.newGrid hf hg), ?_, by simp⟩
  · rintro g' rfl
    exact Bin.newGrid_clean hg
  · unfold Bin.newGrid at hg
    dsimp only
    split_ifs at hg with h0
    · cases hg; simp [h0]
    · obtain ⟨g', -, rfl⟩ := Option.map_eq_some_iff.1 hg
      simp [h0]

theorem GridLayoutState.Inv.step {henv : HEnv K} {env : Env K} (hf : henv.f = env.f) {cat : ℕ → Item K} {st st' : GridLayoutState K n} {b : Bool}
    (h : st.Inv henv env cat b) {op : GridLayoutOp K n} (hp : op.Pre henv env cat st) (hr : op.run henv env st = some st') : st'.Inv henv env cat (op.waiting b) := by
  have hF := GridLayoutOp.run_forget hf hr
  have hL := h.layout.layout
  have hL : st.layout.layout.Inv env cat := hL
  obtain ⟨nCells, r1, r2, r3⟩ := h.reach
  cases op with
  | place addr item dt =>
    obtain ⟨st1, e1, e2, -⟩ := LayoutOp.run_inv h.layout (op := .place addr item dt) hp
    have hF : (LayoutOp.place addr item dt).run env st.forget = _ := hF
    rw [e1] at hF
    cases hF
    obtain ⟨r, h1, rfl⟩ := Option.map_eq_some_iff.1 hr
    unfold GridLayout.placeItem at h1
    obtain ⟨c, h2, rfl⟩ := Option.map_eq_some_iff.1 h1
    obtain ⟨a1, a2⟩ := HOp.run_grid (op := .register _) h2
    refine ⟨e2, a2 b h.dirty, nCells, ?_, r2.trans a1.symm, r3⟩
    refine r1.register (h := (PlacedItem.new env addr item dt).haz) ?_ (PlacedItem.ok_new env addr hp.1 dt).gridHaz h2
    intro x hx he
    rcases List.mem_append.1 hx with hx | hx
    · exact hL.not_static x hx _ _ he
    · have := hL.ents.mem_iff.1 (List.mem_map_of_mem (f := (·.entity)) hx)
      rw [he] at this
      obtain ⟨q, hq, hqe⟩ := List.mem_map.1 this
      exact hp.2 q hq (HazardEntity.placedItem.inj hqe)
  | remove key ci =>
    obtain ⟨st1, e1, e2, -⟩ := LayoutOp.run_inv h.layout (op := .remove key ci) hp
    have hF : (LayoutOp.remove key ci).run env st.forget = _ := hF
    rw [e1] at hF
    cases hF
    obtain ⟨r, h1, rfl⟩ := Option.map_eq_some_iff.1 hr
    obtain ⟨pi, hpi⟩ := hp
    obtain ⟨m, w1, w2, w3, w4, w5⟩ := SlotMap.remove_spec hL.slots hpi
    unfold GridLayout.removeItem at h1
    rw [w1] at h1
    dsimp only at h1
    obtain ⟨c, h2, rfl⟩ := Option.map_eq_some_iff.1 h1
    obtain ⟨a1, a2⟩ := HOp.run_grid (op := .deregister _ ci) h2
    have hmem : pi ∈ st.layout.layout.placed.values := w4.mem_iff.2 List.mem_cons_self
    refine ⟨e2, ?_, nCells, ?_, r2.trans a1.symm, r3⟩
    · have := a2 b h.dirty
      cases ci <;> exact this
    · refine r1.deregister ?_ h2
      obtain ⟨x, hx, he⟩ := List.mem_map.1 (hL.ents.mem_iff.2 (List.mem_map_of_mem (f := PlacedItem.entity) hmem))
      exact ⟨x, hx, he⟩
  | flush =>
    obtain ⟨r, h1, rfl⟩ := Option.map_eq_some_iff.1 hr
    unfold GridLayout.flushChanges at h1
    obtain ⟨c, h2, rfl⟩ := Option.map_eq_some_iff.1 h1
    obtain ⟨a1, a2⟩ := HOp.run_grid (o := env.o) (op := .flush) h2
    have hF : some st.forget = some _ := hF
    refine ⟨?_, a2 b h.dirty, nCells, r1.flush h2, r2.trans a1.symm, r3⟩
    rw [← Option.some.inj hF]
    exact h.layout
  | snapshot =>
    obtain ⟨st1, e1, e2, -⟩ := LayoutOp.run_inv h.layout (op := .snapshot) trivial
    have hF : (LayoutOp.snapshot).run env st.forget = _ := hF
    rw [e1] at hF
    cases hF
    obtain ⟨r, h1, rfl⟩ := Option.map_eq_some_iff.1 hr
    unfold GridLayout.createSnapshot at h1
    obtain ⟨c, h2, rfl⟩ := Option.map_eq_some_iff.1 h1
    obtain ⟨a1, a2⟩ := HOp.run_grid (o := env.o) (op := .commit) (HCDE.snapshot_cde h2).1
    refine ⟨e2, a2 b h.dirty, nCells, r1.commit (HCDE.snapshot_cde h2).1, r2.trans a1.symm, ?_⟩
    intro s hs
    rcases List.mem_append.1 hs with hs | hs
    · exact r3 s hs
    · rw [List.mem_singleton.1 hs]
      exact r1.snapshot h2
  | restore i =>
    obtain ⟨st1, e1, e2, -⟩ := LayoutOp.run_inv h.layout (op := .restore i) (by
      show i < (st.snaps.map (·.snap)).length
      rw [List.length_map]
      exact hp)
    have hF : (LayoutOp.restore i).run env st.forget = _ := hF
    rw [e1] at hF
    cases hF
    have hi : st.snaps[i]? = some st.snaps[i] := List.getElem?_eq_getElem hp
    unfold GridLayoutOp.run at hr
    dsimp only at hr
    rw [hi] at hr
    obtain ⟨r, h1, rfl⟩ := Option.map_eq_some_iff.1 hr
    unfold GridLayout.restore at h1
    split_ifs at h1
    obtain ⟨c, h2, rfl⟩ := Option.map_eq_some_iff.1 h1
    obtain ⟨a1, a2⟩ := HOp.run_grid (op := .restore _) h2
    exact ⟨e2, a2 b h.dirty, nCells, r1.restore (r3 _ (List.getElem_mem hp)) h2, r2.trans a1.symm, r3⟩
  | changeBin bin nCells' =>
    obtain ⟨st1, e1, e2, -⟩ := LayoutOp.run_inv h.layout (op := .changeBin bin) hp.1
    have hF : ((LayoutOp.changeBin bin).run env st.forget).map _ = _ := hF
    rw [e1] at hF
    have hF := Option.some.inj hF
    obtain ⟨r, h1, rfl⟩ := Option.map_eq_some_iff.1 hr
    unfold GridLayout.changeBin at h1
    obtain ⟨g, hg, h1⟩ := Option.bind_eq_some_iff.1 h1
    obtain ⟨c, h2, rfl⟩ := Option.map_eq_some_iff.1 h1
    obtain ⟨a1, a2⟩ := HCDE.registers_grid h2
    have h0 : nCells' = 0 ↔ g = none := by
      have hg := hg
      unfold Bin.newGrid at hg
      split_ifs at hg with h0
      · cases hg; simp [h0]
      · obtain ⟨g', -, rfl⟩ := Option.map_eq_some_iff.1 hg
        simp [h0]
    refine ⟨?_, a2 (by rintro g' rfl; exact Bin.newGrid_clean hg), nCells', ?_, h0.trans a1.symm, by simp⟩
    · rw [← hF]
      exact ⟨e2.layout, by simp⟩
    · refine HReach.registerItems hp.1.statics_nodup hp.1.base.2.2.2 (.new (hp.1.newGrid hf hg)) hL.ok ?_ h2
      dsimp only
      rw [hp.1.base.2.1]
      simpa using hL.nodup

theorem GridLayoutReach.inv {henv : HEnv K} {env : Env K} (hf : henv.f = env.f) {cat : ℕ → Item K} {st : GridLayoutState K n} {b : Bool}
    (h : GridLayoutReach henv env cat st b) : st.Inv henv env cat b := by
  induction h with
  | new hb h => exact .new hf hb h
  | step _ hp hr ih => exact ih.step hf hp hr

end

end Jagua
