import Verif.Lemmas.ProblemGrid
import Verif.Lemmas.LBFStrip
import Verif.Props.LayoutGrid
import Verif.Props.LBFGridSkipStrip

/-! # C80: strip packing problems with proximity grids -/

set_option linter.unusedSectionVars false

namespace Jagua

section

variable {K : Type*} [Arith K] [LinearOrder K] {n : ℕ}

/-- **The grid changes nothing else.** Every operation on a strip packing problem does to strip, items, quantities and solutions what it would do if the strip had no
grid. -/
theorem C80_grid_changes_nothing_else {henv : HEnv K} {nCells : ℕ} {env : StripEnv K} (hf : henv.f = env.f) {op : GridSPOp K} {st st' : GridSPState K n}
    (h : op.run henv nCells env st = some st') : op.runForget env st.forget = some st'.forget :=
  GridSPOp.run_forget hf h

/-- **When the grid can be read.** After any history the grid of the strip can be read if no removals are waiting, and only then: lazy removals wait
until changes are flushed, a solution is made or restored, or the strip is changed. -/
theorem C80_when_readable {henv : HEnv K} {nCells : ℕ} {env : StripEnv K} (hf : henv.f = env.f) {st : GridSPState K n} {b : Bool}
    (h : GridSPReach henv nCells env st b) {g : HPG K} (hg : st.s.grid = some g) :
    readCells st.s.grid = if b then none else some (g.grid.cells.filterMap id) := by
  rw [hg]
  unfold readCells
  rw [Option.bind_some, (h.inv hf).layout.dirty g hg]

end

variable {K : Type*} [Field K] [LinearOrder K] [IsStrictOrderedRing K] {n : ℕ} {R : Type*}

theorem spareCat_ready {inst : SPInstance K} (hr : ∀ x ∈ inst.items, x.1.GridReady) (i : ℕ) : (inst.spareCat i).GridReady := by
  unfold SPInstance.spareCat
  split
  · rename_i x hx
    exact hr x (List.mem_of_getElem? hx)
  · exact ⟨⟨_, rfl, by simp, by simp⟩, by simp [spareItem]⟩

/-- operations on a layout with a grid succeed -/
theorem GridLayout.Sound.total {henv : HEnv K} (hs : ∀ x, 0 ≤ x → 0 ≤ henv.sqrt x) {env : Env K} {cat : ℕ → Item K} (hr : ∀ i, (cat i).GridReady) {nCells : ℕ}
    {l : GridLayout K n} {b : Bool} (h : l.Sound henv env cat nCells b) {cat0 : ℕ → Item K} (hL : l.layout.Inv env cat0) :
    (∀ addr item dt, item = cat item.id → (∀ pi ∈ l.layout.placed.values, ¬ (pi.itemId = item.id ∧ pi.dt = dt)) → ∃ r, l.placeItem henv env addr item dt = some r) ∧
    (∀ key ci, (∃ pi, l.layout.placed.get? key = some pi) → ∃ r, l.removeItem henv env key ci = some r) ∧
    (∃ r, l.flushChanges henv = some r) ∧ (∃ r, l.createSnapshot henv = some r) ∧
    ∀ x : GridLayoutSnapshot K n, x.Sound henv env cat nCells → l.layout.bin = x.snap.bin → l.layout.id = x.snap.id → ∃ r, l.restore henv env x = some r := by
  obtain ⟨t1, t2, t3, t4, t5, t6⟩ := C71_operations_never_fail hs hL.bin.statics_nodup (gridHaz_registrable hr env) h.reach
  refine ⟨?_, ?_, ?_, ?_, ?_⟩
  · intro addr item dt hi hn
    obtain ⟨c, hc⟩ := t1 (PlacedItem.new env addr item dt).haz (by
      intro x hx he
      rcases List.mem_append.1 hx with hx | hx
      · exact hL.not_static x hx _ _ he
      · have := hL.ents.mem_iff.1 (List.mem_map_of_mem (f := (·.entity)) hx)
        rw [he] at this
        obtain ⟨q, hq, hqe⟩ := List.mem_map.1 this
        exact hn q hq (HazardEntity.placedItem.inj hqe)) (PlacedItem.ok_new env addr hi dt).gridHaz
    have hc : l.engine.register henv env.o (Hazard.new (PlacedItem.new env addr item dt).entity (PlacedItem.new env addr item dt).shape) = some c := hc
    unfold GridLayout.placeItem
    dsimp only
    rw [hc]
    exact ⟨_, rfl⟩
  · rintro key ci ⟨pi, hpi⟩
    obtain ⟨m, w1, w2, w3, w4, w5⟩ := SlotMap.remove_spec hL.slots hpi
    have hmem : pi ∈ l.layout.placed.values := w4.mem_iff.2 List.mem_cons_self
    obtain ⟨c, hc⟩ := t2 pi.entity ci (by
      obtain ⟨x, hx, he⟩ := List.mem_map.1 (hL.ents.mem_iff.2 (List.mem_map_of_mem (f := PlacedItem.entity) hmem))
      exact ⟨x, hx, he⟩)
    unfold GridLayout.removeItem
    rw [w1]
    dsimp only
    rw [hc]
    exact ⟨_, rfl⟩
  · obtain ⟨c, hc⟩ := t3
    unfold GridLayout.flushChanges
    rw [hc]
    exact ⟨_, rfl⟩
  · obtain ⟨c, hc⟩ := t5
    unfold GridLayout.createSnapshot
    rw [hc]
    exact ⟨_, rfl⟩
  · intro x hx hb hid
    unfold GridLayoutSnapshot.Sound at hx
    rw [← hb] at hx
    obtain ⟨c, hc⟩ := t6 _ hx
    unfold GridLayout.restore
    rw [if_neg (not_not.2 hid), hc]
    exact ⟨_, rfl⟩

theorem GridSP.placeItem_grid {henv : HEnv K} (hs : ∀ x, 0 ≤ x → 0 ≤ henv.sqrt x) {nCells : ℕ} {env : StripEnv K} {s : GridSP K n} {b : Bool}
    (hr : ∀ x ∈ s.p.inst.items, x.1.GridReady) (hc : s.p.Core env) (h : s.gridLayout.Sound henv env.toEnv s.p.inst.spareCat nCells b) {addr : ℕ} {opt : PlacingOption K}
    (hn : ∀ pi ∈ s.p.layout.placed.values, ¬ (pi.itemId = opt.itemId ∧ pi.dt = opt.dt)) {q : (LayoutIndex × SlotKey) × SPProblem K n}
    (hq : s.p.placeItem env.toEnv addr opt = some q) : ∃ g, s.placeItem henv env.toEnv addr opt = some (q.1, ⟨q.2, g⟩) := by
  obtain ⟨item, k, l, e1, e2, -, e4⟩ := SPProblem.placeItem_parts hq
  obtain ⟨r, hr'⟩ := (h.total hs (spareCat_ready hr) hc.layout.inv).1 addr item.1 opt.dt (hc.spareCat e1) (by rw [(hc.cat e1).1]; exact hn)
  unfold GridLayout.placeItem HCDE.register at hr'
  dsimp only at hr'
  obtain ⟨c, h1, -⟩ := Option.map_eq_some_iff.1 hr'
  obtain ⟨cde, -, h1⟩ := Option.bind_eq_some_iff.1 h1
  obtain ⟨g, hg, -⟩ := Option.map_eq_some_iff.1 h1
  have hg : s.p.layout.placeGrid henv env.toEnv addr s.grid item.1 opt.dt = some g := hg
  refine ⟨g, ?_⟩
  unfold GridSP.placeItem
  rw [hq, Option.bind_some, e1, Option.bind_some, hg]
  rfl

theorem GridSP.placeBacks_grid {henv : HEnv K} (hs : ∀ x, 0 ≤ x → 0 ≤ henv.sqrt x) {nCells : ℕ} {env : StripEnv K} (hf : henv.f = env.f) :
    ∀ (xs : List (ℕ × ℕ × DTransf K)) {s : GridSP K n} {p : SPProblem K n}, (∀ x ∈ s.p.inst.items, x.1.GridReady) → s.p.Core env →
    s.gridLayout.Sound henv env.toEnv s.p.inst.spareCat nCells false → (xs.map (·.2)).Nodup →
    (∀ pi ∈ s.p.layout.placed.values, (pi.itemId, pi.dt) ∉ xs.map (·.2)) →
    xs.foldlM (SPProblem.placeBack env.toEnv) s.p = some p → ∃ s', xs.foldlM (GridSP.placeBack henv env.toEnv) s = some s'
  | [], s, p, _, _, _, _, _, _ => ⟨s, rfl⟩
  | x :: xs, s, p, hr, hc, h, hnd, hnew, hp => by
    rw [List.foldlM_cons] at hp ⊢
    obtain ⟨p1, h1, hp⟩ := Option.bind_eq_some_iff.1 hp
    rw [List.map_cons, List.nodup_cons] at hnd
    have hn : ∀ pi ∈ s.p.layout.placed.values, ¬ (pi.itemId = x.2.1 ∧ pi.dt = x.2.2) := by
      rintro pi hpi ⟨ha, hb⟩
      refine hnew pi hpi ?_
      rw [ha, hb]
      exact List.mem_map_of_mem List.mem_cons_self
    unfold SPProblem.placeBack at h1
    unfold GridSP.placeBack
    split at h1
    · cases h1
    rename_i item hi
    rw [hi]
    dsimp only
    split at h1
    · cases h1
    · rename_i hcol
      cases h1
      rw [hcol]
      exact GridSP.placeBacks_grid hs hf xs hr hc h hnd.2 (fun pi hpi hm => hnew pi hpi (List.mem_cons_of_mem _ hm)) hp
    · rename_i hcol
      rw [hcol]
      obtain ⟨q, hq, rfl⟩ := Option.map_eq_some_iff.1 h1
      obtain ⟨g, hg⟩ := GridSP.placeItem_grid hs hr hc h hn hq
      dsimp only
      rw [hg]
      have hsd := GridSP.placeItem_sound hf hc h hn hg
      obtain ⟨k', l1, m1, f1, f2, f3, f4, _, _, f5⟩ := hc.place x.1 (id := x.2.1) (dt := x.2.2) hi hn
      rw [hq] at f1
      have f1 := congrArg Prod.snd (Option.some.inj f1)
      dsimp only at f1
      have hinst : q.2.inst = s.p.inst := by rw [f1]
      rw [← hinst] at hsd
      refine GridSP.placeBacks_grid hs hf xs (s := ⟨q.2, g⟩) (by dsimp only; rw [hinst]; exact hr) (by dsimp only; rw [f1]; exact f2) hsd hnd.2 ?_ hp
      intro pi hpi hm
      dsimp only at hpi
      rw [f1] at hpi
      rcases List.mem_cons.1 (f5.mem_iff.1 hpi) with rfl | hpi
      · refine hnd.1 ?_
        have he : ((PlacedItem.new env.toEnv x.1 item.1 x.2.2).itemId, (PlacedItem.new env.toEnv x.1 item.1 x.2.2).dt) = x.2 := by
          simp [PlacedItem.new, (hc.cat hi).1]
        rwa [he] at hm
      · exact hnew pi hpi (List.mem_cons_of_mem _ hm)

theorem GridSP.modifyStrip_grid {henv : HEnv K} (hs : ∀ x, 0 ≤ x → 0 ≤ henv.sqrt x) {nCells : ℕ} {env : StripEnv K} (hf : henv.f = env.f) {s : GridSP K n}
    (hr : ∀ x ∈ s.p.inst.items, x.1.GridReady) (hc : s.p.Core env) {addr : ℕ} {addrs : ℕ → ℕ} {rect : AARect K} {p : SPProblem K n}
    (hp : s.p.modifyStrip env addr addrs rect = some p) (hg : p.layout.bin.newGrid henv nCells ≠ none) :
    ∃ s', s.modifyStrip henv nCells env addr addrs rect = some s' ∧ s'.p = p := by
  suffices h : ∃ s', s.modifyStrip henv nCells env addr addrs rect = some s' by
    obtain ⟨s', h⟩ := h
    refine ⟨s', h, ?_⟩
    have := (GridSP.modifyStrip_fresh h).1
    rw [hp] at this
    exact (Option.some.inj this).symm
  cases hb : Bin.fromStrip env.toEnv n addr env.stripValue rect with
  | none =>
    unfold SPProblem.modifyStrip at hp
    dsimp only at hp
    rw [hb] at hp
    cases hp
  | some b =>
    obtain ⟨l, m, e1, e2, e3, e4, _⟩ := hc.modifyStrip addr addrs hb
    rw [hp] at e1
    rw [Option.some.inj e1] at hg
    dsimp only at hg
    rw [e4] at hg
    obtain ⟨g, hg⟩ := Option.ne_none_iff_exists'.1 hg
    have hst : b.IsStrip env := ⟨addr, rect, hb⟩
    have hc' : SPProblem.Core (n := n) env ⟨s.p.inst, Layout.new (s.p.layoutCounter + 1) b, s.p.inst.items.map fun (x : Item K × ℕ) => (x.2 : ℤ),
        s.p.layoutCounter + 1, s.p.solutionCounter⟩ :=
      ⟨hc.built, ⟨Layout.inv_new _ _ hst.built, by simp [Layout.new, SlotMap.empty, SlotMap.values], hst⟩, by
        show MissingOk _ _ (copiesIn SlotMap.empty)
        rw [copiesIn_empty]
        exact missingOk_full _⟩
    have hmap : ((s.p.layout.placed.values.map fun pi => (pi.itemId, pi.dt)).zipIdx.map
        fun (x : (ℕ × DTransf K) × ℕ) => (addrs x.2, x.1)).map (·.2) = s.p.layout.placed.values.map fun pi => (pi.itemId, pi.dt) := by
      rw [List.map_map]
      exact List.zipIdx_map_fst 0 _
    unfold SPProblem.modifyStrip at hp
    unfold GridSP.modifyStrip
    dsimp only at hp ⊢
    rw [hb, Option.bind_some] at hp
    rw [hb, Option.bind_some, hg, Option.bind_some]
    refine GridSP.placeBacks_grid hs hf _ (s := ⟨⟨s.p.inst, Layout.new (s.p.layoutCounter + 1) b, s.p.inst.items.map fun (x : Item K × ℕ) => (x.2 : ℤ),
        s.p.layoutCounter + 1, s.p.solutionCounter⟩, g⟩) hr hc' (GridLayout.Sound.new (env := env.toEnv) hf _ _ hst.built hg) ?_ (by simp [Layout.new, SlotMap.empty, SlotMap.values]) hp
    rw [hmap]
    have := hc.layout.inv.nodup
    refine List.Nodup.of_map (fun x : ℕ × DTransf K => HazardEntity.placedItem x.1 x.2) ?_
    rw [List.map_map]
    exact this

/-- **The grid makes no operation fail.** If the items have poles, every operation on a strip packing problem with a grid succeeds when it succeeds without the grid, whatever
happened before, provided that the strip afterwards has a grid. -/
theorem C80_grid_never_fails {henv : HEnv K} (hs : ∀ x, 0 ≤ x → 0 ≤ henv.sqrt x) {nCells : ℕ} {env : StripEnv K} (hf : henv.f = env.f) {st : GridSPState K n} {b : Bool}
    (hr : ∀ x ∈ st.s.p.inst.items, x.1.GridReady) (h : GridSPReach henv nCells env st b) {op : GridSPOp K} (hp : op.Pre env st) {st₁ : SPState K n}
    (h1 : op.runForget env st.forget = some st₁) (hg : st₁.p.layout.bin.newGrid henv nCells ≠ none) : ∃ st', op.run henv nCells env st = some st' := by
  have hI := h.inv hf
  have hC : st.s.p.Core env := hI.forget.core
  obtain ⟨t1, t2, t3, t4, t5⟩ := hI.layout.total hs (spareCat_ready hr) hC.layout.inv
  cases op with
  | flush =>
    obtain ⟨l, hl⟩ := t3
    unfold GridSPOp.run GridSP.flushChanges
    dsimp only
    rw [hl]
    exact ⟨_, rfl⟩
  | op o =>
    have h1 : o.run env st.forget = some st₁ := h1
    cases o with
    | place addr opt =>
      obtain ⟨q, hq, rfl⟩ := Option.map_eq_some_iff.1 h1
      have hq : st.s.p.placeItem env.toEnv addr opt = some q := hq
      obtain ⟨g, hg⟩ := GridSP.placeItem_grid hs hr hC hI.layout hp.2.2 hq
      unfold GridSPOp.run
      dsimp only
      rw [hg]
      exact ⟨_, rfl⟩
    | remove idx key ci =>
      obtain ⟨q, hq, rfl⟩ := Option.map_eq_some_iff.1 h1
      have hq : st.s.p.removeItem env.toEnv idx key ci = some q := hq
      obtain ⟨r, hr'⟩ := t2 key ci hp.2
      have e := GridLayout.removeItem_forget hr'
      have e : st.s.p.layout.removeItem env.toEnv key ci = _ := e
      unfold SPProblem.removeItem at hq
      unfold GridSPOp.run GridSP.removeItem
      dsimp only
      split_ifs at hq ⊢
      rw [e, Option.bind_some] at hq
      obtain ⟨p, hp', -⟩ := Option.map_eq_some_iff.1 hq
      dsimp only at hp'
      rw [hr', Option.bind_some, hp']
      exact ⟨_, rfl⟩
    | modify addr addrs rect =>
      obtain ⟨p, hq, rfl⟩ := Option.map_eq_some_iff.1 h1
      obtain ⟨s', e, -⟩ := GridSP.modifyStrip_grid hs hf hr hC hq hg
      unfold GridSPOp.run
      dsimp only
      rw [e]
      exact ⟨_, rfl⟩
    | inBack addr addrs w =>
      obtain ⟨p, hq, rfl⟩ := Option.map_eq_some_iff.1 h1
      have hq : st.s.p.modifyInBack env addr addrs w = some p := hq
      obtain ⟨rect, hrect, hq⟩ := Option.bind_eq_some_iff.1 hq
      obtain ⟨s', e, -⟩ := GridSP.modifyStrip_grid hs hf hr hC hq hg
      unfold GridSPOp.run GridSP.modifyInBack
      dsimp only
      rw [hrect, Option.bind_some, e]
      exact ⟨_, rfl⟩
    | atFront addr addrs w =>
      obtain ⟨p, hq, rfl⟩ := Option.map_eq_some_iff.1 h1
      have hq : st.s.p.modifyAtFront env addr addrs w = some p := hq
      obtain ⟨rect, hrect, hq⟩ := Option.bind_eq_some_iff.1 hq
      obtain ⟨s', e, -⟩ := GridSP.modifyStrip_grid hs hf hr hC hq hg
      unfold GridSPOp.run GridSP.modifyAtFront
      dsimp only
      rw [hrect, Option.bind_some, e]
      exact ⟨_, rfl⟩
    | centered addr addrs w =>
      obtain ⟨p, hq, rfl⟩ := Option.map_eq_some_iff.1 h1
      have hq : st.s.p.modifyCentered env addr addrs w = some p := hq
      obtain ⟨rect, hrect, hq⟩ := Option.bind_eq_some_iff.1 hq
      obtain ⟨s', e, -⟩ := GridSP.modifyStrip_grid hs hf hr hC hq hg
      unfold GridSPOp.run GridSP.modifyCentered
      dsimp only
      rw [hrect, Option.bind_some, e]
      exact ⟨_, rfl⟩
    | fit addr addrs =>
      obtain ⟨p, hq, rfl⟩ := Option.map_eq_some_iff.1 h1
      have hq : st.s.p.fitStrip env addr addrs = some p := hq
      obtain ⟨hq, hl⟩ := SPProblem.fitStrip_some hq
      obtain ⟨rect, hrect, hq⟩ := Option.bind_eq_some_iff.1 hq
      obtain ⟨s', e, e'⟩ := GridSP.modifyStrip_grid hs hf hr hC hq hg
      unfold GridSPOp.run GridSP.fitStrip GridSP.modifyCentered
      dsimp only
      rw [hrect, Option.bind_some, e, Option.bind_some, e', if_pos hl]
      exact ⟨_, rfl⟩
    | solution =>
      obtain ⟨r, hr'⟩ := t4
      unfold GridSPOp.run GridSP.createSolution
      dsimp only
      rw [hr']
      exact ⟨_, rfl⟩
    | restore j =>
      unfold SPOp.run GridSPState.forget at h1
      dsimp only at h1
      rw [List.getElem?_map] at h1
      unfold GridSPOp.run
      dsimp only
      cases e : st.sols[j]? with
      | none => rw [e] at h1; cases h1
      | some x =>
        rw [e] at h1
        dsimp only [Option.map_some] at h1 ⊢
        obtain ⟨p, hq, rfl⟩ := Option.map_eq_some_iff.1 h1
        have hx : x ∈ st.sols := List.mem_of_getElem? e
        unfold SPProblem.restore at hq
        unfold GridSP.restore
        obtain ⟨sn, hs'⟩ := hI.forget.sols x.sol (List.mem_map_of_mem hx)
        have hsn := hs'.snaps
        rw [hsn] at hq
        rw [hsn]
        dsimp only at hq ⊢
        have hmem : sn ∈ x.sol.snapshots := by rw [hsn]; exact List.mem_cons_self
        have hsnd := hI.sols x hx sn hmem
        have hkn : (sn.id, sn.bin) ∈ st.forget.known :=
          List.mem_cons_of_mem _ (List.mem_flatMap.2 ⟨x.sol, List.mem_map_of_mem hx, List.mem_map_of_mem (f := fun sn : LayoutSnapshot K n => (sn.id, sn.bin)) hmem⟩)
        obtain ⟨l, h2, hq⟩ := Option.bind_eq_some_iff.1 hq
        obtain ⟨m, h3, rfl⟩ := Option.map_eq_some_iff.1 hq
        dsimp only at hg
        suffices hl : ∃ l', (if st.s.p.layout.id = sn.id then st.s.gridLayout.restore henv env.toEnv ⟨sn, x.grid⟩
            else GridLayout.fromSnapshot henv env.toEnv nCells ⟨sn, x.grid⟩) = some l' by
          obtain ⟨l', hl⟩ := hl
          rw [hl, Option.bind_some, h3]
          exact ⟨_, rfl⟩
        split_ifs at h2 ⊢ with hid
        · exact t5 ⟨sn, x.grid⟩ hsnd (hI.forget.known (_, _) List.mem_cons_self _ hkn hid) hid
        · have hlb : l.bin = sn.bin := by
            obtain ⟨l2, e1, -, -, e4, -⟩ := hs'.snap.valid.fromSnapshot
            rw [h2] at e1
            cases e1
            exact e4
          rw [hlb] at hg
          obtain ⟨g, hg⟩ := Option.ne_none_iff_exists'.1 hg
          have hB := hs'.snap.strip.built
          have hS := GridLayout.Sound.new (env := env.toEnv) hf (st.s.p.inst.spareCat) sn.id hB hg
          obtain ⟨-, -, -, -, u5⟩ := hS.total hs (spareCat_ready hr) (Layout.inv_new st.s.p.inst.cat sn.id hB)
          obtain ⟨r, hr'⟩ := u5 ⟨sn, x.grid⟩ hsnd rfl rfl
          refine ⟨r, ?_⟩
          unfold GridLayout.fromSnapshot GridLayout.new
          dsimp only
          rw [hg]
          exact hr'

/-- **Flushing.** Whatever happened to a strip packing problem, flushing its changes succeeds, leaves everything but the grid as it is, and after it the grid can be read. -/
theorem C80_flush {henv : HEnv K} (hs : ∀ x, 0 ≤ x → 0 ≤ henv.sqrt x) {nCells : ℕ} {env : StripEnv K} (hf : henv.f = env.f) {st : GridSPState K n} {b : Bool}
    (hr : ∀ x ∈ st.s.p.inst.items, x.1.GridReady) (h : GridSPReach henv nCells env st b) :
    ∃ st', GridSPOp.flush.run henv nCells env st = some st' ∧ st'.forget = st.forget ∧ (st'.s.grid = none ↔ nCells = 0) ∧
      ∀ g, st'.s.grid = some g → readCells st'.s.grid = some (g.grid.cells.filterMap id) := by
  have hI := h.inv hf
  obtain ⟨l, hl⟩ := (hI.layout.total hs (spareCat_ready hr) hI.forget.core.layout.inv).2.2.1
  have h1 : GridSPOp.flush.run henv nCells env st = some { st with s := ⟨{ st.s.p with layout := l.layout }, l.grid⟩ } := by
    unfold GridSPOp.run GridSP.flushChanges
    dsimp only
    rw [hl]
    rfl
  exact ⟨_, h1, (Option.some.inj (C80_grid_changes_nothing_else hf h1)).symm, ((hI.layout.flush hl).none).symm,
    fun g hg => C80_when_readable hf (h.step (op := .flush) trivial h1) hg⟩

/-- **No place is lost.** Take a strip packing problem with a grid after any history, no removals waiting. At any position, with a rotation the item allows, where one more item
fits in the strip, the sampler that is made from the grid can draw exactly this position. -/
theorem C80_no_place_lost {lenv : LEnv K n R} {henv : HEnv K} {nCells : ℕ} {env : StripEnv K} (hf : env.f = Fpa.exact) (hpoi : PoiOfRects env.poi) (hu : env.tr.Unit)
    (hmono : ∀ x y, 0 ≤ x → x < y → henv.sqrt x < henv.sqrt y) (hs : henv.SqrtUpper) (hhf : henv.f = Fpa.exact) (hce : henv.CeilExact)
    {st : GridSPState K n} (h : GridSPReach henv nCells env st false)
    (hitems : ∀ x ∈ st.s.p.inst.items, x.1.shape.Proper ∧ signedArea x.1.shape.points ≠ 0) (hok : ∀ x ∈ st.s.p.inst.items, x.1.Searchable henv)
    {x : Item K × ℕ} (hx : x ∈ st.s.p.inst.items) {dt : DTransf K}
    (hroom : FitsIn st.s.p.layout.bin st.s.p.layout.placed.values (x.1.shape.transform (Transf.fromDt env.tr dt)).points x.1.hazardFilter) (hrot : x.1.Allows env.tr dt.rotation)
    (hturn : x.1.allowedRotation = .continuous → ∃ b, 0 ≤ b ∧ b < 2 * lenv.pi ∧ SameTurn env.tr dt.rotation b)
    {o : Option (HPGSampler K)} (ho : HPGSampler.new (lenv.withGrid st.s.grid) x.1 st.s.p.layout = some o) :
    ∃ sampler, o = some sampler ∧ sampler.CanDraw env.tr (Transf.fromDt env.tr dt) := by
  have hI := h.inv (hhf.trans hf.symm)
  have hC : st.s.p.Core env := hI.forget.core
  have hL := hC.layout.inv
  have r1 := hI.layout.reach
  have r1 : HReach henv env.o st.s.p.layout.bin.baseCde.bbox st.s.p.layout.bin.baseCde.statics nCells (gridHaz env.toEnv st.s.p.inst.spareCat) (.inl st.s.gridLayout.engine) := r1
  cases hg : st.s.grid with
  | none =>
    rw [hg] at ho
    unfold HPGSampler.new at ho
    dsimp only at ho
    obtain ⟨all, h1, -⟩ := Option.bind_eq_some_iff.1 ho
    cases h1
  | some g =>
    rw [hg] at ho
    rw [← hL.bbox, ← hL.statics] at r1
    obtain ⟨sampler, e, hpre, d, hd, hdr, hin⟩ := hL.searchedIn hf hu (hC.layout.strip.shapes hpoi) (items := st.s.p.inst.items)
      (fun pi hpi => by
        have hlt := hC.layout.items pi hpi
        refine ⟨_, List.getElem_mem hlt, ?_⟩
        unfold SPInstance.cat catOf
        rw [List.getElem?_eq_getElem hlt])
      (fun x hx => ⟨(hitems x hx).1, (hitems x hx).2⟩) (fun x hx => (hok x hx).inscribed)
      hmono hs hhf hce r1 hg (hI.layout.dirty g hg) rfl rfl rfl hx (hok x hx).quality (hok x hx).filter (hok x hx).radius hroom ho
    exact ⟨sampler, e, HPGSampler.canDraw hpre hd hdr hrot hturn rfl hin⟩

namespace Ex

/-- a strip of length 8 for two squares, with a grid of 16 cells -/
def gsStart : Option (GridSPState ℚ 2) := (GridSP.new linEnv 16 lbfSenv 2 1 skStrip 8).map fun s => ⟨s, []⟩

/-- both squares are placed; the strip is made longer, the second square is taken out, the first solution is restored, and the second square is taken out again -/
def gsOps : List (GridSPOp ℚ) := [.op (.place 1 ⟨.real 0, 0, ⟨0, 2, 2⟩⟩), .op (.place 2 ⟨.real 0, 0, ⟨0, 6, 2⟩⟩), .op .solution, .op (.inBack 5 (fun i => i + 10) 10),
  .op (.remove (.real 0) ⟨1, 1⟩ false), .flush, .op (.restore 0), .op (.remove (.real 0) ⟨1, 1⟩ false)]

/-- whether an operation is allowed -/
def gsPre (st : GridSPState ℚ 2) : GridSPOp ℚ → Bool
  | .op (.place _ opt) => decide (opt.layoutIdx = .real 0) && decide (opt.itemId < st.s.p.inst.items.length) &&
      st.s.p.layout.placed.values.all fun pi => decide (¬ (pi.itemId = opt.itemId ∧ pi.dt = opt.dt))
  | .op (.remove idx key _) => decide (idx = .real 0) && (st.s.p.layout.placed.get? key).isSome
  | .op (.restore j) => (st.sols[j]?).any fun x => decide (x.sol.placed.length = st.s.p.inst.items.length) &&
      (List.range st.s.p.inst.items.length).all fun i => decide (x.sol.placed.getD i 0 ≤ (st.s.p.inst.items.map (·.2)).getD i 0)
  | _ => true

/-- running operations that are allowed -/
def gsRun (ops : List (GridSPOp ℚ)) (st : GridSPState ℚ 2) : Option (GridSPState ℚ 2) :=
  ops.foldlM (fun st op => if gsPre st op then op.run linEnv 16 lbfSenv st else none) st

theorem gsPre_pre {st : GridSPState ℚ 2} {op : GridSPOp ℚ} (h : gsPre st op = true) : op.Pre lbfSenv st := by
  cases op with
  | flush => trivial
  | op o =>
    cases o with
    | place a opt =>
      unfold gsPre at h
      simp only [Bool.and_eq_true] at h
      exact ⟨of_decide_eq_true h.1.1, of_decide_eq_true h.1.2, fun pi hpi => of_decide_eq_true (List.all_eq_true.1 h.2 pi hpi)⟩
    | remove idx key ci =>
      unfold gsPre at h
      simp only [Bool.and_eq_true] at h
      exact ⟨of_decide_eq_true h.1, Option.isSome_iff_exists.1 h.2⟩
    | restore j =>
      unfold gsPre at h
      dsimp only at h
      cases e : st.sols[j]? with
      | none => rw [e] at h; cases h
      | some x =>
        rw [e] at h
        simp only [Option.any_some, Bool.and_eq_true] at h
        refine ⟨x.sol, ?_, ?_⟩
        · show (st.sols.map (·.sol))[j]? = _
          rw [List.getElem?_map, e]
          rfl
        · intro _ i y c hy hc
          have hi := (List.getElem?_eq_some_iff.1 hy).1
          have h2 := of_decide_eq_true (List.all_eq_true.1 h.2 i (List.mem_range.2 hi))
          have hy : st.s.p.inst.items[i]? = some y := hy
          rw [List.getD_eq_getElem?_getD, List.getD_eq_getElem?_getD, hc, List.getElem?_map, hy] at h2
          exact h2
    | _ => trivial

theorem gsRun_reach : ∀ {ops : List (GridSPOp ℚ)} {st st' : GridSPState ℚ 2} {b : Bool}, GridSPReach linEnv 16 lbfSenv st b →
    gsRun ops st = some st' → GridSPReach linEnv 16 lbfSenv st' (ops.foldl GridSPOp.waiting b)
  | [], st, st', b, h, hr => by cases hr; exact h
  | op :: ops, st, st', b, h, hr => by
    unfold gsRun at hr
    rw [List.foldlM_cons] at hr
    obtain ⟨st1, h1, hr⟩ := Option.bind_eq_some_iff.1 hr
    split_ifs at h1 with hp
    rw [List.foldl_cons]
    exact gsRun_reach (h.step (gsPre_pre hp) h1) hr

theorem gsRun_inst : ∀ {ops : List (GridSPOp ℚ)} {st st' : GridSPState ℚ 2} {b : Bool}, GridSPReach linEnv 16 lbfSenv st b →
    gsRun ops st = some st' → st'.s.p.inst = st.s.p.inst
  | [], st, st', b, h, hr => by cases hr; rfl
  | op :: ops, st, st', b, h, hr => by
    unfold gsRun at hr
    rw [List.foldlM_cons] at hr
    obtain ⟨st1, h1, hr⟩ := Option.bind_eq_some_iff.1 hr
    split_ifs at h1 with hp
    refine (gsRun_inst (h.step (gsPre_pre hp) h1) hr).trans ?_
    have hF := GridSPOp.run_forget rfl h1
    cases op with
    | flush => exact congrArg (fun x : SPState ℚ 2 => x.p.inst) (Option.some.inj hF).symm
    | op o => exact (SPOp.run_inv (h.inv rfl).forget (gsPre_pre hp) hF).2.1

end Ex

/-- Non-trivial case for all theorems: after the history above, a removal is waiting and the grid cannot be read; after flushing, one square is left, the grid has cells, and there is
room for a square where the second one was. -/
example : ∃ st st' : GridSPState ℚ 2, GridSPReach Ex.linEnv 16 Ex.lbfSenv st' true ∧ readCells st'.s.grid = none ∧
    GridSPOp.flush.run Ex.linEnv 16 Ex.lbfSenv st' = some st ∧ GridSPReach Ex.linEnv 16 Ex.lbfSenv st false ∧ st.s.p.inst = Ex.skStrip ∧ st.sols.length = 1 ∧
    st.s.p.layout.bin.newGrid Ex.linEnv 16 ≠ none ∧
    (∀ x ∈ Ex.skStrip.items, x.1.GridReady) ∧ (∀ x ∈ Ex.skStrip.items, x.1.shape.Proper ∧ signedArea x.1.shape.points ≠ 0) ∧ (∀ x ∈ Ex.skStrip.items, x.1.Searchable Ex.linEnv) ∧
    (∀ x, 0 ≤ x → 0 ≤ Ex.linEnv.sqrt x) ∧ Ex.linEnv.f = Ex.lbfSenv.f ∧ Ex.lbfSenv.f = Fpa.exact ∧ PoiOfRects Ex.lbfSenv.poi ∧ Ex.lbfSenv.tr.Unit ∧
    (∀ x y : ℚ, 0 ≤ x → x < y → Ex.linEnv.sqrt x < Ex.linEnv.sqrt y) ∧ Ex.linEnv.SqrtUpper ∧ Ex.linEnv.CeilExact ∧
    st.s.p.layout.placed.values.length = 1 ∧ (st.s.grid.map fun g => 10 ≤ g.grid.cells.length) = some True ∧ Ex.skItem.Allows Ex.lbfSenv.tr 0 ∧
    FitsIn st.s.p.layout.bin st.s.p.layout.placed.values (Ex.skItem.shape.transform (Transf.fromDt Ex.lbfSenv.tr ⟨0, 6, 2⟩)).points Ex.skItem.hazardFilter ∧
    (HPGSampler.new (Ex.lbfLenv.withGrid st.s.grid) Ex.skItem st.s.p.layout).isSome := by
  have h : (Ex.gsStart.bind fun s => (Ex.gsRun Ex.gsOps s).bind fun st' => (Ex.gsRun [.flush] st').map fun st =>
      decide (st.s.p.layout.placed.values.length = 1) && (st.s.grid.any fun g => decide (10 ≤ g.grid.cells.length)) &&
      decide (st.s.p.layout.cde.polyCollides Ex.lbfSenv.f (Ex.skItem.shape.transform (Transf.fromDt Ex.lbfSenv.tr ⟨0, 6, 2⟩)) (lbfIrrelevant Ex.skItem st.s.p.layout) = some false) &&
      (HPGSampler.new (Ex.lbfLenv.withGrid st.s.grid) Ex.skItem st.s.p.layout).isSome && (readCells st'.s.grid).isNone &&
      decide (st.sols.length = 1) && (st.s.p.layout.bin.newGrid Ex.linEnv 16).isSome) = some true := by
    decide +kernel
  obtain ⟨s, hs, h⟩ := Option.bind_eq_some_iff.1 h
  obtain ⟨st', hst', h⟩ := Option.bind_eq_some_iff.1 h
  obtain ⟨st, hst, h⟩ := Option.map_eq_some_iff.1 h
  simp only [Bool.and_eq_true, decide_eq_true_eq] at h
  obtain ⟨⟨⟨⟨⟨⟨m1, m2⟩, m3⟩, m4⟩, m5⟩, m6⟩, m7⟩ := h
  have hb : Ex.skStrip.Built := rfl
  obtain ⟨s0, hs0, rfl⟩ := Option.map_eq_some_iff.1 hs
  have r0 : GridSPReach Ex.linEnv 16 Ex.lbfSenv ⟨s0, []⟩ false := .new hb hs0
  have r1 := Ex.gsRun_reach r0 hst'
  have r2 := Ex.gsRun_reach r1 hst
  have hinst : st.s.p.inst = Ex.skStrip := by
    rw [Ex.gsRun_inst r1 hst, Ex.gsRun_inst r0 hst']
    exact (SPState.inv_new hb (GridSP.Fresh.new hs0).1).2
  obtain ⟨k1, k2, k3⟩ := Ex.linEnv_ok
  have hfine : Ex.skItem.Fine := ⟨Ex.lbfSq_proper, by decide +kernel⟩
  refine ⟨st, st', r1, Option.isNone_iff_eq_none.1 m5, ?_, r2, hinst, m6, Option.isSome_iff_ne_none.1 m7, by simpa [Ex.skStrip] using Ex.skItem_ready,
    by simpa [Ex.skStrip] using ⟨hfine.1, hfine.2⟩, by simpa [Ex.skStrip] using Ex.skItem_searchable,
    fun x hx => (k2 x hx).1, rfl, rfl, Ex.mid_rects, Ex.turns_unit, k1, k2, k3, m1, ?_, ⟨rfl, rfl⟩, ?_, m4⟩
  · unfold Ex.gsRun at hst
    simpa [Ex.gsPre] using hst
  · cases e : st.s.grid with
    | none => rw [e] at m2; cases m2
    | some g =>
      rw [e] at m2
      simpa using m2
  · have hI := r2.inv rfl
    have hC : st.s.p.Core Ex.lbfSenv := hI.forget.core
    have hL := hC.layout.inv
    obtain ⟨b, q1, q2⟩ := hL.query_iff rfl (hC.layout.strip.shapes Ex.mid_rects) (hL.placed_proper Ex.turns_unit (items := [(Ex.skItem, 2)]) (by simpa using hfine) (by
        intro pi hpi
        have hlt := hC.layout.items pi hpi
        rw [hinst] at hlt
        have : pi.itemId = 0 := by simpa [Ex.skStrip] using hlt
        rw [this, hinst]
        exact ⟨_, List.mem_singleton_self _, rfl⟩))
      (hfine.placed Ex.turns_unit ⟨0, 6, 2⟩) (filt := Ex.skItem.hazardFilter) (skip := fun _ => false) (irr := lbfIrrelevant Ex.skItem st.s.p.layout)
      (by
        intro y hy
        rw [mem_lbfIrrelevant_iff hy]
        simp) (by simp)
    have := q2.1 (Option.some.inj (q1.symm.trans m3))
    exact ⟨this.inside, this.holes, this.zones, fun pi hpi => this.apart pi (List.mem_filter.2 ⟨hpi, rfl⟩)⟩

end Jagua
