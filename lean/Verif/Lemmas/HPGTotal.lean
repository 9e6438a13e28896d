import Verif.Lemmas.HPGExact
import Verif.Lemmas.HPGCover
import Verif.Spec.HPGTotal

/-! # The operations of an engine with a proximity grid do not panic -/

set_option linter.unusedSectionVars false

namespace Jagua

variable {K : Type*} [Arith K] [LinearOrder K] {n : ℕ}

/-! ## Filling -/

/-- Same rows, columns and number of cells. -/
def Grid.SameShape {α : Type*} (g g' : Grid K α) : Prop := g'.rows = g.rows ∧ g'.cols = g.cols ∧ g'.cells.length = g.cells.length

theorem Grid.SameShape.trans {α : Type*} {g g' g'' : Grid K α} (h : g.SameShape g') (h' : g'.SameShape g'') : g.SameShape g'' :=
  ⟨h'.1.trans h.1, h'.2.1.trans h.2.1, h'.2.2.trans h.2.2⟩

theorem Grid.SameShape.wf {α : Type*} {g g' : Grid K α} (h : g.SameShape g') (hw : g.WF) : g'.WF := by
  obtain ⟨h1, h2, h3⟩ := h
  refine ⟨by rw [h1]; exact hw.rows, by rw [h2]; exact hw.cols, ?_⟩
  unfold Grid.size
  rw [h1, h2, h3]
  exact hw.length

theorem length_le_of_visited {b : BFill} {m : ℕ} {vis : List ℕ} (h : b.Inv m vis) : vis.length ≤ m := by
  rw [← List.toFinset_card_of_nodup h.vnd, ← Finset.card_range m]
  apply Finset.card_le_card
  intro j hj
  exact Finset.mem_range.2 (h.vlt (List.mem_toFinset.1 hj))

theorem HPGCell.registerPole_total {env : HEnv K} {h : Hazard K} (hp : h.entity.position = .interior) (c : HPGCell K) (pole : Circle K) :
    ∃ u, c.registerPole env h pole = some u := by
  unfold HPGCell.registerPole
  rw [hp]
  exact ⟨_, rfl⟩

theorem HPG.fillLoop_total {env : HEnv K} {h : Hazard K} (hp : h.entity.position = .interior) {pole : Circle K} (k : ℕ)
    {g : Grid K (HPGCell K)} (hg : g.cells.length = g.size) {b : BFill} {vis : List ℕ} (hb : b.Inv g.size vis)
    (hk : g.size + 1 ≤ k + vis.length) :
    ∃ g' b', HPG.fillLoop env h pole k g b = some (g', b') ∧ g.SameShape g' ∧ b'.state.length = g.size := by
  induction k generalizing g b vis with
  | zero =>
    have := length_le_of_visited hb
    omega
  | succ k ih =>
    unfold HPG.fillLoop
    rcases BFill.pop_spec hb with ⟨_, hpop⟩ | ⟨i, q, b1, _, hpop, inv1, _, _, hlt, _⟩
    · rw [hpop]
      exact ⟨g, b, rfl, ⟨rfl, rfl, rfl⟩, hb.len⟩
    · rw [hpop, Option.bind_some]
      dsimp only
      have hil : i < g.cells.length := by rw [hg]; exact hlt
      cases hc : g.cells[i]? with
      | none => rw [List.getElem?_eq_getElem hil] at hc; cases hc
      | some oc =>
        cases oc with
        | none =>
          obtain ⟨b2, e2, inv2, _⟩ := BFill.report_spec inv1 hlt .exterior
          dsimp only
          rw [e2, Option.bind_some]
          exact ih hg inv2 (by rw [List.length_cons]; omega)
        | some c =>
          obtain ⟨u, hu⟩ := HPGCell.registerPole_total (env := env) hp c pole
          dsimp only
          rw [hu, Option.bind_some]
          obtain ⟨b2, e2, inv2, _⟩ := BFill.report_spec (g := { g with cells := g.cells.set i (some u.1) }) inv1 hlt
            (if u.2 = .neighborsNotAffected then .exterior else .interior)
          rw [e2, Option.bind_some]
          obtain ⟨g', b', e3, h3, h4⟩ := ih (g := { g with cells := g.cells.set i (some u.1) })
            (by show (g.cells.set i (some u.1)).length = _; rw [List.length_set]; exact hg) inv2
            (by rw [List.length_cons]; show g.size + 1 ≤ _; omega)
          refine ⟨g', b', e3, ⟨h3.1, h3.2.1, h3.2.2.trans (List.length_set ..)⟩, h4⟩

theorem HPG.registerPoles_total {env : HEnv K} {h : Hazard K} (hp : h.entity.position = .interior) {radius : K} (poles : List (Circle K))
    (hbox : ∀ pole ∈ poles, (HPG.seedBox radius pole).xMin ≤ (HPG.seedBox radius pole).xMax ∧
      (HPG.seedBox radius pole).yMin ≤ (HPG.seedBox radius pole).yMax) {g : Grid K (HPGCell K)} (hg : g.WF) (hr : g.rows ≠ []) (hc : g.cols ≠ [])
    {b : BFill} (hb : b.state.length = g.size) :
    ∃ st, poles.foldlM (HPG.registerPole env radius h) (g, b) = some st ∧ g.SameShape st.1 := by
  induction poles generalizing g b with
  | nil => exact ⟨_, rfl, rfl, rfl, rfl⟩
  | cons pole poles ih =>
    obtain ⟨h1, h2⟩ := hbox pole List.mem_cons_self
    obtain ⟨b0, m, _, e0, inv0, _⟩ := BFill.start_spec hg hr hc h1 h2 b hb
    obtain ⟨g1, b1, e1, s1, l1⟩ := HPG.fillLoop_total (env := env) hp (pole := pole) (g.cells.length + 1) hg.length inv0
      (by rw [hg.length, List.length_nil])
    obtain ⟨st, e2, s2⟩ := ih (fun p hp => hbox p (List.mem_cons_of_mem _ hp)) (s1.wf hg) (by rw [s1.1]; exact hr)
      (by rw [s1.2.1]; exact hc) (b := b1) (by rw [l1]; unfold Grid.size; rw [s1.1, s1.2.1])
    refine ⟨st, ?_, s1.trans s2⟩
    rw [List.foldlM_cons]
    unfold HPG.registerPole
    dsimp only
    rw [e0, Option.bind_some, e1]
    exact e2

theorem HPG.register_total {env : HEnv K} {g : HPG K} {h : Hazard K} (hh : h.Registrable)
    (hbox : ∀ s, h.shape.val.surrogate = some s → ∀ pole ∈ s.poles,
      (HPG.seedBox g.cellRadius pole).xMin ≤ (HPG.seedBox g.cellRadius pole).xMax ∧
      (HPG.seedBox g.cellRadius pole).yMin ≤ (HPG.seedBox g.cellRadius pole).yMax) (hg : g.grid.WF) (hr : g.grid.rows ≠ []) (hc : g.grid.cols ≠ []) :
    ∃ g', g.register env h = some g' ∧ g.grid.SameShape g'.grid ∧ g'.cellRadius = g.cellRadius := by
  obtain ⟨s, hs, _⟩ := hh.surrogate
  obtain ⟨b, m, e, _, inv, _⟩ := BFill.start_spec hg hr hc hh.width hh.height ⟨List.replicate _ .notQueued, (0, 0), (0, 0), [], 0, false⟩
    (List.length_replicate ..)
  obtain ⟨st, e2, s2⟩ := HPG.registerPoles_total (env := env) hh.inside s.poles (hbox s hs) hg hr hc inv.len
  refine ⟨{ g with grid := st.1 }, ?_, s2, rfl⟩
  unfold HPG.register
  rw [hs, Option.bind_some, e, Option.bind_some, e2]
  rfl

/-! ## Recomputing cells -/

theorem HPGCell.registerHazard_total {env : HEnv K} {h : Hazard K} (hh : h.Registrable) (c : HPGCell K) : ∃ u, c.registerHazard env h = some u := by
  obtain ⟨s, hs, hne, _⟩ := hh.surrogate
  unfold HPGCell.registerHazard HPGCell.polesProx
  rw [hh.inside]
  dsimp only
  rw [hs, Option.bind_some]
  cases hp : s.poles with
  | nil => exact absurd hp hne
  | cons p ps => exact ⟨_, rfl⟩

theorem HPGCell.registerLoop_total {env : HEnv K} (k : ℕ) (c : HPGCell K) (l : List (Hazard K × Option K)) (hk : l.length ≤ k)
    (hl : ∀ x ∈ l, x.1.Registrable) : ∃ c', HPGCell.registerLoop env k c l = some c' := by
  induction k generalizing c l with
  | zero =>
    obtain rfl := List.length_eq_zero_iff.1 (Nat.le_zero.1 hk)
    exact ⟨c, rfl⟩
  | succ k ih =>
    unfold HPGCell.registerLoop
    cases hm : HPGCell.firstMin l with
    | none => exact ⟨c, rfl⟩
    | some ix =>
      obtain ⟨i, h, d⟩ := ix
      have hi := (firstMin_spec.2 _ _ hm).1
      have hperm := swapRemove_perm hi
      have hlen : (swapRemove l i).length ≤ k := by
        have := hperm.length_eq
        rw [List.length_cons] at this
        omega
      have hrest : ∀ x ∈ swapRemove l i, x.1.Registrable := fun x hx => hl x (hperm.mem_iff.2 (List.mem_cons_of_mem _ hx))
      obtain ⟨u, hu⟩ := HPGCell.registerHazard_total (env := env) (hl _ (List.mem_of_getElem? hi)) c
      cases d with
      | none =>
        dsimp only at hu ⊢
        rw [hu, Option.bind_some]
        exact ih _ _ hlen hrest
      | some d =>
        dsimp only at hu ⊢
        split_ifs
        · rw [hu, Option.bind_some]
          exact ih _ _ hlen hrest
        · exact ⟨c, rfl⟩

theorem HPGCell.registerHazards_total {env : HEnv K} (c : HPGCell K) {hs : List (Hazard K)} (hh : ∀ h ∈ hs, h.Registrable) :
    ∃ c', c.registerHazards env hs = some c' := by
  unfold HPGCell.registerHazards
  have : ∀ l : List (Hazard K), (∀ h ∈ l, h.Registrable) → ∃ l', l.mapM (HPGCell.boundingProx env c.centroid) = some l' ∧
      ∀ x ∈ l', x.1.Registrable := by
    intro l
    induction l with
    | nil => exact fun _ => ⟨[], rfl, fun x hx => by cases hx⟩
    | cons h l ih =>
      intro hl
      obtain ⟨l', e, hl'⟩ := ih fun x hx => hl x (List.mem_cons_of_mem _ hx)
      have hr := hl h List.mem_cons_self
      obtain ⟨s, hs, _⟩ := hr.surrogate
      refine ⟨(h, some (HPGCell.discProx env c.centroid s.polesBoundingCircle)) :: l', ?_, ?_⟩
      · rw [List.mapM_cons, e]
        unfold HPGCell.boundingProx
        rw [hr.inside]
        dsimp only
        rw [hs]
        rfl
      · intro x hx
        rcases List.mem_cons.1 hx with rfl | hx
        · exact hr
        · exact hl' x hx
  obtain ⟨l, e, hl⟩ := this _ fun h hm => hh h (List.mem_of_mem_filter hm)
  rw [e, Option.bind_some]
  exact HPGCell.registerLoop_total _ c l le_rfl hl

theorem mapM_defined {α β : Type*} {f : α → Option β} {l : List α} (h : ∀ a ∈ l, ∃ b, f a = some b) :
    ∃ l', l.mapM f = some l' ∧ l'.length = l.length := by
  induction l with
  | nil => exact ⟨[], rfl, rfl⟩
  | cons a l ih =>
    obtain ⟨l', e, hl⟩ := ih fun x hx => h x (List.mem_cons_of_mem _ hx)
    obtain ⟨b, hb⟩ := h a List.mem_cons_self
    refine ⟨b :: l', ?_, by simp [hl]⟩
    rw [List.mapM_cons, hb, e]
    rfl

theorem HPG.recompute_total {env : HEnv K} (es : List (HazardEntity K)) {D : List (Hazard K)} (hD : ∀ h ∈ D, h.Registrable) (g : Grid K (HPGCell K)) :
    ∃ g', HPG.mapCells (HPGCell.deregisterHazards env es D) g = some g' ∧ g.SameShape g' := by
  have hf : ∀ c : HPGCell K, ∃ c', HPGCell.deregisterHazards env es D c = some c' := by
    intro c
    unfold HPGCell.deregisterHazards
    split_ifs
    · exact HPGCell.registerHazards_total _ hD
    · exact ⟨c, rfl⟩
  unfold HPG.mapCells
  obtain ⟨l', e, hl⟩ := mapM_defined (l := g.cells) (f := fun (o : Option (HPGCell K)) => match o with
    | none => some none
    | some c => (HPGCell.deregisterHazards env es D c).map some) (by
    intro o _
    cases o with
    | none => exact ⟨_, rfl⟩
    | some c =>
      obtain ⟨c', hc'⟩ := hf c
      exact ⟨some c', by dsimp only; rw [hc']; rfl⟩)
  exact ⟨{ g with cells := l' }, Option.map_eq_some_iff.2 ⟨l', e, rfl⟩, rfl, rfl, hl⟩

/-! ## Engines -/

/-- The grid of an engine has the shape of the grid it was made with. -/
structure HShaped (g0 : HPG K) (g : HPG K) : Prop where
  same : g0.grid.SameShape g.grid
  radius : g.cellRadius = g0.cellRadius

theorem HPG.new_shape {env : HEnv K} {bbox : AARect K} {statics : List (Hazard K)} {nCells : ℕ} {g : HPG K}
    (h : HPG.new env bbox statics nCells = some g) : g.grid.WF ∧ g.grid.rows ≠ [] ∧ g.grid.cols ≠ [] := by
  unfold HPG.new at h
  split_ifs at h
  obtain ⟨rects, h1, h⟩ := Option.bind_eq_some_iff.1 h
  obtain ⟨r0, h2, h⟩ := Option.bind_eq_some_iff.1 h
  obtain ⟨cells, h3, h⟩ := Option.bind_eq_some_iff.1 h
  obtain ⟨grid, h4, rfl⟩ := Option.map_eq_some_iff.1 h
  obtain ⟨g, e, hw, hr, hc, _⟩ := Grid.new_spec (cells.map fun (c : HPGCell K) => (c, c.centroid))
  rw [h4] at e
  obtain rfl := Option.some.inj e
  obtain ⟨c, hc', _⟩ := forall₂_right_mem (mapM_forall₂_of h3) (List.mem_of_mem_head? h2)
  have hm : (c, c.centroid) ∈ cells.map fun (c : HPGCell K) => (c, c.centroid) := List.mem_map.2 ⟨c, hc', rfl⟩
  exact ⟨hw, List.ne_nil_of_mem ((hr _).2 ⟨_, hm, rfl⟩), List.ne_nil_of_mem ((hc _).2 ⟨_, hm, rfl⟩)⟩

theorem Grid.SameShape.of_rel {R : HPGCell K → HPGCell K → Prop} {g g' : Grid K (HPGCell K)} (h : GridRel R g g') : g.SameShape g' := by
  have := h.rest
  exact ⟨by rw [this], by rw [this], h.cells.length_eq.symm⟩

theorem HPG.flush_shape {env : HEnv K} {g g' : HPG K} {D : List (Hazard K)} (h : g.flush env D = some g') :
    g.grid.SameShape g'.grid ∧ g'.cellRadius = g.cellRadius ∧ g'.uncommitted = [] := by
  unfold HPG.flush at h
  split_ifs at h with hd
  · obtain ⟨grid, hgrid, rfl⟩ := Option.map_eq_some_iff.1 h
    exact ⟨.of_rel (mapCells_rel hgrid), rfl, rfl⟩
  · cases h
    refine ⟨⟨rfl, rfl, rfl⟩, rfl, ?_⟩
    unfold HPG.isDirty at hd
    simpa using hd

/-- Along every history, an engine has a grid exactly if the new one had, of the same
shape; the same for snapshots. -/
theorem HReach.shape {env : HEnv K} {o : SearchOracle K} {bbox : AARect K} {statics : List (Hazard K)} {nCells : ℕ}
    {φ : HazardEntity K → Hazard K} {x : HCDE K n ⊕ HSnap K} (hr : HReach env o bbox statics nCells φ x) :
    (nCells = 0 ∧ match x with
      | .inl c => c.hpg = none
      | .inr s => s.grid = none) ∨
    ∃ g0, HPG.new env bbox statics nCells = some g0 ∧ match x with
      | .inl c => ∃ g, c.hpg = some g ∧ HShaped g0 g
      | .inr s => ∃ g, s.grid = some g ∧ g0.grid.SameShape g := by
  have step : ∀ {c c' : HCDE K n} {f : HPG K → Option (HPG K)}, HCDE.onGrid c.hpg f = some c'.hpg →
      (∀ g g', f g = some g' → g.grid.SameShape g'.grid ∧ g'.cellRadius = g.cellRadius) →
      ((nCells = 0 ∧ c.hpg = none) ∨ ∃ g0, HPG.new env bbox statics nCells = some g0 ∧ ∃ g, c.hpg = some g ∧ HShaped g0 g) →
      ((nCells = 0 ∧ c'.hpg = none) ∨ ∃ g0, HPG.new env bbox statics nCells = some g0 ∧ ∃ g, c'.hpg = some g ∧ HShaped g0 g) := by
    intro c c' f h hf hi
    rcases onGrid_spec h with ⟨h1, h2⟩ | ⟨g, g', h1, h2, h3⟩
    · rcases hi with ⟨k1, _⟩ | ⟨g0, k1, g, k2, k3⟩
      · exact .inl ⟨k1, h2⟩
      · rw [h1] at k2; cases k2
    · rcases hi with ⟨_, k1⟩ | ⟨g0, k1, g1, k2, k3⟩
      · rw [h1] at k1; cases k1
      · rw [h1] at k2
        obtain rfl := Option.some.inj k2
        obtain ⟨a1, a2⟩ := hf g g' h3
        exact .inr ⟨g0, k1, g', h2, k3.same.trans a1, a2.trans k3.radius⟩
  have hflush : ∀ {c c' : HCDE K n}, c.flush env = some c' →
      ((nCells = 0 ∧ c.hpg = none) ∨ ∃ g0, HPG.new env bbox statics nCells = some g0 ∧ ∃ g, c.hpg = some g ∧ HShaped g0 g) →
      ((nCells = 0 ∧ c'.hpg = none) ∨ ∃ g0, HPG.new env bbox statics nCells = some g0 ∧ ∃ g, c'.hpg = some g ∧ HShaped g0 g) := by
    intro c c' he hi
    unfold HCDE.flush at he
    obtain ⟨hpg, h2, rfl⟩ := Option.map_eq_some_iff.1 he
    exact step (c' := { c with hpg := hpg }) h2 (fun g g' h => ⟨(HPG.flush_shape h).1, (HPG.flush_shape h).2.1⟩) hi
  have hcommit : ∀ {c c' : HCDE K n}, c.commit env = some c' →
      ((nCells = 0 ∧ c.hpg = none) ∨ ∃ g0, HPG.new env bbox statics nCells = some g0 ∧ ∃ g, c.hpg = some g ∧ HShaped g0 g) →
      ((nCells = 0 ∧ c'.hpg = none) ∨ ∃ g0, HPG.new env bbox statics nCells = some g0 ∧ ∃ g, c'.hpg = some g ∧ HShaped g0 g) := by
    intro c c' he hi
    unfold HCDE.commit at he
    obtain ⟨cde, _, he⟩ := Option.bind_eq_some_iff.1 he
    exact hflush he hi
  induction hr with
  | @new c h =>
    unfold HCDE.new at h
    obtain ⟨hpg, h1, h⟩ := Option.bind_eq_some_iff.1 h
    obtain ⟨cde, h2, rfl⟩ := Option.map_eq_some_iff.1 h
    split_ifs at h1 with h0
    · cases h1; exact .inl ⟨h0, rfl⟩
    · obtain ⟨g, hg, rfl⟩ := Option.map_eq_some_iff.1 h1
      exact .inr ⟨g, hg, g, rfl, ⟨rfl, rfl, rfl⟩, rfl⟩
  | @register c c' h _ hp hφ he ih =>
    unfold HCDE.register at he
    obtain ⟨cde, h1, he⟩ := Option.bind_eq_some_iff.1 he
    obtain ⟨hpg, h2, rfl⟩ := Option.map_eq_some_iff.1 he
    refine step (c' := ⟨cde, hpg⟩) h2 ?_ ih
    intro g g' hg
    unfold HPG.register at hg
    obtain ⟨s, hs, hg⟩ := Option.bind_eq_some_iff.1 hg
    obtain ⟨b, _, hg⟩ := Option.bind_eq_some_iff.1 hg
    obtain ⟨st, hst, rfl⟩ := Option.map_eq_some_iff.1 hg
    exact ⟨.of_rel (registerPoles_rel (R := fun _ _ => True) (fun _ => trivial) (fun _ _ _ _ _ => trivial) s.poles
      (fun _ _ _ _ _ => trivial) hst), rfl⟩
  | @deregister c c' e ci _ hp he ih =>
    unfold HCDE.deregister at he
    obtain ⟨cde, h1, he⟩ := Option.bind_eq_some_iff.1 he
    obtain ⟨hpg, h2, rfl⟩ := Option.map_eq_some_iff.1 he
    refine step (c' := ⟨cde, hpg⟩) h2 ?_ ih
    intro g g' hg
    unfold HPG.deregister at hg
    split_ifs at hg
    · obtain ⟨grid, hgrid, rfl⟩ := Option.map_eq_some_iff.1 hg
      exact ⟨.of_rel (mapCells_rel hgrid), rfl⟩
    · cases hg; exact ⟨⟨rfl, rfl, rfl⟩, rfl⟩
  | flush _ he ih => exact hflush he ih
  | commit _ he ih => exact hcommit he ih
  | @snapshot c c' s _ he ih =>
    unfold HCDE.createSnapshot at he
    obtain ⟨c1, h1, he⟩ := Option.bind_eq_some_iff.1 he
    split_ifs at he with hd
    cases he
    rcases hcommit h1 ih with ⟨k1, k2⟩ | ⟨g0, k1, g, k2, k3⟩
    · exact .inl ⟨k1, by dsimp only; rw [k2]; rfl⟩
    · exact .inr ⟨g0, k1, g.grid, by dsimp only; rw [k2]; rfl, k3.same⟩
  | @restore c c' s _ _ he ih1 ih2 =>
    unfold HCDE.restore at he
    obtain ⟨cde, h1, he⟩ := Option.bind_eq_some_iff.1 he
    obtain ⟨hpg, h2, rfl⟩ := Option.map_eq_some_iff.1 he
    rcases onGrid_spec h2 with ⟨h3, h4⟩ | ⟨g, g', h3, h4, h5⟩
    · rcases ih1 with ⟨k1, _⟩ | ⟨g0, k1, g, k2, k3⟩
      · exact .inl ⟨k1, h4⟩
      · rw [h3] at k2; cases k2
    · rcases ih1 with ⟨_, k1⟩ | ⟨g0, k1, g1, k2, k3⟩
      · dsimp only at k1; rw [h3] at k1; cases k1
      rw [h3] at k2
      obtain rfl := Option.some.inj k2
      obtain ⟨grid, h6, h7⟩ := Option.bind_eq_some_iff.1 h5
      unfold HPG.restore at h7
      split_ifs at h7
      cases h7
      rcases ih2 with ⟨j1, j2⟩ | ⟨g0', j1, g2, j2, j3⟩
      · dsimp only at j2; rw [h6] at j2; cases j2
      · rw [k1] at j1
        obtain rfl := Option.some.inj j1
        rw [h6] at j2
        obtain rfl := Option.some.inj j2
        exact .inr ⟨g0, k1, _, h4, j3, k3.radius⟩

theorem Hazard.Registrable.of_erase {h h' : Hazard K} (he : h.erase = h') (hr : h'.Registrable) : h.Registrable := by
  subst he
  exact ⟨hr.inside, hr.surrogate, hr.width, hr.height⟩

theorem HCDE.flush_total {env : HEnv K} {c : HCDE K n} (hD : ∀ h ∈ c.cde.dynamics, h.Registrable) :
    ∃ c', c.flush env = some c' ∧ ∀ g, c'.hpg = some g → g.uncommitted = [] := by
  unfold HCDE.flush HCDE.onGrid
  cases hg : c.hpg with
  | none => exact ⟨_, rfl, fun g h => by cases h⟩
  | some g =>
    dsimp only
    unfold HPG.flush
    split_ifs with hd
    · obtain ⟨g', e, _⟩ := HPG.recompute_total (env := env) g.uncommitted hD g.grid
      rw [e]
      refine ⟨_, rfl, fun g2 h => ?_⟩
      obtain rfl := Option.some.inj h
      rfl
    · refine ⟨_, rfl, fun g2 h => ?_⟩
      obtain rfl := Option.some.inj h
      unfold HPG.isDirty at hd
      simpa using hd

/-- **No operation of a reachable engine panics.** -/
theorem HReach.total {env : HEnv K} {o : SearchOracle K} {bbox : AARect K} {statics : List (Hazard K)} {nCells : ℕ}
    {φ : HazardEntity K → Hazard K} (hst : (statics.map (·.entity)).Nodup) (hφ : ∀ e, (φ e).Registrable)
    (hbox : ∀ g, HPG.new env bbox statics nCells = some g → ∀ e s, (φ e).shape.val.surrogate = some s → ∀ pole ∈ s.poles,
      (HPG.seedBox g.cellRadius pole).xMin ≤ (HPG.seedBox g.cellRadius pole).xMax ∧
      (HPG.seedBox g.cellRadius pole).yMin ≤ (HPG.seedBox g.cellRadius pole).yMax)
    {c : HCDE K n} (hr : HReach env o bbox statics nCells φ (.inl c)) :
    (∀ h, (CDEOp.register h).Pre c.cde → h.erase = φ h.entity → ∃ c', c.register env o h = some c') ∧
    (∀ e ci, (CDEOp.deregister e ci).Pre c.cde → ∃ c', c.deregister env o e ci = some c') ∧
    (∃ c', c.flush env = some c') ∧ (∃ c', c.commit env = some c') ∧ (∃ r, c.createSnapshot env = some r) ∧
    (∀ s, HReach (n := n) env o bbox statics nCells φ (.inr s) → ∃ c', c.restore env o s = some c') := by
  have hi : HInv env o statics φ c := hr.inv hst
  have hreg : ∀ h : Hazard K, h.erase = φ h.entity → h.Registrable := fun h he => .of_erase he (hφ _)
  have hcons : ∀ h ∈ c.cde.dynamics ++ c.cde.uncommitted, h.Registrable := fun h hh => hreg h (hi.cons h hh)
  have hcommit : ∃ c', c.commit env = some c' ∧ ∀ g, c'.hpg = some g → g.uncommitted = [] := by
    obtain ⟨cde, e1, i1, s1, b1⟩ := CDEOp.run_inv (o := o) hi.reach.inv (op := .commit) trivial
    have he := CDEOp.run_effect hi.reach.inv (op := .commit) trivial e1
    obtain ⟨c', e2, h2⟩ := HCDE.flush_total (env := env) (c := ⟨cde, c.hpg⟩) (by
      intro h hh
      dsimp only at hh
      rw [he.1] at hh
      exact hcons h (List.mem_append_left _ hh))
    refine ⟨c', ?_, h2⟩
    unfold HCDE.commit
    rw [show c.cde.commit = some cde from e1, Option.bind_some]
    exact e2
  refine ⟨?_, ?_, ?_, ?_, ?_, ?_⟩
  · intro h hp hh
    obtain ⟨cde, e1, _⟩ := CDEOp.run_inv (o := o) hi.reach.inv hp
    have hh' : ((c.cde.uncommitted.find? fun u => u.entity = h.entity).getD h).erase = φ ((c.cde.uncommitted.find? fun u => u.entity = h.entity).getD h).entity := by
      cases hf : c.cde.uncommitted.find? (fun u => u.entity = h.entity) with
      | none => exact hh
      | some u => exact hi.cons u (List.mem_append_right _ (List.mem_of_find?_eq_some hf))
    unfold HCDE.register
    rw [show c.cde.register env.f o h = some cde from e1]
    dsimp only
    rw [Option.bind_some]
    unfold HCDE.onGrid
    generalize (c.cde.uncommitted.find? fun u => u.entity = h.entity).getD h = h' at hh' ⊢
    rcases hr.shape with ⟨_, k⟩ | ⟨g0, k1, g, k2, k3⟩
    · dsimp only at k
      rw [k]
      exact ⟨_, rfl⟩
    · obtain ⟨w1, w2, w3⟩ := HPG.new_shape k1
      obtain ⟨g', e2, _⟩ := HPG.register_total (env := env) (g := g) (hreg _ hh') (by
        intro s hs pole hp
        rw [k3.radius]
        refine hbox g0 k1 h'.entity s ?_ pole hp
        rw [← hh']
        exact hs) (k3.same.wf w1) (by rw [k3.same.1]; exact w2) (by rw [k3.same.2.1]; exact w3)
      rw [k2]
      dsimp only
      rw [e2]
      exact ⟨_, rfl⟩
  · intro e ci hp
    obtain ⟨cde, e1, i1, s1, b1⟩ := CDEOp.run_inv (o := o) hi.reach.inv hp
    obtain ⟨hh, he1, hperm⟩ := CDEOp.run_effect hi.reach.inv hp e1
    unfold HCDE.deregister
    rw [show c.cde.deregister o e ci = some cde from e1, Option.bind_some]
    unfold HCDE.onGrid HPG.deregister
    cases hg : c.hpg with
    | none => exact ⟨_, rfl⟩
    | some g =>
      dsimp only
      split_ifs
      · obtain ⟨g', e2, _⟩ := HPG.recompute_total (env := env) [e] (D := cde.dynamics) (by
          intro h hm
          exact hcons h (List.mem_append_left _ (hperm.mem_iff.2 (List.mem_cons_of_mem _ hm)))) g.grid
        rw [e2]
        exact ⟨_, rfl⟩
      · exact ⟨_, rfl⟩
  · obtain ⟨c', e, _⟩ := HCDE.flush_total (env := env) (c := c) fun h hh => hcons h (List.mem_append_left _ hh)
    exact ⟨c', e⟩
  · obtain ⟨c', e, _⟩ := hcommit
    exact ⟨c', e⟩
  · obtain ⟨c', e, hu⟩ := hcommit
    unfold HCDE.createSnapshot
    rw [e, Option.bind_some]
    have : (c'.hpg.map HPG.isDirty).getD false = false := by
      cases hg : c'.hpg with
      | none => rfl
      | some g =>
        have := hu g hg
        simp [HPG.isDirty, this]
    rw [this]
    exact ⟨_, rfl⟩
  · intro s hs
    have hS : SInv env statics φ s := hs.inv hst
    have hp : (CDEOp.restore s.dynamics).Pre c.cde := ⟨hS.nodup, by rw [hi.stat]; exact hS.disj⟩
    obtain ⟨cde, e1, _⟩ := CDEOp.run_inv (o := o) hi.reach.inv hp
    unfold HCDE.restore
    rw [show c.cde.restore env.f o s.dynamics = some cde from e1, Option.bind_some]
    unfold HCDE.onGrid
    rcases hr.shape with ⟨_, k⟩ | ⟨g0, k1, g, k2, k3⟩
    · dsimp only at k
      rw [k]
      exact ⟨_, rfl⟩
    · rcases hs.shape with ⟨j1, _⟩ | ⟨g0', j1, gs, j2, j3⟩
      · unfold HPG.new at k1
        rw [if_pos j1] at k1
        cases k1
      · rw [k1] at j1
        obtain rfl := Option.some.inj j1
        rw [k2, j2]
        dsimp only
        unfold HPG.restore
        rw [Option.bind_some, if_pos (k3.same.2.2.trans j3.2.2.symm)]
        exact ⟨_, rfl⟩

end Jagua
