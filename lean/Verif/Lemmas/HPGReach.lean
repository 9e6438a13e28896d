import Verif.Lemmas.HPG
import Verif.Lemmas.BFill

/-! # Engines with a proximity grid -/

set_option linter.unusedSectionVars false

namespace Jagua

variable {K : Type*} [Arith K] [LinearOrder K] {n : ℕ}

theorem onGrid_spec {o o' : Option (HPG K)} {f : HPG K → Option (HPG K)} (h : HCDE.onGrid o f = some o') :
    (o = none ∧ o' = none) ∨ ∃ g g', o = some g ∧ o' = some g' ∧ f g = some g' := by
  unfold HCDE.onGrid at h
  cases o with
  | none => cases h; exact .inl ⟨rfl, rfl⟩
  | some g =>
    obtain ⟨g', hg, rfl⟩ := Option.map_eq_some_iff.1 h
    exact .inr ⟨g, g', rfl, rfl, hg⟩

theorem CDE.register_dynamics {f : Fpa K} {o : SearchOracle K} {c c' : CDE K n} {h : Hazard K} (hr : c.register f o h = some c') :
    c'.dynamics = c.dynamics ++ [(c.uncommitted.find? fun u => u.entity = h.entity).getD h] := by
  unfold CDE.register at hr
  cases hf : c.uncommitted.findIdx? (fun u => u.entity = h.entity) with
  | none =>
    rw [hf] at hr
    have : c.uncommitted.find? (fun u => u.entity = h.entity) = none := by
      rw [List.find?_eq_none]
      intro x hx
      simpa using List.findIdx?_eq_none_iff.1 hf x hx
    rw [this]
    dsimp only at hr
    split at hr
    · cases hr
    · cases hr; rfl
  | some i =>
    rw [hf] at hr
    have hfi : c.uncommitted.find? (fun u => u.entity = h.entity) = c.uncommitted[i]? := by
      obtain ⟨hi, h1, h2⟩ := List.findIdx?_eq_some_iff_getElem.1 hf
      rw [List.getElem?_eq_getElem hi]
      rw [List.find?_eq_some_iff_getElem]
      exact ⟨h1, i, hi, rfl, fun j hj => by simpa using h2 j hj⟩
    rw [hfi]
    dsimp only at hr
    split at hr
    · cases hr
    · rename_i u hu
      cases hr
      rw [hu]
      rfl

/-- What is known about an engine with a grid. -/
structure HInv (env : HEnv K) (o : SearchOracle K) (statics : List (Hazard K)) (φ : HazardEntity K → Hazard K) (c : HCDE K n) : Prop where
  reach : c.cde.Reachable env.f o
  cons : c.cde.Consistent φ
  stat : c.cde.statics = statics
  cells : ∀ g, c.hpg = some g → ∀ x, some x ∈ g.grid.cells → CellInv env statics c.cde.dynamics g.uncommitted x

/-- What is known about a snapshot. -/
structure SInv (env : HEnv K) (statics : List (Hazard K)) (φ : HazardEntity K → Hazard K) (s : HSnap K) : Prop where
  nodup : (s.dynamics.map (·.entity)).Nodup
  cons : ∀ h ∈ s.dynamics, h.erase = φ h.entity
  disj : ∀ h ∈ s.dynamics, ∀ x ∈ statics, x.entity ≠ h.entity
  cells : ∀ g, s.grid = some g → ∀ x, some x ∈ g.cells → CellInv env statics s.dynamics [] x

theorem HPG.flush_cells {env : HEnv K} {g g' : HPG K} {D statics : List (Hazard K)} (h : g.flush env D = some g')
    (hi : ∀ x, some x ∈ g.grid.cells → CellInv env statics D g.uncommitted x) :
    g'.uncommitted = [] ∧ ∀ x, some x ∈ g'.grid.cells → CellInv env statics D [] x := by
  unfold HPG.flush at h
  split_ifs at h with hd
  · obtain ⟨grid, hg, rfl⟩ := Option.map_eq_some_iff.1 h
    refine ⟨rfl, ?_⟩
    intro x hx
    obtain ⟨c, hc, he⟩ := (mapCells_rel hg).left hx
    exact (hi c hc).deregister (fun x hx => .inl hx) (fun e he => .inr he) he
  · cases h
    have : g.uncommitted = [] := by
      unfold HPG.isDirty at hd
      simpa using hd
    rw [this] at hi
    exact ⟨this, hi⟩

theorem HCDE.flush_inv {env : HEnv K} {o : SearchOracle K} {statics : List (Hazard K)} {φ : HazardEntity K → Hazard K} {c c' : HCDE K n}
    (hi : HInv env o statics φ c) (h : c.flush env = some c') : HInv env o statics φ c' ∧ c'.cde = c.cde ∧
      ∀ g, c'.hpg = some g → g.uncommitted = [] := by
  unfold HCDE.flush at h
  obtain ⟨hpg, hh, rfl⟩ := Option.map_eq_some_iff.1 h
  rcases onGrid_spec hh with ⟨h1, rfl⟩ | ⟨g, g', h1, rfl, h2⟩
  · exact ⟨⟨hi.reach, hi.cons, hi.stat, by simp⟩, rfl, by simp⟩
  · obtain ⟨k1, k2⟩ := HPG.flush_cells h2 (hi.cells g h1)
    refine ⟨⟨hi.reach, hi.cons, hi.stat, ?_⟩, rfl, ?_⟩
    · intro x hx
      obtain rfl := Option.some.inj hx
      rw [k1]
      exact k2
    · intro x hx
      obtain rfl := Option.some.inj hx
      exact k1

theorem HCDE.commit_inv {env : HEnv K} {o : SearchOracle K} {statics : List (Hazard K)} {φ : HazardEntity K → Hazard K} {c c' : HCDE K n}
    (hi : HInv env o statics φ c) (h : c.commit env = some c') : HInv env o statics φ c' ∧ c'.cde.dynamics = c.cde.dynamics ∧
      ∀ g, c'.hpg = some g → g.uncommitted = [] := by
  unfold HCDE.commit at h
  obtain ⟨cde, h1, h2⟩ := Option.bind_eq_some_iff.1 h
  have hop : (CDEOp.commit : CDEOp K).run env.f o c.cde = some cde := h1
  have he := CDEOp.run_effect hi.reach.inv (op := .commit) trivial hop
  have hst := (CDEOp.run_inv (o := o) hi.reach.inv (op := .commit) trivial)
  obtain ⟨c1, e1, i1, s1, b1⟩ := hst
  rw [hop] at e1
  obtain rfl := Option.some.inj e1
  have : HInv env o statics φ (⟨cde, c.hpg⟩ : HCDE K n) := by
    refine ⟨hi.reach.run (.cons (op := .commit) trivial hop (.nil _)), CDEOp.run_consistent hi.reach.inv (op := .commit) trivial hop hi.cons trivial,
      s1.trans hi.stat, ?_⟩
    intro g hg x hx
    dsimp only
    rw [he.1]
    exact hi.cells g hg x hx
  obtain ⟨k1, k2, k3⟩ := HCDE.flush_inv this h2
  exact ⟨k1, by rw [k2]; exact he.1, k3⟩

theorem Grid.mem_of_new {α : Type*} {es : List (α × Point K)} {g : Grid K α} (h : Grid.new es = some g) {a : α} (ha : some a ∈ g.cells) :
    ∃ p, (a, p) ∈ es := by
  unfold Grid.new at h
  obtain ⟨cells, hc, rfl⟩ := Option.map_eq_some_iff.1 h
  have key : ∀ (rows cols : List K) (l : List (α × Point K)) (cs cs' : List (Option α)), l.foldlM (Grid.store rows cols) cs = some cs' →
      ∀ a, some a ∈ cs' → some a ∈ cs ∨ ∃ p, (a, p) ∈ l := by
    intro rows cols l
    induction l with
    | nil => intro cs cs' h a ha; cases h; exact .inl ha
    | cons e l ih =>
      intro cs cs' h a ha
      rw [List.foldlM_cons] at h
      obtain ⟨c1, h1, h⟩ := Option.bind_eq_some_iff.1 h
      rcases ih c1 cs' h a ha with h2 | ⟨p, hp⟩
      · unfold Grid.store at h1
        split at h1
        · obtain ⟨i, _, h1⟩ := Option.bind_eq_some_iff.1 h1
          split_ifs at h1
          cases h1
          rcases List.mem_or_eq_of_mem_set h2 with h3 | h3
          · exact .inl h3
          · exact .inr ⟨e.2, by rw [Option.some.inj h3]; exact List.mem_cons_self⟩
        · cases h1
      · exact .inr ⟨p, List.mem_cons_of_mem _ hp⟩
  rcases key _ _ _ _ _ hc a ha with h1 | h1
  · exact absurd (List.eq_of_mem_replicate h1) (by simp)
  · exact h1

theorem HPG.new_cells {env : HEnv K} {bbox : AARect K} {statics : List (Hazard K)} {nCells : ℕ} {g : HPG K}
    (h : HPG.new env bbox statics nCells = some g) :
    (∃ rects, GridGen.generate env bbox (statics.filter fun h => h.entity.isUniversal) nCells = some rects ∧
      (∃ r ∈ rects, g.cellRadius = r.diameter env / 2) ∧
      ∀ x, some x ∈ g.grid.cells → ∃ r ∈ rects, HPGCell.new env r statics = some x) ∧ g.uncommitted = [] ∧ g.bbox = bbox := by
  unfold HPG.new at h
  split_ifs at h
  obtain ⟨rects, h1, h⟩ := Option.bind_eq_some_iff.1 h
  obtain ⟨r0, h2, h⟩ := Option.bind_eq_some_iff.1 h
  obtain ⟨cells, h3, h⟩ := Option.bind_eq_some_iff.1 h
  obtain ⟨grid, h4, rfl⟩ := Option.map_eq_some_iff.1 h
  refine ⟨⟨rects, h1, ⟨r0, List.mem_of_head? h2, rfl⟩, ?_⟩, rfl, rfl⟩
  intro x hx
  obtain ⟨p, hp⟩ := Grid.mem_of_new h4 hx
  obtain ⟨y, hy, he⟩ := List.mem_map.1 hp
  cases he
  obtain ⟨r, hr, h5⟩ := forall₂_exists_left (mapM_forall₂_of h3) hy
  exact ⟨r, hr, h5⟩

theorem HPGCell.new_inv {env : HEnv K} {r : AARect K} {statics : List (Hazard K)} {c : HPGCell K}
    (h : HPGCell.new env r statics = some c) (D : List (Hazard K)) (U : List (HazardEntity K)) : CellInv env statics D U c := by
  obtain ⟨h1, _, _, h4, _⟩ := HPGCell.new_spec h
  refine ⟨?_, .inl h4, h4 ▸ le_rfl⟩
  rw [h1, h]
  cases c
  simp_all

theorem HPG.register_cells {env : HEnv K} {g g' : HPG K} {h : Hazard K} {D statics : List (Hazard K)} (hr : g.register env h = some g')
    (hh : h ∈ D) (hi : ∀ x, some x ∈ g.grid.cells → CellInv env statics D g.uncommitted x) :
    g'.uncommitted = g.uncommitted ∧ ∀ x, some x ∈ g'.grid.cells → CellInv env statics D g.uncommitted x := by
  unfold HPG.register at hr
  obtain ⟨s, hs, hr⟩ := Option.bind_eq_some_iff.1 hr
  obtain ⟨b, _, hr⟩ := Option.bind_eq_some_iff.1 hr
  obtain ⟨st, hst, rfl⟩ := Option.map_eq_some_iff.1 hr
  refine ⟨rfl, ?_⟩
  have := registerPoles_rel (R := fun c c' => CellInv env statics D g.uncommitted c → CellInv env statics D g.uncommitted c')
    (fun _ h => h) (fun _ _ _ h1 h2 h => h2 (h1 h)) s.poles
    (fun pole hp c u hu hc => hc.registerPole hh hs hp hu) hst
  intro x hx
  obtain ⟨c, hc, h1⟩ := this.left hx
  exact h1 (hi c hc)

/-- **Every reachable engine and snapshot is as described.** -/
theorem HReach.inv {env : HEnv K} {o : SearchOracle K} {bbox : AARect K} {statics : List (Hazard K)} {nCells : ℕ}
    {φ : HazardEntity K → Hazard K} (hst : (statics.map (·.entity)).Nodup) {x : HCDE K n ⊕ HSnap K}
    (hr : HReach env o bbox statics nCells φ x) : match x with
      | .inl c => HInv env o statics φ c
      | .inr s => SInv env statics φ s := by
  induction hr with
  | @new c h =>
    unfold HCDE.new at h
    obtain ⟨hpg, h1, h⟩ := Option.bind_eq_some_iff.1 h
    obtain ⟨cde, h2, rfl⟩ := Option.map_eq_some_iff.1 h
    obtain ⟨c1, e1, i1, s1, d1, u1, b1⟩ := CDE.new_inv (f := env.f) (o := o) (n := n) (r := bbox) hst
    rw [h2] at e1
    obtain rfl := Option.some.inj e1
    refine ⟨⟨bbox, statics, cde, [], hst, h2, .nil _⟩, ?_, s1, ?_⟩
    · intro x hx
      dsimp only at hx
      rw [d1, u1] at hx
      simp at hx
    · intro g hg x hx
      dsimp only at hg
      subst hg
      split_ifs at h1
      · cases h1
      obtain ⟨g', hg', he⟩ := Option.map_eq_some_iff.1 h1
      cases he
      obtain ⟨⟨rects, _, _, h3⟩, h4, h5⟩ := HPG.new_cells hg'
      obtain ⟨r, _, h6⟩ := h3 x hx
      exact HPGCell.new_inv h6 _ _
  | @register c c' h _ hp hφ he ih =>
    unfold HCDE.register at he
    obtain ⟨cde, h1, he⟩ := Option.bind_eq_some_iff.1 he
    obtain ⟨hpg, h2, rfl⟩ := Option.map_eq_some_iff.1 he
    have hop : (CDEOp.register h).run env.f o c.cde = some cde := h1
    obtain ⟨c1, e1, i1, s1, b1⟩ := CDEOp.run_inv (o := o) ih.reach.inv hp
    rw [hop] at e1
    obtain rfl := Option.some.inj e1
    have hd := CDE.register_dynamics h1
    refine ⟨ih.reach.run (.cons hp hop (.nil _)), CDEOp.run_consistent ih.reach.inv hp hop ih.cons hφ, s1.trans ih.stat, ?_⟩
    intro g' hg' x hx
    dsimp only at hg'
    rcases onGrid_spec h2 with ⟨_, h3⟩ | ⟨g, g'', hg, h3, h4⟩
    · rw [h3] at hg'; cases hg'
    · rw [h3] at hg'
      obtain rfl := Option.some.inj hg'
      obtain ⟨k1, k2⟩ := HPG.register_cells (D := cde.dynamics) (statics := statics) h4 (by rw [hd]; simp)
        (fun x hx => (ih.cells g hg x hx).mono (fun y hy => .inl (by rw [hd]; exact List.mem_append_left _ hy)) (fun e he => he))
      rw [k1]
      exact k2 x hx
  | @deregister c c' e ci _ hp he ih =>
    unfold HCDE.deregister at he
    obtain ⟨cde, h1, he⟩ := Option.bind_eq_some_iff.1 he
    obtain ⟨hpg, h2, rfl⟩ := Option.map_eq_some_iff.1 he
    have hop : (CDEOp.deregister e ci).run env.f o c.cde = some cde := h1
    obtain ⟨c1, e1, i1, s1, b1⟩ := CDEOp.run_inv (o := o) ih.reach.inv hp
    rw [hop] at e1
    obtain rfl := Option.some.inj e1
    obtain ⟨hh, he1, hperm⟩ := CDEOp.run_effect ih.reach.inv hp hop
    refine ⟨ih.reach.run (.cons hp hop (.nil _)), CDEOp.run_consistent ih.reach.inv hp hop ih.cons trivial, s1.trans ih.stat, ?_⟩
    intro g' hg' x hx
    dsimp only at hg'
    rcases onGrid_spec h2 with ⟨_, h3⟩ | ⟨g, g'', hg, h3, h4⟩
    · rw [h3] at hg'; cases hg'
    · rw [h3] at hg'
      obtain rfl := Option.some.inj hg'
      have hD : ∀ y ∈ c.cde.dynamics, y ∈ cde.dynamics ∨ y.entity = e := by
        intro y hy
        rcases List.mem_cons.1 (hperm.mem_iff.1 hy) with rfl | hy
        · exact .inr he1
        · exact .inl hy
      unfold HPG.deregister at h4
      split_ifs at h4 with hci
      · obtain ⟨grid, hgrid, rfl⟩ := Option.map_eq_some_iff.1 h4
        obtain ⟨y, hy, hxy⟩ := (mapCells_rel hgrid).left hx
        exact (ih.cells g hg y hy).deregister (fun z hz => (hD z hz).imp_right fun h => by simp [h]) (fun z hz => .inl hz) hxy
      · cases h4
        exact (ih.cells g hg x hx).mono (fun z hz => (hD z hz).imp_right fun h => by simp [h]) (fun z hz => List.mem_append_left _ hz)
  | flush _ he ih => exact (HCDE.flush_inv ih he).1
  | commit _ he ih => exact (HCDE.commit_inv ih he).1
  | @snapshot c c' s _ he ih =>
    unfold HCDE.createSnapshot at he
    obtain ⟨c1, h1, he⟩ := Option.bind_eq_some_iff.1 he
    split_ifs at he with hd
    cases he
    obtain ⟨k1, k2, k3⟩ := HCDE.commit_inv ih h1
    obtain ⟨n1, n2, n3, n4, n5, n6⟩ := not_mem_of_nodup k1.reach.inv
    refine ⟨n5, fun h hh => k1.cons h (List.mem_append_left _ hh), ?_, ?_⟩
    · intro h hh x hx he
      rw [← k1.stat] at hx
      exact n1 x hx h hh he
    · intro g hg x hx
      obtain ⟨g', hg', rfl⟩ := Option.map_eq_some_iff.1 hg
      have := k1.cells g' hg' x hx
      rwa [k3 g' hg'] at this
  | @restore c c' s _ _ he ih1 ih2 =>
    unfold HCDE.restore at he
    obtain ⟨cde, h1, he⟩ := Option.bind_eq_some_iff.1 he
    obtain ⟨hpg, h2, rfl⟩ := Option.map_eq_some_iff.1 he
    have hp : (CDEOp.restore s.dynamics).Pre c.cde := ⟨ih2.nodup, by rw [ih1.stat]; exact ih2.disj⟩
    have hop : (CDEOp.restore s.dynamics).run env.f o c.cde = some cde := h1
    obtain ⟨c1, e1, i1, s1, b1⟩ := CDEOp.run_inv (o := o) ih1.reach.inv hp
    rw [hop] at e1
    obtain rfl := Option.some.inj e1
    have hcons := CDEOp.run_consistent ih1.reach.inv hp hop ih1.cons ih2.cons
    obtain ⟨hperm, hu, _⟩ := CDEOp.run_effect ih1.reach.inv hp hop
    refine ⟨ih1.reach.run (.cons hp hop (.nil _)), hcons, s1.trans ih1.stat, ?_⟩
    intro g' hg' x hx
    dsimp only at hg'
    rcases onGrid_spec h2 with ⟨_, h3⟩ | ⟨g, g'', hg, h3, h4⟩
    · rw [h3] at hg'; cases hg'
    · rw [h3] at hg'
      obtain rfl := Option.some.inj hg'
      obtain ⟨grid, h5, h6⟩ := Option.bind_eq_some_iff.1 h4
      unfold HPG.restore at h6
      split_ifs at h6 with hl
      cases h6
      have hc := ih2.cells grid h5 x hx
      refine ⟨hc.base, ?_, hc.le⟩
      rcases hc.att with h | h | ⟨h, hh, he, s', hs', hpole⟩
      · exact .inl h
      · simp at h
      · obtain ⟨y, hy, hye⟩ := List.mem_map.1 (hperm.mem_iff.2 (List.mem_map.2 ⟨h, hh, rfl⟩))
        have hval : y.shape.val = h.shape.val := erase_val (by
          rw [hcons y (List.mem_append_left _ hy), ih2.cons h hh, hye])
        exact .inr (.inr ⟨y, hy, hye.trans he, s', by rw [hval]; exact hs', hpole⟩)

end Jagua
