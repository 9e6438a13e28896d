import Verif.Lemmas.HPGExact
import Verif.Lemmas.HPGReach
import Verif.Spec.HPGExact

/-! # Tidy histories keep the grid exact -/

set_option linter.unusedSectionVars false

namespace Jagua

variable {K : Type*} [Field K] [LinearOrder K] [IsStrictOrderedRing K] {n : ℕ}

theorem HTidy.reach {env : HEnv K} {o : SearchOracle K} {bbox : AARect K} {statics : List (Hazard K)} {nCells : ℕ}
    {φ : HazardEntity K → Hazard K} {x : HCDE K n ⊕ HSnap K} (h : HTidy env o bbox statics nCells φ x) :
    HReach env o bbox statics nCells φ x := by
  induction h with
  | new h => exact .new h
  | register _ h1 h2 h3 ih => exact .register ih h1 h2 h3
  | deregister _ h1 _ h3 ih => exact .deregister ih h1 h3
  | flush _ h ih => exact .flush ih h
  | commit _ h ih => exact .commit ih h
  | snapshot _ h ih => exact .snapshot ih h
  | restore _ _ h ih1 ih2 => exact .restore ih1 ih2 h

theorem registerLoop_base {env : HEnv K} (k : ℕ) {c c' : HPGCell K} {l : List (Hazard K × Option K)}
    (h : HPGCell.registerLoop env k c l = some c') : c.SameBase c' := by
  induction k generalizing c l with
  | zero =>
    unfold HPGCell.registerLoop at h
    cases hf : HPGCell.firstMin l with
    | none => rw [hf] at h; cases h; exact .refl _
    | some r => rw [hf] at h; cases h
  | succ k ih =>
    unfold HPGCell.registerLoop at h
    cases hf : HPGCell.firstMin l with
    | none => rw [hf] at h; cases h; exact .refl _
    | some r =>
      rw [hf] at h
      obtain ⟨i, x, key⟩ := r
      have step : ∀ (h : (c.registerHazard env x).bind (fun (r : HPGCell K × HPGCellUpdate) =>
          HPGCell.registerLoop env k r.1 (swapRemove l i)) = some c'), c.SameBase c' := by
        intro h
        obtain ⟨u, hu, h⟩ := Option.bind_eq_some_iff.1 h
        obtain ⟨_, _, _, _, hb, _⟩ := HPGCell.registerHazard_spec hu
        exact hb.trans (ih h)
      cases key with
      | none => exact step h
      | some d =>
        dsimp only at h
        split_ifs at h
        · exact step h
        · cases h; exact .refl _

theorem deregister_base {env : HEnv K} {D : List (Hazard K)} {es : List (HazardEntity K)} {c c' : HPGCell K}
    (h : HPGCell.deregisterHazards env es D c = some c') : c.SameBase c' := by
  unfold HPGCell.deregisterHazards at h
  split_ifs at h
  · unfold HPGCell.registerHazards at h
    obtain ⟨l, _, h⟩ := Option.bind_eq_some_iff.1 h
    have h1 : c.SameBase { c with uni := c.staticUni } := rfl
    exact h1.trans (registerLoop_base _ h)
  · cases h; exact .refl _

/-- what the induction keeps for an engine -/
def EInv (env : HEnv K) (ε : K) (statics : List (Hazard K)) (N : GNum K) (c : HCDE K n) : Prop :=
  ∀ g, c.hpg = some g → g.cellRadius = N.r ∧ UGrid N g.grid ∧
    ∃ P : List (Hazard K), (∀ h ∈ P, h.entity ∈ g.uncommitted) ∧ ExG env ε statics (poleSet (c.cde.dynamics ++ P)) g.grid

/-- what the induction keeps for a snapshot -/
def ESnap (env : HEnv K) (ε : K) (statics : List (Hazard K)) (N : GNum K) (s : HSnap K) : Prop :=
  ∀ g, s.grid = some g → UGrid N g ∧ ExG env ε statics (poleSet s.dynamics) g

/-- the hazards are active and fit in the box -/
def HazGood (bbox : AARect K) (h : Hazard K) : Prop :=
  h.active = true ∧ ∀ s, h.shape.val.surrogate = some s → s.FitsIn bbox

theorem HazGood.ok {bbox : AARect K} {h : Hazard K} (hg : HazGood bbox h) : HazOk h := fun s hs =>
  ⟨(hg.2 s hs).circle, fun pole hp => ⟨(hg.2 s hs).radius pole hp, (hg.2 s hs).bounded pole hp⟩⟩

theorem HazGood.of_erase {bbox : AARect K} {φ : HazardEntity K → Hazard K} (hφ : ∀ e, HazGood bbox (φ e)) {h : Hazard K}
    (he : h.erase = φ h.entity) : HazGood bbox h := by
  have := hφ h.entity
  rw [← he] at this
  exact this

theorem HPG.flush_exact {env : HEnv K} {ε : K} {statics : List (Hazard K)} (st : HSetting env ε statics) {N : GNum K} {bbox : AARect K}
    {D : List (Hazard K)} (hD : ∀ h ∈ D, HazGood bbox h) {g g' : HPG K} (hr : g.cellRadius = N.r) (hN : UGrid N g.grid) {P : List (Hazard K)}
    (hP : ∀ h ∈ P, h.entity ∈ g.uncommitted) (hE : ExG env ε statics (poleSet (D ++ P)) g.grid) (h : g.flush env D = some g') :
    g'.cellRadius = N.r ∧ g'.uncommitted = [] ∧ UGrid N g'.grid ∧ ExG env ε statics (poleSet D) g'.grid := by
  unfold HPG.flush at h
  split_ifs at h with hd
  · obtain ⟨grid, hg, rfl⟩ := Option.map_eq_some_iff.1 h
    have hrel := mapCells_rel hg
    refine ⟨hr, rfl, UGrid.rel hN (hrel.imp fun c c' hcc => deregister_base hcc), ?_⟩
    intro x hx
    obtain ⟨y, hy, hxy⟩ := hrel.left hx
    refine (hE y hy).deregister st.sqrt (fun h hh => (hD h hh).1) (fun h hh => (hD h hh).ok) ?_ (fun z hz => List.mem_append_left _ hz) hxy
    intro z hz hzu
    rcases List.mem_append.1 hz with hz | hz
    · exact hz
    · exact absurd (hP z hz) hzu
  · cases h
    have hu : g.uncommitted = [] := by
      unfold HPG.isDirty at hd
      simpa using hd
    refine ⟨hr, hu, hN, ?_⟩
    have : P = [] := by
      rw [hu] at hP
      exact List.eq_nil_iff_forall_not_mem.2 fun h hh => absurd (hP h hh) (by simp)
    rw [this, List.append_nil] at hE
    exact hE

theorem EInv.flush {env : HEnv K} {ε : K} {statics : List (Hazard K)} (st : HSetting env ε statics) {N : GNum K} {bbox : AARect K}
    {c c' : HCDE K n} (hD : ∀ h ∈ c.cde.dynamics, HazGood bbox h) (hi : EInv env ε statics N c) (h : c.flush env = some c') :
    c'.cde = c.cde ∧ ∀ g, c'.hpg = some g → g.cellRadius = N.r ∧ g.uncommitted = [] ∧ UGrid N g.grid ∧
      ExG env ε statics (poleSet c'.cde.dynamics) g.grid := by
  unfold HCDE.flush at h
  obtain ⟨hpg, hh, rfl⟩ := Option.map_eq_some_iff.1 h
  refine ⟨rfl, ?_⟩
  intro g' hg'
  dsimp only at hg'
  rcases onGrid_spec hh with ⟨h1, h2⟩ | ⟨g, g'', h1, h2, h3⟩
  · rw [h2] at hg'; cases hg'
  · rw [h2] at hg'
    obtain rfl := Option.some.inj hg'
    obtain ⟨r1, r2, P, r3, r4⟩ := hi g h1
    exact HPG.flush_exact st hD r1 r2 r3 r4 h3

theorem EInv.of_clean {env : HEnv K} {ε : K} {statics : List (Hazard K)} {N : GNum K} {c : HCDE K n}
    (h : ∀ g, c.hpg = some g → g.cellRadius = N.r ∧ g.uncommitted = [] ∧ UGrid N g.grid ∧
      ExG env ε statics (poleSet c.cde.dynamics) g.grid) : EInv env ε statics N c := by
  intro g hg
  obtain ⟨h1, h2, h3, h4⟩ := h g hg
  exact ⟨h1, h3, [], by simp, by rw [List.append_nil]; exact h4⟩

theorem EInv.commit {env : HEnv K} {o : SearchOracle K} {ε : K} {statics : List (Hazard K)} {φ : HazardEntity K → Hazard K}
    (st : HSetting env ε statics) {N : GNum K} {bbox : AARect K}
    {c c' : HCDE K n} (hv : HInv env o statics φ c) (hD : ∀ h ∈ c.cde.dynamics, HazGood bbox h) (hi : EInv env ε statics N c)
    (h : c.commit env = some c') :
    ∀ g, c'.hpg = some g → g.cellRadius = N.r ∧ g.uncommitted = [] ∧ UGrid N g.grid ∧
      ExG env ε statics (poleSet c'.cde.dynamics) g.grid := by
  unfold HCDE.commit at h
  obtain ⟨cde, h1, h2⟩ := Option.bind_eq_some_iff.1 h
  have hop : (CDEOp.commit : CDEOp K).run env.f o c.cde = some cde := h1
  have he := CDEOp.run_effect hv.reach.inv (op := .commit) trivial hop
  have hi' : EInv env ε statics N (⟨cde, c.hpg⟩ : HCDE K n) := by
    intro g hg
    obtain ⟨r1, r2, P, r3, r4⟩ := hi g hg
    exact ⟨r1, r2, P, r3, by dsimp only; rw [he.1]; exact r4⟩
  exact (hi'.flush st (bbox := bbox) (by dsimp only; rw [he.1]; exact hD) h2).2

/-- **Tidy histories keep the grid exact.** -/
theorem HTidy.exact {env : HEnv K} {o : SearchOracle K} {bbox : AARect K} {statics : List (Hazard K)} {nCells : ℕ}
    {φ : HazardEntity K → Hazard K} {ε : K} (st : HSetting env ε statics) (hst : (statics.map (·.entity)).Nodup) {N : GNum K}
    {box : AARect K} (ok : N.Ok ε box)
    (hnew : ∀ g, HPG.new env bbox statics nCells = some g → g.cellRadius = N.r ∧ UGrid N g.grid) (hφ : ∀ e, HazGood box (φ e))
    {x : HCDE K n ⊕ HSnap K} (hr : HTidy env o bbox statics nCells φ x) : match x with
      | .inl c => EInv env ε statics N c
      | .inr s => ESnap env ε statics N s := by
  induction hr with
  | @new c h =>
    unfold HCDE.new at h
    obtain ⟨hpg, h1, h⟩ := Option.bind_eq_some_iff.1 h
    obtain ⟨cde, h2, rfl⟩ := Option.map_eq_some_iff.1 h
    obtain ⟨c1, e1, i1, s1, d1, u1, b1⟩ := CDE.new_inv (f := env.f) (o := o) (n := n) (r := bbox) hst
    rw [h2] at e1
    obtain rfl := Option.some.inj e1
    intro g hg
    dsimp only at hg
    subst hg
    split_ifs at h1
    · cases h1
    obtain ⟨g', hg', he⟩ := Option.map_eq_some_iff.1 h1
    cases he
    obtain ⟨r1, r2⟩ := hnew _ hg'
    refine ⟨r1, r2, [], by simp, ?_⟩
    intro x hx
    obtain ⟨⟨rects, _, _, h3⟩, -, -⟩ := HPG.new_cells hg'
    obtain ⟨r, _, h6⟩ := h3 x hx
    obtain ⟨b1, _, _, b4, _⟩ := HPGCell.new_spec h6
    dsimp only
    rw [d1, List.append_nil, poleSet_nil]
    refine ⟨?_, .inl b4, by rw [b4], fun q hq => absurd hq (by simp)⟩
    rw [b1, h6]
    cases x
    simp_all
  | @register c c' h hr' hp hφh he ih =>
    have hv : HInv env o statics φ c := hr'.reach.inv hst
    unfold HCDE.register at he
    obtain ⟨cde, h1, he⟩ := Option.bind_eq_some_iff.1 he
    obtain ⟨hpg, h2, rfl⟩ := Option.map_eq_some_iff.1 he
    have hop : (CDEOp.register h).run env.f o c.cde = some cde := h1
    have hd := CDE.register_dynamics h1
    have hcons := CDEOp.run_consistent hv.reach.inv hp hop hv.cons hφh
    intro g' hg'
    dsimp only at hg'
    rcases onGrid_spec h2 with ⟨_, h3⟩ | ⟨g, g'', hg, h3, h4⟩
    · rw [h3] at hg'; cases hg'
    · rw [h3] at hg'
      obtain rfl := Option.some.inj hg'
      obtain ⟨r1, r2, P, r3, r4⟩ := ih g hg
      have hgood : HazGood box ((c.cde.uncommitted.find? fun u => u.entity = h.entity).getD h) :=
        HazGood.of_erase hφ (hcons _ (List.mem_append_left _ (by rw [hd]; simp)))
      obtain ⟨k1, k2, k3, k4⟩ := HPG.register_exact st ok hgood.2 r1 r2 r4 h4
      refine ⟨k1, k3, P, by rw [k2]; exact r3, ?_⟩
      dsimp only
      rw [hd]
      rw [← poleSet_append] at k4
      rwa [poleSet_congr (E := c.cde.dynamics ++ P ++ [(c.cde.uncommitted.find? fun u => u.entity = h.entity).getD h]) (by
        intro x; simp only [List.mem_append]; tauto)]
  | @deregister c c' e ci hr' hp htidy he ih =>
    have hv : HInv env o statics φ c := hr'.reach.inv hst
    unfold HCDE.deregister at he
    obtain ⟨cde, h1, he⟩ := Option.bind_eq_some_iff.1 he
    obtain ⟨hpg, h2, rfl⟩ := Option.map_eq_some_iff.1 he
    have hop : (CDEOp.deregister e ci).run env.f o c.cde = some cde := h1
    obtain ⟨hh, he1, hperm⟩ := CDEOp.run_effect hv.reach.inv hp hop
    have hcons := CDEOp.run_consistent hv.reach.inv hp hop hv.cons trivial
    intro g' hg'
    dsimp only at hg'
    rcases onGrid_spec h2 with ⟨_, h3⟩ | ⟨g, g'', hg, h3, h4⟩
    · rw [h3] at hg'; cases hg'
    · rw [h3] at hg'
      obtain rfl := Option.some.inj hg'
      obtain ⟨r1, r2, P, r3, r4⟩ := ih g hg
      unfold HPG.deregister at h4
      split_ifs at h4 with hci
      · obtain ⟨grid, hgrid, rfl⟩ := Option.map_eq_some_iff.1 h4
        have hu : g.uncommitted = [] := by
          by_contra hu
          refine htidy hci ?_
          unfold HCDE.hazProxGrid
          rw [hg, Option.map_some, if_pos]
          unfold HPG.isDirty
          simpa using hu
        have hP : P = [] := by
          rw [hu] at r3
          exact List.eq_nil_iff_forall_not_mem.2 fun h hh => absurd (r3 h hh) (by simp)
        rw [hP, List.append_nil] at r4
        have hrel := mapCells_rel hgrid
        refine ⟨r1, UGrid.rel r2 (hrel.imp fun c c' hcc => deregister_base hcc), [], by simp, ?_⟩
        rw [List.append_nil]
        intro x hx
        obtain ⟨y, hy, hxy⟩ := hrel.left hx
        have hgd : ∀ h ∈ cde.dynamics, HazGood box h := fun h hh => HazGood.of_erase hφ (hcons h (List.mem_append_left _ hh))
        refine (r4 y hy).deregister st.sqrt (fun h hh => (hgd h hh).1) (fun h hh => (hgd h hh).ok) ?_
          (fun z hz => hperm.mem_iff.2 (List.mem_cons_of_mem _ hz)) hxy
        intro z hz hze
        rcases List.mem_cons.1 (hperm.mem_iff.1 hz) with rfl | hz
        · exact absurd (List.mem_singleton.2 he1) hze
        · exact hz
      · cases h4
        refine ⟨r1, r2, P ++ [hh], ?_, ?_⟩
        · intro h hm
          rcases List.mem_append.1 hm with hm | hm
          · exact List.mem_append_left _ (r3 h hm)
          · rw [List.mem_singleton.1 hm, he1]
            simp
        · dsimp only
          rwa [poleSet_congr (E := c.cde.dynamics ++ P) (by
            intro x
            simp only [List.mem_append, hperm.mem_iff, List.mem_cons, List.not_mem_nil, or_false]
            tauto)]
  | @flush c c' hr' he ih =>
    have hv : HInv env o statics φ c := hr'.reach.inv hst
    exact .of_clean (ih.flush st (fun h hh => HazGood.of_erase hφ (hv.cons h (List.mem_append_left _ hh))) he).2
  | @commit c c' hr' he ih =>
    have hv : HInv env o statics φ c := hr'.reach.inv hst
    exact .of_clean (ih.commit st hv (fun h hh => HazGood.of_erase hφ (hv.cons h (List.mem_append_left _ hh))) he)
  | @snapshot c c' s hr' he ih =>
    have hv : HInv env o statics φ c := hr'.reach.inv hst
    unfold HCDE.createSnapshot at he
    obtain ⟨c1, h1, he⟩ := Option.bind_eq_some_iff.1 he
    split_ifs at he with hd
    cases he
    have := ih.commit st hv (fun h hh => HazGood.of_erase hφ (hv.cons h (List.mem_append_left _ hh))) h1
    intro g hg
    obtain ⟨g', hg', rfl⟩ := Option.map_eq_some_iff.1 hg
    obtain ⟨_, _, k3, k4⟩ := this g' hg'
    exact ⟨k3, k4⟩
  | @restore c c' s hr1 hr2 he ih1 ih2 =>
    have hv : HInv env o statics φ c := hr1.reach.inv hst
    have hs : SInv env statics φ s := hr2.reach.inv hst
    unfold HCDE.restore at he
    obtain ⟨cde, h1, he⟩ := Option.bind_eq_some_iff.1 he
    obtain ⟨hpg, h2, rfl⟩ := Option.map_eq_some_iff.1 he
    have hp : (CDEOp.restore s.dynamics).Pre c.cde := ⟨hs.nodup, by rw [hv.stat]; exact hs.disj⟩
    have hop : (CDEOp.restore s.dynamics).run env.f o c.cde = some cde := h1
    have hcons := CDEOp.run_consistent hv.reach.inv hp hop hv.cons hs.cons
    obtain ⟨hperm, hu, _⟩ := CDEOp.run_effect hv.reach.inv hp hop
    intro g' hg'
    dsimp only at hg'
    rcases onGrid_spec h2 with ⟨_, h3⟩ | ⟨g, g'', hg, h3, h4⟩
    · rw [h3] at hg'; cases hg'
    · rw [h3] at hg'
      obtain rfl := Option.some.inj hg'
      obtain ⟨grid, h5, h6⟩ := Option.bind_eq_some_iff.1 h4
      unfold HPG.restore at h6
      split_ifs at h6 with hl
      cases h6
      obtain ⟨k1, k2⟩ := ih2 grid h5
      refine ⟨(ih1 g hg).1, k1, [], by simp, ?_⟩
      have hset : poleSet (cde.dynamics ++ []) = poleSet s.dynamics := by
        rw [List.append_nil]
        ext q
        constructor
        · rintro ⟨h, hh, hq, s', hs', hq'⟩
          obtain ⟨y, hy, hye⟩ := List.mem_map.1 (hperm.mem_iff.1 (List.mem_map.2 ⟨h, hh, rfl⟩))
          have hval : y.shape.val = h.shape.val := erase_val (by
            rw [hs.cons y hy, hcons h (List.mem_append_left _ hh), hye])
          exact ⟨y, hy, hye.trans hq, s', by rw [hval]; exact hs', hq'⟩
        · rintro ⟨h, hh, hq, s', hs', hq'⟩
          obtain ⟨y, hy, hye⟩ := List.mem_map.1 (hperm.mem_iff.2 (List.mem_map.2 ⟨h, hh, rfl⟩))
          have hval : y.shape.val = h.shape.val := erase_val (by
            rw [hcons y (List.mem_append_left _ hy), hs.cons h hh, hye])
          exact ⟨y, hy, hye.trans hq, s', by rw [hval]; exact hs', hq'⟩
      dsimp only
      rw [hset]
      exact k2

end Jagua
