import Verif.Lemmas.DebugGrid
import Verif.Lemmas.HPGKnown
import Verif.Props.HPGExact

/-! # C57: the assertions of the proximity grid -/

set_option linter.unusedSectionVars false

namespace Jagua

variable {K : Type*} [Field K] [LinearOrder K] [IsStrictOrderedRing K] {n : ℕ}

/-- C57 (partial): the engine with its proximity grid. In the setting of
`C14_smallest_partial`, and if only placed items are registered, a debug build does the
same as a release build. There is one exception: with inexact square roots, the check
after a registration may find a cell that is off by rounding, and panic. Missing: grids
with gaps, where `C57_grid_fails` shows a panic. -/
theorem C57_grid_partial {env : HEnv K} {o : SearchOracle K} {bbox box : AARect K} {statics : List (Hazard K)} {nCells : ℕ}
    {φ : HazardEntity K → Hazard K} {ε : K} (hs : env.SqrtWithin ε) (hf : env.f = Fpa.exact) (hmax : 0 ≤ env.fmax)
    (hw : ∀ h ∈ statics, h.entity.isUniversal = true → h.shape.val.WF) (hst : (statics.map (·.entity)).Nodup) (hbox : box.Valid)
    (hgrid : ∀ g, HPG.new env bbox statics nCells = some g →
      g.Covers box ∧ g.Hugs box ∧ g.Roomy bbox box ∧ 32 * ε ≤ g.cellRadius)
    (hact : ∀ e, (φ e).active = true)
    (hfit : ∀ e s, (φ e).shape.val.surrogate = some s → s.FitsIn box ∧ s.poles ≠ [])
    {c : HCDE K n} (hr : HTidy env o bbox statics nCells φ (.inl c)) (hv : c.cde.bbox.Valid)
    (hd : ∀ h ∈ c.cde.dynamics, ∃ i t, h.entity = .placedItem i t) :
    (∀ h, (CDEOp.register h).Pre c.cde → h.erase = φ h.entity → (∃ i t, h.entity = .placedItem i t) →
      c.registerDbg env o h = c.register env o h ∨ 0 < ε ∧ c.registerDbg env o h = none) ∧
    (∀ e ci, (CDEOp.deregister e ci).Pre c.cde → c.deregisterDbg env o e ci = c.deregister env o e ci) ∧
    c.flushDbg env = c.flush env ∧ c.commitDbg env = c.commit env ∧ c.createSnapshotDbg env = c.createSnapshot env ∧
    (∀ s, HTidy (n := n) env o bbox statics nCells φ (.inr s) → c.restoreDbg env o s = c.restore env o s) := by
  have hfit' : ∀ e s, (φ e).shape.val.surrogate = some s → s.FitsIn box := fun e s h => (hfit e s h).1
  have hi : HInv env o statics φ c := hr.reach.inv hst
  have inv : c.cde.Inv env.f := hi.reach.inv
  have huni : ∀ h ∈ c.cde.dynamics, h.entity.isUniversal = true := by
    intro h hh
    obtain ⟨i, t, e⟩ := hd h hh
    rw [e]; rfl
  have hflush : ∀ (cde : CDE K n), cde.dynamics = c.cde.dynamics → HCDE.flushDbg env ⟨cde, c.hpg⟩ = HCDE.flush env ⟨cde, c.hpg⟩ := by
    intro cde he
    unfold HCDE.flushDbg HCDE.flush
    congr 1
    dsimp only
    congr 1
    funext g
    exact HPG.flushDbg_eq (by rw [he]; exact huni)
  have hcommit : c.commitDbg env = c.commit env := by
    unfold HCDE.commitDbg HCDE.commit
    rw [CDE.commitDbg_eq inv]
    obtain ⟨c', h1, _, _, _, h2, _⟩ := CDE.commit_inv inv
    rw [h1]
    exact hflush c' h2
  refine ⟨?_, ?_, hflush c.cde rfl, hcommit, ?_, ?_⟩
  · rintro h hpre hφ ⟨i, t, hent⟩
    have hu : h.entity.isUniversal = true := by rw [hent]; rfl
    have hpos : h.entity.position = .interior := by rw [hent]; rfl
    have hp1 : h.entity ∉ c.cde.statics.map (·.entity) := by
      intro hc
      obtain ⟨x, hx, he⟩ := List.mem_map.1 hc
      exact hpre x (List.mem_append_left _ hx) he
    have hp2 : h.entity ∉ c.cde.dynamics.map (·.entity) := by
      intro hc
      obtain ⟨x, hx, he⟩ := List.mem_map.1 hc
      exact hpre x (List.mem_append_right _ hx) he
    cases hreg : c.register env o h with
    | none =>
      left
      unfold HCDE.registerDbg
      unfold HCDE.register at hreg
      dsimp only at hreg ⊢
      rw [CDE.registerDbg_eq inv hv hp1 hp2]
      cases hcde : c.cde.register env.f o h with
      | none => rfl
      | some cde =>
        rw [hcde, Option.bind_some, Option.map_eq_none_iff] at hreg
        rw [Option.bind_some, Option.map_eq_none_iff]
        unfold HCDE.onGrid at hreg ⊢
        cases hg : c.hpg with
        | none => rw [hg] at hreg; cases hreg
        | some g =>
          rw [hg] at hreg
          dsimp only at hreg ⊢
          rw [Option.map_eq_none_iff] at hreg ⊢
          have hr0 := (HTidy.known hs hf hmax hw hst hbox hgrid hact hfit' hr hg).1
          generalize hh' : (c.cde.uncommitted.find? fun u => u.entity = h.entity).getD h = h' at hreg ⊢
          obtain ⟨he, hsv⟩ : h'.entity = h.entity ∧ h'.shape.val = h.shape.val := by
            cases hfd : c.cde.uncommitted.find? fun u => u.entity = h.entity with
            | none => rw [hfd] at hh'; rw [← hh']; exact ⟨rfl, rfl⟩
            | some u =>
              rw [hfd] at hh'
              have h1 := List.find?_some hfd
              have h2 := hi.cons u (List.mem_append_right _ (List.mem_of_find?_eq_some hfd))
              simp only [decide_eq_true_eq] at h1
              rw [h1, ← hφ] at h2
              rw [← hh']
              exact ⟨h1, show u.erase.shape.val = h.erase.shape.val by rw [h2]⟩
          rw [HPG.registerDbg_eq (by rw [he]; exact hu) hr0, hreg]
          · rfl
          · intro s hs' pole hp
            rw [hsv, show h.shape.val = (φ h.entity).shape.val by rw [← hφ]; rfl] at hs'
            exact (hfit' _ s hs').radius pole hp
    | some c' =>
      have hr' : HTidy env o bbox statics nCells φ (.inl c') := .register hr hpre hφ hreg
      unfold HCDE.registerDbg
      unfold HCDE.register at hreg
      dsimp only at hreg ⊢
      rw [CDE.registerDbg_eq inv hv hp1 hp2]
      obtain ⟨cde, hcde, hreg⟩ := Option.bind_eq_some_iff.1 hreg
      obtain ⟨hpg, hon, rfl⟩ := Option.map_eq_some_iff.1 hreg
      rw [hcde, Option.bind_some]
      rcases onGrid_spec hon with ⟨h1, h2⟩ | ⟨g, g', h1, h2, h3⟩
      · left
        rw [h1, h2]
        rfl
      · have hr0 := (HTidy.known hs hf hmax hw hst hbox hgrid hact hfit' hr h1).1
        obtain ⟨-, P, -, hG⟩ := HTidy.known hs hf hmax hw hst hbox hgrid hact hfit' hr' h2
        obtain ⟨c2, hc2, -, -, -, d1, d2⟩ := CDE.register_inv (o := o) inv hp1 hp2
        rw [hcde] at hc2
        obtain rfl := Option.some.inj hc2
        generalize hh' : (c.cde.uncommitted.find? fun u => u.entity = h.entity).getD h = h' at h3 ⊢
        obtain ⟨he, hsv, hmem⟩ : h'.entity = h.entity ∧ h'.shape.val = h.shape.val ∧ h' ∈ cde.dynamics := by
          cases hfd : c.cde.uncommitted.find? fun u => u.entity = h.entity with
          | none =>
            rw [hfd] at hh'
            rw [← hh']
            refine ⟨rfl, rfl, ?_⟩
            rw [(d1 fun u hu' => by simpa using List.find?_eq_none.1 hfd u hu').1]
            simp
          | some u =>
            rw [hfd] at hh'
            have k0 := List.mem_of_find?_eq_some hfd
            have k1 := List.find?_some hfd
            have k2 := hi.cons u (List.mem_append_right _ k0)
            simp only [decide_eq_true_eq] at k1
            have k3 := (d2 u k0 k1).1
            rw [k1, ← hφ] at k2
            rw [← hh']
            refine ⟨k1, show u.erase.shape.val = h.erase.shape.val by rw [k2], ?_⟩
            rw [k3]
            simp
        have hsφ : h'.shape.val = (φ h.entity).shape.val := by rw [hsv, ← hφ]; rfl
        have hu' : h'.entity.isUniversal = true := by rw [he]; exact hu
        have hpos' : h'.entity.position = .interior := by rw [he]; exact hpos
        have hrad : ∀ s, h'.shape.val.surrogate = some s → ∀ pole ∈ s.poles, 0 ≤ pole.radius := by
          intro s hs' pole hp
          rw [hsφ] at hs'
          exact (hfit' _ s hs').radius pole hp
        obtain ⟨s, hs', -⟩ := Option.bind_eq_some_iff.1 (show h'.shape.val.surrogate.bind _ = some g' from h3)
        have hreg' : g.registerDbg env h' = (g'.noneAffected env h').bind fun b => assertThen b (some g') := by
          rw [HPG.registerDbg_eq hu' hr0 hrad, h3]
          rfl
        have hne : s.poles ≠ [] := (hfit h.entity s (by rw [← hsφ]; exact hs')).2
        rcases hs.eps.lt_or_eq with hε | hε
        · rw [h1, h2]
          dsimp only [HCDE.onGrid]
          rw [hreg']
          rcases hb : g'.noneAffected env h' with _ | _ | _
          · exact .inr ⟨hε, rfl⟩
          · exact .inr ⟨hε, rfl⟩
          · exact .inl rfl
        · left
          have : g'.noneAffected env h' = some true := by
            refine HPG.noneAffected_of hu' hpos' hs' hne ?_
            intro x hx pole hp
            have := (hG x hx).low (h'.entity, pole) ⟨h', List.mem_append_left _ hmem, rfl, s, hs', hp⟩
            rw [← hε] at this
            simpa using this
          rw [h1, h2]
          dsimp only [HCDE.onGrid]
          rw [hreg', this]
          rfl
  · rintro e ci ⟨h, hh, rfl⟩
    unfold HCDE.deregisterDbg HCDE.deregister
    rw [CDE.deregisterDbg_eq inv hh rfl]
    obtain ⟨c', h1, _, _, _, h2, _⟩ := CDE.deregister_inv (o := o) inv hh ci
    rw [h1, Option.bind_some, Option.bind_some]
    congr 2
    funext g
    exact HPG.deregisterDbg_eq (fun x hx => huni x (h2.mem_iff.2 (List.mem_cons_of_mem _ hx))) _
  · unfold HCDE.createSnapshotDbg HCDE.createSnapshot
    rw [hcommit]
  · intro s hsn
    have si : SInv env statics φ s := hsn.reach.inv hst
    unfold HCDE.restoreDbg HCDE.restore
    rw [CDE.restoreDbg_eq inv hv si.nodup]
    intro h hh hc
    rw [hi.stat] at hc
    obtain ⟨x, hx, he⟩ := List.mem_map.1 hc
    exact si.disj h hh x hx he

-- the square is registered, after a triangle has come and gone
example : ∃ c : HCDE ℚ 2, HTidy Ex.henv SearchOracle.first ⟨0, 0, 8, 8⟩ [Ex.hBin] 16 Ex.pHaz (.inl c) ∧
    Ex.henv.SqrtWithin (1 / 100) ∧ Ex.henv.f = Fpa.exact ∧ 0 ≤ Ex.henv.fmax ∧
    (∀ h ∈ [Ex.hBin], h.entity.isUniversal = true → h.shape.val.WF) ∧ ([Ex.hBin].map (·.entity)).Nodup ∧
    (⟨0, 0, 8, 8⟩ : AARect ℚ).Valid ∧ (∀ g, HPG.new Ex.henv ⟨0, 0, 8, 8⟩ [Ex.hBin] 16 = some g →
      g.Covers ⟨0, 0, 8, 8⟩ ∧ g.Hugs ⟨0, 0, 8, 8⟩ ∧ g.Roomy ⟨0, 0, 8, 8⟩ ⟨0, 0, 8, 8⟩ ∧ 32 * (1 / 100) ≤ g.cellRadius) ∧
    (∀ e, (Ex.pHaz e).active = true) ∧ (∀ e s, (Ex.pHaz e).shape.val.surrogate = some s → s.FitsIn ⟨0, 0, 8, 8⟩ ∧ s.poles ≠ []) ∧
    c.cde.bbox.Valid ∧ c.cde.dynamics = [Ex.pSq] ∧ (∀ h ∈ c.cde.dynamics, ∃ i t, h.entity = .placedItem i t) ∧
    (CDEOp.register Ex.pTri).Pre c.cde ∧ Ex.pTri.erase = Ex.pHaz Ex.pTri.entity ∧
    (c.registerDbg Ex.henv SearchOracle.first Ex.pTri).isSome = true := by
  obtain ⟨c, g, x, hc, _, hg, hx, hS, hD, hb, _, hu, _⟩ := Ex.exists_hpg
  have hc' := hc
  obtain ⟨c0, hc0⟩ : ∃ c, Ex.hStart = some c := Option.isSome_iff_exists.1 (by decide +kernel)
  rw [hc0, Option.bind_some] at hc
  refine ⟨c, Ex.hRunChecked_tidy ?_ (.new hc0) hc, Ex.henv_within, rfl, by decide, ?_, by decide, ⟨by norm_num, by norm_num⟩, fun _ => Ex.hpg_uniform,
    Ex.pHaz_active, fun e s h => ⟨Ex.pHaz_fits e s h, ?_⟩, by rw [hb]; exact ⟨by norm_num, by norm_num⟩, hD, ?_, ?_, by decide +kernel, ?_⟩
  · intro op hop e
    simp only [Ex.hOps, List.mem_cons, List.not_mem_nil, or_false] at hop
    rcases hop with rfl | rfl | rfl | rfl <;> simp
  · intro h hh _
    rw [List.mem_singleton.1 hh]
    exact ⟨by decide +kernel, ⟨by decide +kernel, by decide +kernel⟩, by decide⟩
  · rcases e with ⟨_ | _, _⟩ | _ | _ | _ <;> cases h <;> exact List.cons_ne_nil _ _
  · rw [hD]
    intro h hh
    rw [List.mem_singleton.1 hh]
    exact ⟨_, _, rfl⟩
  · intro y hy
    unfold CDE.allHazards at hy
    rw [hS, hD] at hy
    simp only [List.mem_append, List.mem_singleton] at hy
    rcases hy with rfl | rfl <;> decide +kernel
  · have h1 : ((Ex.hStart.bind (Ex.hRunChecked Ex.pHaz Ex.hOps)).bind fun c => c.registerDbg Ex.henv SearchOracle.first Ex.pTri).isSome = true := by
      decide +kernel
    rw [hc', Option.bind_some] at h1
    exact h1

/-- C57 fails for the grid: the bin with a hole of `C14_gap_fails`. Registering the
item in the corridor works in a release build and panics in a debug build. -/
theorem C57_grid_fails : ∃ c : HCDE ℚ 2, HTidy Ex.henv SearchOracle.first ⟨0, 0, 8, 8⟩ [Ex.gapBin, Ex.gapHole] 58 Ex.gapHaz (.inl c) ∧
    c.cde.dynamics = [] ∧ (CDEOp.register Ex.gapItem).Pre c.cde ∧ (c.register Ex.henv SearchOracle.first Ex.gapItem).isSome = true ∧
    (c.cde.registerDbg Ex.henv.f SearchOracle.first Ex.gapItem).isSome = true ∧
    c.registerDbg Ex.henv SearchOracle.first Ex.gapItem = none := by
  have h : (HCDE.new (n := 2) Ex.henv SearchOracle.first ⟨0, 0, 8, 8⟩ [Ex.gapBin, Ex.gapHole] 58).map
      (fun c => decide (c.cde.dynamics = []) && decide (∀ x ∈ c.cde.allHazards, x.entity ≠ Ex.gapItem.entity) &&
        (c.register Ex.henv SearchOracle.first Ex.gapItem).isSome &&
        (c.cde.registerDbg Ex.henv.f SearchOracle.first Ex.gapItem).isSome &&
        (c.registerDbg Ex.henv SearchOracle.first Ex.gapItem).isNone) = some true := by
    decide +kernel
  obtain ⟨c, hc, h⟩ := Option.map_eq_some_iff.1 h
  simp only [Bool.and_eq_true, decide_eq_true_eq, Option.isNone_iff_eq_none] at h
  obtain ⟨⟨⟨⟨h1, h2⟩, h3⟩, h4⟩, h5⟩ := h
  exact ⟨c, .new hc, h1, h2, h3, h4, h5⟩

end Jagua
