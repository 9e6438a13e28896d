import Verif.Lemmas.HPGTidy

/-! # Lemmas: what the grids of tidy histories know -/

set_option linter.unusedSectionVars false

namespace Jagua

variable {K : Type*} [Field K] [LinearOrder K] [IsStrictOrderedRing K] {n : ℕ}

/-- The grid knows the registered hazards, and some that wait to be removed. -/
theorem HTidy.known {env : HEnv K} {o : SearchOracle K} {bbox box : AARect K} {statics : List (Hazard K)} {nCells : ℕ}
    {φ : HazardEntity K → Hazard K} {ε : K} (hs : env.SqrtWithin ε) (hf : env.f = Fpa.exact) (hmax : 0 ≤ env.fmax)
    (hw : ∀ h ∈ statics, h.entity.isUniversal = true → h.shape.val.WF) (hst : (statics.map (·.entity)).Nodup) (hbox : box.Valid)
    (hgrid : ∀ g, HPG.new env bbox statics nCells = some g →
      g.Covers box ∧ g.Hugs box ∧ g.Roomy bbox box ∧ 32 * ε ≤ g.cellRadius)
    (hact : ∀ e, (φ e).active = true) (hfit : ∀ e s, (φ e).shape.val.surrogate = some s → s.FitsIn box)
    {c : HCDE K n} (hr : HTidy env o bbox statics nCells φ (.inl c)) {g : HPG K} (hg : c.hpg = some g) :
    0 < g.cellRadius ∧ ∃ P : List (Hazard K), (∀ h ∈ P, h.entity ∈ g.uncommitted) ∧
      ExG env ε statics (poleSet (c.cde.dynamics ++ P)) g.grid := by
  have st : HSetting env ε statics := ⟨hs, hf, hmax, hw⟩
  obtain ⟨N, ok, hnew⟩ : ∃ N : GNum K, N.Ok ε box ∧ ∀ g, HPG.new env bbox statics nCells = some g → g.cellRadius = N.r ∧ UGrid N g.grid := by
    cases hn : HPG.new env bbox statics nCells with
    | none =>
      exfalso
      have hno : ∀ y : HCDE K n ⊕ HSnap K, HTidy env o bbox statics nCells φ y → match y with
          | .inl c => c.hpg = none
          | .inr _ => True := by
        intro y hy
        induction hy with
        | @new c h =>
          unfold HCDE.new at h
          obtain ⟨hpg, h1, h⟩ := Option.bind_eq_some_iff.1 h
          obtain ⟨cde, h2, rfl⟩ := Option.map_eq_some_iff.1 h
          dsimp only
          split_ifs at h1
          · cases h1; rfl
          · rw [hn] at h1; cases h1
        | @register c c' h _ _ _ he ih =>
          unfold HCDE.register at he
          obtain ⟨cde, _, he⟩ := Option.bind_eq_some_iff.1 he
          obtain ⟨hpg, h2, rfl⟩ := Option.map_eq_some_iff.1 he
          rcases onGrid_spec h2 with ⟨_, h3⟩ | ⟨g, _, h3, _⟩
          · exact h3
          · rw [show c.hpg = none from ih] at h3; cases h3
        | @deregister c c' e ci _ _ _ he ih =>
          unfold HCDE.deregister at he
          obtain ⟨cde, _, he⟩ := Option.bind_eq_some_iff.1 he
          obtain ⟨hpg, h2, rfl⟩ := Option.map_eq_some_iff.1 he
          rcases onGrid_spec h2 with ⟨_, h3⟩ | ⟨g, _, h3, _⟩
          · exact h3
          · rw [show c.hpg = none from ih] at h3; cases h3
        | @flush c c' _ he ih =>
          unfold HCDE.flush at he
          obtain ⟨hpg, h2, rfl⟩ := Option.map_eq_some_iff.1 he
          rcases onGrid_spec h2 with ⟨_, h3⟩ | ⟨g, _, h3, _⟩
          · exact h3
          · rw [show c.hpg = none from ih] at h3; cases h3
        | @commit c c' _ he ih =>
          unfold HCDE.commit HCDE.flush at he
          obtain ⟨cde, _, he⟩ := Option.bind_eq_some_iff.1 he
          obtain ⟨hpg, h2, rfl⟩ := Option.map_eq_some_iff.1 he
          rcases onGrid_spec h2 with ⟨_, h3⟩ | ⟨g, _, h3, _⟩
          · exact h3
          · rw [show c.hpg = none from ih] at h3; cases h3
        | snapshot => trivial
        | @restore c c' s _ _ he ih _ =>
          unfold HCDE.restore at he
          obtain ⟨cde, _, he⟩ := Option.bind_eq_some_iff.1 he
          obtain ⟨hpg, h2, rfl⟩ := Option.map_eq_some_iff.1 he
          rcases onGrid_spec h2 with ⟨_, h3⟩ | ⟨g, _, h3, _⟩
          · exact h3
          · rw [show c.hpg = none from ih] at h3; cases h3
      have : c.hpg = none := hno _ hr
      rw [this] at hg
      cases hg
    | some g0 =>
      obtain ⟨h1, h2, h3, h4⟩ := hgrid g0 hn
      obtain ⟨N, ok, hU, hr⟩ := HPG.new_uniform hs hbox hn h1 h2 h3 h4
      refine ⟨N, ok, ?_⟩
      intro g hgg
      obtain rfl := Option.some.inj hgg
      exact ⟨hr, hU⟩
  have hE : EInv env ε statics N c := HTidy.exact st hst ok hnew (fun e => ⟨hact e, hfit e⟩) hr
  obtain ⟨h1, _, P, hP, hG⟩ := hE g hg
  refine ⟨?_, P, hP, hG⟩
  rw [h1]
  by_contra hc
  have h2 := ok.r
  have h3 := hs.eps
  have h4 : N.r = 0 := by linarith
  have h5 : ε = 0 := by linarith
  have h6 := ok.diag
  have h7 := ok.dim
  rw [h4, h5] at h6
  nlinarith

end Jagua
