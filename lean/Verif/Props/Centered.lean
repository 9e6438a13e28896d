import Verif.Props.Parser
import Verif.Model.SelfCheck

/-!
# Property C53: parsed shapes are centered
-/

set_option linter.unusedSectionVars false

namespace Jagua

variable {K : Type*} [Field K] [LinearOrder K] [IsStrictOrderedRing K] {n : ℕ}

/-- The bins of an instance; the one of a strip packing instance is only made later. -/
def Instance.givenBins : Instance K n → List (Bin K n × ℕ)
  | .bp i => i.bins
  | .sp _ => []

/-- C53: the check that all shapes are centered passes for every instance that was read with centering switched on, however small the
values are that it takes for zero. -/
theorem C53_centered_check {penv : PEnv K} {cfg : ParserConfig K} (hpoi : PoiInside penv.poi) (hsurr : KeepsShape penv.surr) (hz : penv.tr.AtZero)
    (hrad : penv.toRadians 0 = 0) (ht : ∀ tol, cfg.tolerance = some tol → tol < 1) (hc : cfg.center = true) {ji : JsonInstance K} (h : ji.Sound)
    {addr addr' : ℕ → ℕ → ℕ → ℕ} {inst : Instance K n} (hp : parseInstance penv cfg n addr addr' ji = some inst)
    {zero : K → Bool} (h0 : zero 0 = true) : allBinsAndItemsCentered zero inst.items inst.givenBins = true := by
  unfold allBinsAndItemsCentered
  rw [List.all_eq_true]
  intro c hcm
  suffices c = ⟨0, 0⟩ by rw [this]; simp [h0]
  rcases List.mem_append.1 hcm with hcm | hcm
  · obtain ⟨x, hx, rfl⟩ := List.mem_map.1 hcm
    obtain ⟨hl, hg⟩ := C53_items hpoi hsurr hz hrad ht h hp
    obtain ⟨k, hk⟩ := List.mem_iff_getElem?.1 hx
    have hk' : k < ji.items.length := by rw [← hl]; exact (List.getElem?_eq_some_iff.1 hk).1
    obtain ⟨y, hy, -, -, -, -, -, tx, ty, -, -, -, hcen, -⟩ := hg k _ (List.getElem?_eq_getElem hk')
    rw [hk, Option.some_inj] at hy
    rw [hy]
    exact hcen hc
  · obtain ⟨b, hb, rfl⟩ := List.mem_map.1 hcm
    cases hbs : ji.bins with
    | none =>
      cases inst with
      | sp i => cases hb
      | bp i =>
        unfold parseInstance at hp
        obtain ⟨items, -, hp⟩ := Option.bind_eq_some_iff.1 hp
        obtain ⟨i', hp, hlog⟩ := Option.bind_eq_some_iff.1 hp
        obtain rfl := logParsed_some hlog
        rw [hbs] at hp
        cases hs : ji.strip with
        | none => rw [hs] at hp; cases hp
        | some height =>
          rw [hs] at hp
          obtain ⟨_, -, e⟩ := Option.map_eq_some_iff.1 hp
          cases e
    | some bs =>
      obtain ⟨i, rfl, hl, hg⟩ := C53_bins hpoi hsurr hz ht h hbs hp
      obtain ⟨k, hk⟩ := List.mem_iff_getElem?.1 (show b ∈ i.bins from hb)
      have hk' : k < bs.length := by rw [← hl]; exact (List.getElem?_eq_some_iff.1 hk).1
      obtain ⟨y, hy, -, tx, ty, -, -, -, -, -, -, hcen, -⟩ := hg k _ (List.getElem?_eq_getElem hk')
      rw [hk, Option.some_inj] at hy
      rw [hy]
      exact hcen hc

/-- Non-trivial case for `C53_centered_check`; without centering the check refuses the same instance. -/
example : (∃ inst : Instance ℚ 2, Ex.jParsed = some inst ∧ allBinsAndItemsCentered (fun x => decide (x = 0)) inst.items inst.givenBins = true ∧
      inst.items.length = 2 ∧ inst.givenBins.length = 1) ∧
    (parseInstance Ex.jEnv { Ex.jCfg with center := false } 2 (fun i j k => 10000 * i + 100 * j + k) (fun i j k => 20000 + 10000 * i + 100 * j + k) Ex.jInst).map
      (fun inst => allBinsAndItemsCentered (fun x => decide (x = 0)) inst.items inst.givenBins) = some false := by
  refine ⟨?_, by decide +kernel⟩
  have h : Ex.jParsed.map (fun i => (i.items.length, i.givenBins.length)) = some (2, 1) := by decide +kernel
  obtain ⟨inst, hi, he⟩ := Option.map_eq_some_iff.1 h
  exact ⟨inst, hi, C53_centered_check Ex.jPoi_inside Ex.jEnv_keeps Ex.turns_zero (by decide +kernel) Ex.jCfg_tolerance rfl Ex.jInst_sound hi (by decide),
    (Prod.ext_iff.1 he).1, (Prod.ext_iff.1 he).2⟩

end Jagua
