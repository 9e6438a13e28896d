import Verif.Spec.JsonExamples
import Verif.Lemmas.Parser

/-!
# The examples of instances meet the hypotheses
-/

namespace Jagua.Ex

open Jagua

theorem jPoi_inside : PoiInside jPoi := by
  intro pts hne
  unfold jPoi
  by_cases h1 : pts = boxOf pts
  · rw [if_pos h1]
    obtain ⟨p, hp⟩ := hne
    obtain ⟨a1, a2, a3, a4⟩ := interior_subset_inner hp
    have hx := a1.trans a2
    have hy := a3.trans a4
    rw [h1]
    have e : ∀ b : AARect ℚ, b = boundingBox pts → (mid (boxOf pts)).center = b.centroid := by
      intro b hb
      rw [hb, ← h1]
      rfl
    rw [e _ rfl]
    refine (interior_rectPoly hx hy _).2 ?_
    unfold AARect.centroid
    dsimp only
    refine ⟨?_, ?_, ?_, ?_⟩ <;> linarith
  · rw [if_neg h1]
    by_cases h2 : pts = unitTri.points
    · rw [if_pos h2, h2]
      exact unitTri_proper.poi
    · rw [if_neg h2, dif_pos hne]
      exact hne.choose_spec

theorem jEnv_keeps : KeepsShape jEnv.surr := fun s => ⟨_, rfl⟩

theorem turns_zero : turns.AtZero := by unfold Trig.AtZero; decide +kernel

theorem jItems_plain (k : ℕ) : ∀ j ∈ jItems k, j.shape.Plain := by
  intro j hj
  simp only [jItems, List.mem_cons, List.not_mem_nil, or_false] at hj
  rcases hj with rfl | rfl
  · exact simple_of_check (by decide +kernel)
  · exact ⟨by norm_num, by norm_num⟩

theorem jInst_sound : jInst.Sound := by
  refine ⟨jItems_plain 2, fun bs hb b hbm => ?_⟩
  obtain rfl : [jBin] = bs := Option.some.inj hb
  rw [List.mem_singleton.1 hbm]
  refine ⟨⟨simple_of_check (by decide +kernel), fun h hh => ?_⟩, fun z hz => ?_⟩
  · rw [List.mem_singleton.1 hh]
    exact simple_of_check (by decide +kernel)
  · rw [List.mem_singleton.1 hz]
    exact simple_of_check (by decide +kernel)

theorem jStrip_sound : jStrip.Sound := ⟨jItems_plain 1, fun bs hb => by cases hb⟩

theorem jCfg_tolerance : ∀ tol, jCfg.tolerance = some tol → tol < 1 := by
  intro tol h
  cases h
  norm_num

end Jagua.Ex
