import Verif.Model.Main
import Verif.Lemmas.Transf
import Verif.Lemmas.QTVec
import Verif.Spec.Twin
import Verif.Spec.JsonExamples

/-!
# What is assumed of the surroundings of the program
-/

set_option linter.unusedSectionVars false

namespace Jagua

variable {K : Type*} [Field K] [LinearOrder K] [IsStrictOrderedRing K] {n : ℕ} {R : Type*}

/-- exact arithmetic, and the contracts of the functions that are not modelled -/
structure MEnv.Regular (env : MEnv K n R) : Prop where
  exact : env.f = Fpa.exact
  poi : PoiInside env.poi
  surr : KeepsShape env.surr
  zero : env.tr.AtZero
  unit : env.tr.Unit
  polar : env.tr.Polar
  rad : env.toRadians 0 = 0
  tol : 0 < env.toStripEnv.tolerance

/-- the grid that guides the sampling is determined by the layout, not by where its shapes are in memory -/
def MEnv.GridOfLayout (env : MEnv K n R) : Prop := ∀ l l' : Layout K n, l.Twin l' → env.lenv.grid l = env.lenv.grid l'

/-- another search: insert behind the last element that is not weaker -/
def SearchOracle.last : SearchOracle K where
  pos l h := l.findIdx (fun x => decide (x.strength < h.strength))
  pos_le l h := List.findIdx_le_length
  sorted l h hs := by
    induction l with
    | nil => exact List.pairwise_singleton _ _
    | cons a l ih =>
      unfold StrengthSorted at *
      rw [List.pairwise_cons] at hs
      rw [List.findIdx_cons]
      by_cases hc : a.strength < h.strength
      · simp only [hc, decide_true, cond_true, List.insertIdx_zero, List.pairwise_cons]
        refine ⟨?_, hs⟩
        intro x hx
        rcases List.mem_cons.1 hx with rfl | hx
        · exact hc.le
        · exact (hs.1 x hx).trans hc.le
      · simp only [hc, decide_false, cond_false, List.insertIdx_succ_cons, List.pairwise_cons]
        refine ⟨?_, ih hs.2⟩
        intro x hx
        rcases (List.mem_insertIdx (by exact List.findIdx_le_length)).1 hx with rfl | hx
        · exact not_lt.1 hc
        · exact hs.1 x hx

namespace Ex

/-- the examples of reading and solving as a run of the program -/
noncomputable def mEnv : MEnv ℚ 2 ℕ where
  toPEnv := jEnv
  toDegrees := jDegrees
  stripValue _ := 0
  tolerance := 1 / 10
  lenv := jLenv
  seedFrom s := s
  entropy := 5
  hpg _ := none

def mCfg : MainConfig ℚ := ⟨some (1 / 1000), some 0, lbfCfg, ⟨⟨⟨0xCC, 0x82, 0x4A⟩, ⟨0x8F, 0xBC, 0x8F⟩, ⟨0x2D, 0x2D, 0x2D⟩, List.replicate 10 ⟨0, 0x73, 0xFF⟩⟩, true, false, true⟩⟩

def mMem : MainMem where
  bins i j k := 10000 * i + 100 * j + k
  centered i j k := 20000 + 10000 * i + 100 * j + k
  items a b := 100000 + 1000 * a + b
  again a b c := 10000 * a + 100 * b + c
  first := 1
  last := 2
  lastItems := id
  drawn a b c := 500000 + 10000 * a + 1000 * b + c
  fuel := 4

/-- other addresses: all of them are the same -/
def mMem' : MainMem where
  bins _ _ _ := 7
  centered _ _ _ := 7
  items _ _ := 7
  again _ _ _ := 7
  first := 7
  last := 7
  lastItems _ := 7
  drawn _ _ _ := 7
  fuel := 4

end Ex

end Jagua
