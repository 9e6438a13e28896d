import Verif.Spec.Svg
import Verif.Spec.JsonExamples

/-!
# Pictures used to show that hypotheses can be met
-/

namespace Jagua.Ex

open Jagua

noncomputable def sEnv : SvgEnv ℚ := { jEnv with toDegrees := jDegrees }

def sTheme : SvgTheme :=
  ⟨⟨0xCC, 0x82, 0x4A⟩, ⟨0x8F, 0xBC, 0x8F⟩, ⟨0x2D, 0x2D, 0x2D⟩, List.replicate 10 ⟨0, 0x73, 0xFF⟩⟩

/-- everything but the grid is drawn -/
def sOpts : SvgOptions := ⟨sTheme, true, false, true⟩

/-- what is compared: the definitions, the uses and the zones -/
def sBrief (svg : Svg ℚ) : List ℕ × List (ℕ × ℚ) × List ℕ := (svg.items.map (·.id), svg.uses.map fun u => (u.href, u.transform.degrees), svg.zones.map (·.quality))

/-- read, solve, draw -/
noncomputable def sRun : Option (List (Svg ℚ)) :=
  jParsed.bind fun i => match i with
  | .bp inst => (lbfSolveBP jLenv jEnv.toEnv lbfCfg (fun a b => 100000 + 1000 * a + b) 4 inst 0).bind fun s =>
    s.1.snapshots.mapM (snapshotToSvg sEnv sOpts (fun a b => 500000 + 1000 * a + b) (.bp inst) none)
  | .sp _ => none

noncomputable def sStripRun : Option (List (Svg ℚ)) :=
  jParsedStrip.bind fun i => match i with
  | .sp inst => (lbfSolveSP (n := 2) lbfLenv jSenv lbfCfg (fun a b => 1000 * a + b) (fun a b c => 10000 * a + 100 * b + c) 1 2 id 4 inst 0).bind fun s =>
    s.1.snapshots.mapM (snapshotToSvg sEnv sOpts (fun a b => 500000 + 1000 * a + b) (.sp (n := 2) inst) none)
  | .bp _ => none

/-- the items need the highest quality a zone can have, and one more -/
def tenInst : JsonInstance ℚ := ⟨(jItems 2).map fun j => { j with baseQuality := some 10 }, some [jBin], none⟩

noncomputable def tenRun : Option (Instance ℚ 2 × Solution ℚ 2 × JsonSolution ℚ) :=
  (parseInstance jEnv jCfg 2 (fun i j k => 10000 * i + 100 * j + k) (fun i j k => 20000 + 10000 * i + 100 * j + k) tenInst).bind fun i => match i with
  | .bp inst => (lbfSolveBP jLenv jEnv.toEnv lbfCfg (fun a b => 100000 + 1000 * a + b) 4 inst 0).bind fun s =>
    (composeSolution jEnv.tr (.bp inst) s.1).map fun js => (.bp inst, s.1, js)
  | .sp _ => none

end Jagua.Ex
