import Verif.Spec.Json
import Verif.Spec.LBFExamples

/-!
# Instances that are read, used to show that hypotheses can be met
-/

namespace Jagua.Ex

open Jagua

/-- the box around some points as a list of corners -/
def boxOf (pts : List (Point ℚ)) : List (Point ℚ) :=
  let b := boundingBox pts
  [⟨b.xMin, b.yMin⟩, ⟨b.xMax, b.yMin⟩, ⟨b.xMax, b.yMax⟩, ⟨b.xMin, b.yMax⟩]

open Classical in
/-- the pole of inaccessibility: the middle of a rectangle, the origin for the triangle, otherwise any inner point -/
noncomputable def jPoi (pts : List (Point ℚ)) : Circle ℚ :=
  @ite _ (pts = boxOf pts) (instDecidableEqList _ _) (mid pts) <| @ite _ (pts = unitTri.points) (instDecidableEqList _ _) ⟨⟨0, 0⟩, 1 / 2⟩ <|
    if h : (interior pts).Nonempty then ⟨h.choose, 1 / 100⟩ else ⟨⟨0, 0⟩, 1⟩

/-- 90 and 180 degrees are the turns 2 and 1 of `turns`; its own inverse -/
def jDegrees (d : ℚ) : ℚ := if d = 90 then 2 else if d = 180 then 1 else if d = 2 then 90 else if d = 1 then 180 else d

/-- a debug build that logs messages -/
noncomputable def jEnv : PEnv ℚ where
  toEnv := { lbfEnv with poi := jPoi }
  surr s := { s with surrogate := some ⟨List.range s.points.length, [s.poi], s.poi, [], 1, s.area⟩ }
  toRadians := jDegrees
  toU64 x := x.floor.toNat
  maxU64 := 2 ^ 64 - 1
  logInfo := true

def jCfg : ParserConfig ℚ := ⟨some (1 / 1000), true⟩

/-- triangles, given by a closed outline, that can be turned by quarter and half turns, and squares that cannot be turned; both need quality 1 -/
def jItems (k : ℕ) : List (JsonItem ℚ) :=
  [⟨k, some [0, 90, 180], .simplePolygon [⟨-1, -1⟩, ⟨2, -1⟩, ⟨-1, 2⟩, ⟨-1, -1⟩], none, some 1⟩, ⟨1, some [0], .rectangle 2 2, some 7, some 1⟩]

/-- a bin with a hole and a zone of quality 0 -/
def jBin : JsonBin ℚ :=
  ⟨3, some 1, .polygon [⟨0, 0⟩, ⟨8, 0⟩, ⟨8, 8⟩, ⟨0, 8⟩] [[⟨1, 1⟩, ⟨2, 1⟩, ⟨2, 2⟩, ⟨1, 2⟩, ⟨1, 1⟩]], [⟨0, .simplePolygon [⟨7, 1⟩, ⟨7, 2⟩, ⟨6, 2⟩, ⟨6, 1⟩]⟩]⟩

def jInst : JsonInstance ℚ := ⟨jItems 2, some [jBin], none⟩

def jStrip : JsonInstance ℚ := ⟨jItems 1, none, some 4⟩

/-- the grid for the centered bin -/
def jLenv : LEnv ℚ 2 ℕ := { lbfLenv with grid := fun _ => some [quarter (-4) (-4), quarter 0 (-4), quarter (-4) 0, quarter 0 0] }

noncomputable def jSenv : StripEnv ℚ := { jEnv.toEnv with stripValue := fun _ => 0, tolerance := 1 / 10 }

noncomputable def jParsed : Option (Instance ℚ 2) := parseInstance jEnv jCfg 2 (fun i j k => 10000 * i + 100 * j + k) (fun i j k => 20000 + 10000 * i + 100 * j + k) jInst

noncomputable def jParsedStrip : Option (Instance ℚ 2) :=
  parseInstance jEnv jCfg 2 (fun i j k => 10000 * i + 100 * j + k) (fun i j k => 20000 + 10000 * i + 100 * j + k) jStrip

/-- read, solve, write -/
noncomputable def jRun : Option (JsonSolution ℚ) :=
  jParsed.bind fun i => match i with
  | .bp inst => (lbfSolveBP jLenv jEnv.toEnv lbfCfg (fun a b => 100000 + 1000 * a + b) 4 inst 0).bind fun s => composeSolution jEnv.tr (.bp inst) s.1
  | .sp _ => none

noncomputable def jStripRun : Option (JsonSolution ℚ) :=
  jParsedStrip.bind fun i => match i with
  | .sp inst => (lbfSolveSP (n := 2) lbfLenv jSenv lbfCfg (fun a b => 1000 * a + b) (fun a b c => 10000 * a + 100 * b + c) 1 2 id 4 inst 0).bind fun s =>
    composeSolution jEnv.tr (.sp (n := 2) inst) s.1
  | .bp _ => none

end Jagua.Ex
