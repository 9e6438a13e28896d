import Verif.Spec.LBF
import Verif.Spec.StripExamples
import Verif.Spec.ProblemExamples

/-!
# Concrete runs of the optimizer used to show that hypotheses can be met
-/

namespace Jagua.Ex

open Jagua

/-- a point of the unit circle by the tangent of half the angle -/
def circlePt (t : ℚ) : ℚ × ℚ := ((1 - t ^ 2) / (1 + t ^ 2), 2 * t / (1 + t ^ 2))

/-- the point for an "angle": the tangent of half the angle, with a gap `[1, 2)` for the half turn -/
def turnPt (a : ℚ) : ℚ × ℚ := if a < 1 then circlePt a else if a < 2 then (-1, 0) else circlePt (a - 1)

/-- a rational trigonometry; the angles 0, 1 and 2 are no turn, half a turn and a quarter turn -/
def turns : Trig ℚ where
  sin a := (turnPt a).2
  cos a := (turnPt a).1
  atan2 s c := if c = -1 then 1 else if s / (1 + c) < 1 then s / (1 + c) else s / (1 + c) + 1

def lbfEnv : Env ℚ := { env with tr := turns }

def lbfSenv : StripEnv ℚ := { lbfEnv with stripValue := fun _ => 0, tolerance := 1 / 10 }

/-- the square with a surrogate -/
def lbfSq : SPoly ℚ :=
  { unitSq with surrogate := some ⟨[0, 1, 2, 3], [⟨⟨0, 0⟩, 1⟩], ⟨⟨0, 0⟩, 1⟩, [⟨⟨-1 / 2, 0⟩, ⟨1 / 2, 0⟩⟩], 1, 4⟩ }

/-- the triangle with a surrogate -/
def lbfTri : SPoly ℚ :=
  { unitTri with surrogate := some ⟨[0, 1, 2], [⟨⟨0, 0⟩, 1 / 2⟩], ⟨⟨0, 0⟩, 1 / 2⟩, [], 1, 9 / 2⟩ }

/-- triangles that can be turned by quarter and half turns -/
def triItem : Item ℚ :=
  { id := 0, shape := lbfTri, allowedRotation := .discrete [0, 1, 2], baseQuality := none, value := 1, pretransform := .empty,
    hazardFilter := none }

/-- squares that cannot be turned -/
def sqItem : Item ℚ :=
  { id := 1, shape := lbfSq, allowedRotation := .none, baseQuality := none, value := 1, pretransform := .empty, hazardFilter := none }

/-- a pseudo random number in `[0, 1)` -/
def rnd (r : ℕ) : ℚ := ((r * 7 + 3) % 17 : ℕ) / 17

/-- four cells of equal size that cover the square `[0, 8] × [0, 8]` -/
def quarter (x y : ℚ) : HPGCell ℚ := ⟨⟨x, y, x + 4, y + 4⟩, ⟨x + 2, y + 2⟩, 3, (3, .binExterior), (3, .binExterior), []⟩

/-- the state of the generator is a counter -/
def lbfLenv : LEnv ℚ 2 ℕ where
  choose k r := (r % k, r + 1)
  uniform lo hi r := (lo + (hi - lo) * rnd r, r + 1)
  normal mean sd r := (mean + sd * (rnd r - 1 / 2), r + 1)
  pi := 355 / 113
  powf _ _ := 1 / 2
  grid _ := some [quarter 0 0, quarter 4 0, quarter 0 4, quarter 4 4]

/-- two triangles and one square, one bin -/
def lbfInst : Option (BPInstance ℚ 2) :=
  (Bin.new lbfEnv 2 0 ⟨103, bin⟩ 5 .empty [] []).bind fun b => BPInstance.new [(triItem, 2), (sqItem, 1)] [(b, 1)]

/-- a triangle and a square, strip height 4 -/
def lbfStripInst : SPInstance ℚ := ⟨[(triItem, 1), (sqItem, 1)], 4⟩

def lbfCfg : LbfConfig := ⟨6, 2⟩

def lbfRun : Option (Solution ℚ 2 × BPProblem ℚ 2) :=
  lbfInst.bind fun i => lbfSolveBP lbfLenv lbfEnv lbfCfg (fun a b => 1000 * a + b) 4 i 0

def lbfStripRun : Option (Solution ℚ 2 × SPProblem ℚ 2) :=
  lbfSolveSP lbfLenv lbfSenv lbfCfg (fun a b => 1000 * a + b) (fun a b c => 10000 * a + 100 * b + c) 1 2 id 4 lbfStripInst 2

end Jagua.Ex
