import Verif.Spec.Region

/-!
# Specification: rotations, translations and rigid motions of the plane

Nothing here refers to the matrices of the code.
-/

namespace Jagua

variable {K : Type*} [Field K] [LinearOrder K]

/-- Rotation about the origin by the angle with the given cosine and sine. -/
def rotPt (c s : K) (p : Point K) : Point K := ⟨c * p.x - s * p.y, s * p.x + c * p.y⟩

/-- Translation. -/
def transPt (tx ty : K) (p : Point K) : Point K := ⟨p.x + tx, p.y + ty⟩

/-- A map of the plane that rotates and then translates. -/
def RigidMap (g : Point K → Point K) : Prop :=
  ∃ c s tx ty : K, c ^ 2 + s ^ 2 = 1 ∧ ∀ p, g p = transPt tx ty (rotPt c s p)

/-- The side crosses the ray from `p` in direction `d`. The line of the ray
belongs to its left side, so that a vertex on the ray is counted once. -/
def CrossesDir (d p : Point K) (s : Point K × Point K) : Prop :=
  let L : Point K → K := fun v => d.x * (v.y - p.y) - d.y * (v.x - p.x)
  ((L s.1 < 0 ∧ 0 ≤ L s.2) ∨ (L s.2 < 0 ∧ 0 ≤ L s.1)) ∧
  ∃ c ∈ segPts s.1 s.2, L c = 0 ∧ 0 < d.x * (c.x - p.x) + d.y * (c.y - p.y)

open Classical in
/-- Number of sides crossed by the ray from `p` in direction `d`. -/
noncomputable def dirCount (d : Point K) (pts : List (Point K)) (p : Point K) : ℕ :=
  (sides pts).countP fun s => CrossesDir d p s

end Jagua
