import Verif.Model.Geometry
import Mathlib.Data.List.Rotate

/-!
# Specification: simplification of polygons
-/

set_option linter.unusedSectionVars false

namespace Jagua

variable {K : Type*} [Field K] [LinearOrder K] [IsStrictOrderedRing K]

/-- One step of the simplification, on cyclic lists: a vertex is dropped, or two neighbours are replaced by a
point in front of the edges that lead to them. -/
inductive SimplMove : List (Point K) → List (Point K) → Prop
  | drop {pts new rest : List (Point K)} {v : Point K} {i j : ℕ} (h1 : pts.rotate i = v :: rest) (h2 : new.rotate j = rest) : SimplMove pts new
  | extend {pts new m : List (Point K)} {a b v h z : Point K} {i j : ℕ} {s u : K} (h1 : pts.rotate i = a :: b :: (h :: m ++ [z]))
      (h2 : new.rotate j = v :: (h :: m ++ [z])) (hs : 0 < s) (hu : 0 < u) (hv : v = ⟨a.x + s * (a.x - z.x), a.y + s * (a.y - z.y)⟩)
      (hv' : v = ⟨b.x + u * (b.x - h.x), b.y + u * (b.y - h.y)⟩) : SimplMove pts new

end Jagua
