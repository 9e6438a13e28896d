import Verif.Arith
import Verif.Spec.ProblemExamples

/-!
# Arithmetic with rounding

The claims about bookkeeping assume `[Arith K]`: the operations, but no laws. Here
is the family of number types they are meant for: rationals that a rounding function
leaves alone, with every operation rounded. IEEE arithmetic without NaN and infinities
is one of them.
-/

namespace Jagua

/-- A way of rounding; what was rounded is not changed by rounding it again. -/
structure Rounding where
  rnd : ℚ → ℚ
  idem : ∀ x, rnd (rnd x) = rnd x

/-- the numbers that exist -/
def Rounded (r : Rounding) := {x : ℚ // r.rnd x = x}

namespace Rounded

variable {r : Rounding}

/-- the number nearest to `x`, or whatever the rounding makes of it -/
def of (r : Rounding) (x : ℚ) : Rounded r := ⟨r.rnd x, r.idem x⟩

instance : LinearOrder (Rounded r) := inferInstanceAs (LinearOrder {x : ℚ // r.rnd x = x})

/-- every operation is the exact one, followed by rounding; powers are products -/
instance : Arith (Rounded r) where
  zero := of r 0
  one := of r 1
  add a b := of r (a.1 + b.1)
  sub a b := of r (a.1 - b.1)
  neg a := of r (-a.1)
  mul a b := of r (a.1 * b.1)
  div a b := of r (a.1 / b.1)
  natCast k := of r k
  pow a k := k.rec (of r 1) fun _ b => of r (b.1 * a.1)

end Rounded

namespace Ex

/-- sixteenths, rounded down -/
def sixteenths : Rounding where
  rnd x := (⌊x * 16⌋ : ℚ) / 16
  idem x := by
    have : ((⌊x * 16⌋ : ℚ) / 16) * 16 = ((⌊x * 16⌋ : ℤ) : ℚ) := by ring
    rw [this, Int.floor_intCast]

/-- numbers with four binary places -/
abbrev Q16 := Rounded sixteenths

/-- a literal -/
def q (x : ℚ) : Q16 := Rounded.of sixteenths x

/-- a turn by 45 degrees, rounded: it is not a rotation -/
def rTrig : Trig Q16 := ⟨fun x => if x = 0 then 0 else q (7 / 10), fun x => if x = 0 then 1 else q (7 / 10), fun _ _ => 0⟩

def rEnv : Env Q16 := ⟨⟨fun a b => decide (fabs (a - b) ≤ q (1 / 16))⟩, SearchOracle.first, rTrig, fun pts => ⟨(boundingBox pts).centroid, q (1 / 16)⟩, true⟩

/-- a square with side 2 around the origin -/
def rSq : SPoly Q16 := ⟨[⟨q (-1), q (-1)⟩, ⟨q 1, q (-1)⟩, ⟨q 1, q 1⟩, ⟨q (-1), q 1⟩], ⟨q (-1), q (-1), q 1, q 1⟩, q 4, ⟨⟨0, 0⟩, 1⟩, none⟩

def rItem (i : ℕ) : Item Q16 := ⟨i, rSq, .none, none, 1, .empty, none⟩

def rInst : Option (BPInstance Q16 2) := do
  let outer ← SPoly.new (fun _ => ⟨⟨q 4, q 4⟩, q 4⟩) [⟨0, 0⟩, ⟨q 8, 0⟩, ⟨q 8, q 8⟩, ⟨0, q 8⟩]
  let bin ← Bin.new rEnv 2 0 ⟨100, outer⟩ 5 .empty [] []
  BPInstance.new [(rItem 0, 3)] [(bin, 1)]

/-- one square straight, one turned, one removed again -/
def rOps : List (BPOp Q16 2) :=
  [.place 1 ⟨.template 0, 0, ⟨0, q 2, q 2⟩⟩, .place 2 ⟨.real 0, 0, ⟨q (3 / 4), q 5, q 5⟩⟩, .solution none, .place 3 ⟨.real 0, 0, ⟨0, q 2, q 5⟩⟩, .restore 0]

/-- the state after these operations -/
def rAfter : Option (BPState Q16 2) := rInst.bind fun inst => bpRunIn rEnv rOps ⟨BPProblem.new inst, []⟩

/-- the coordinates of everything placed -/
def rCorners (st : BPState Q16 2) : List (List (ℚ × ℚ)) :=
  st.p.layouts.flatMap fun l => l.placed.values.map fun pi => pi.shape.val.points.map fun p => (p.x.1, p.y.1)

end Ex

end Jagua
