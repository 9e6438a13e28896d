import Verif.Model.Parser
import Verif.Spec.LBF
import Verif.Spec.Motion
import Verif.Spec.Simple

/-!
# Specification of instances and solutions as they are read and written

Everything here is about the numbers in the input and the output; the only parts of the code that occur are the types of
the input and the output.
-/

namespace Jagua

variable {K : Type*} [Field K] [LinearOrder K]

/-- The corners of a polygon that is given with or without its first corner repeated at the end. -/
def openOutline (pts : List (Point K)) : List (Point K) := if pts.head? = pts.getLast? then pts.dropLast else pts

/-- The corners of the outline of a shape. -/
def JsonShape.corners : JsonShape K → List (Point K)
  | .rectangle w h => [⟨0, 0⟩, ⟨w, 0⟩, ⟨w, h⟩, ⟨0, h⟩]
  | .simplePolygon pts => openOutline pts
  | .polygon outer _ => openOutline outer
  | .multiPolygon _ => []

/-- The corners of the holes of a shape. -/
def JsonShape.holes : JsonShape K → List (List (Point K))
  | .polygon _ inner => inner.map openOutline
  | _ => []

/-- A rectangle with positive sides or a simple polygon. -/
def JsonShape.Plain : JsonShape K → Prop
  | .rectangle w h => 0 < w ∧ 0 < h
  | .simplePolygon pts => SimplePoly (openOutline pts)
  | _ => False

/-- A rectangle with positive sides or a simple polygon, possibly with simple polygons as holes. -/
def JsonShape.PlainWithHoles : JsonShape K → Prop
  | .polygon outer inner => SimplePoly (openOutline outer) ∧ ∀ h ∈ inner, SimplePoly (openOutline h)
  | s => s.Plain

/-- The instance consists of shapes the parser can handle, and is either a bin packing or a strip packing one. -/
structure JsonInstance.Sound (ji : JsonInstance K) : Prop where
  items : ∀ j ∈ ji.items, j.shape.Plain
  bins : ∀ bs, ji.bins = some bs → ∀ b ∈ bs, b.shape.PlainWithHoles ∧ ∀ z ∈ b.zones, z.shape.Plain

/-- The rotations an item of the input allows, up to whole turns: all if none are listed; only that by zero if the list is
empty. -/
def JsonItem.Allows (tr : Trig K) (toRadians : K → K) (j : JsonItem K) (a : K) : Prop :=
  match j.allowedOrientations with
  | none => True
  | some [] => SameTurn tr a 0
  | some as => ∃ d ∈ as, SameTurn tr a (toRadians d)

/-- `Q` is `P` moved by `(tx, ty)`, or more. -/
def MovedCovers (tx ty : K) (P Q : List (Point K)) : Prop := ∀ v ∈ region P, transPt tx ty v ∈ region Q

/-- `Q` is `P` moved by `(tx, ty)`, or less. -/
def MovedInside (tx ty : K) (P Q : List (Point K)) : Prop := ∀ v, transPt tx ty v ∈ region Q → v ∈ region P

/-- `Q` is `P` moved by `(tx, ty)`. -/
def MovedSame (tx ty : K) (P Q : List (Point K)) : Prop :=
  ∀ v, (transPt tx ty v ∈ region Q ↔ v ∈ region P) ∧ (transPt tx ty v ∈ interior Q ↔ v ∈ interior P)

/-- A polygon with inner points is given a pole of inaccessibility among them (see C47). -/
def PoiInside (poi : List (Point K) → Circle K) : Prop := ∀ pts, (interior pts).Nonempty → (poi pts).center ∈ interior pts

/-- `cos` and `sin` of zero. -/
def Trig.AtZero (tr : Trig K) : Prop := tr.cos 0 = 1 ∧ tr.sin 0 = 0

/-- Adding a surrogate changes nothing else of a shape. -/
def KeepsShape (surr : SPoly K → SPoly K) : Prop := ∀ s, ∃ x, surr s = { s with surrogate := x }

/-- Where a point of an item comes to lie: the item is turned about the origin and then moved. -/
def JsonPlacedItem.place (tr : Trig K) (p : JsonPlacedItem K) (v : Point K) : Point K :=
  transPt p.translation.1 p.translation.2 (rotPt (tr.cos p.rotation) (tr.sin p.rotation) v)

/-- The part of the plane that a placed item covers. -/
def JsonInstance.covered (tr : Trig K) (ji : JsonInstance K) (p : JsonPlacedItem K) : Set (Point K) :=
  match ji.items[p.index]? with
  | some j => p.place tr '' region j.shape.corners
  | none => ∅

/-- The items are items of the instance, turned only as allowed, and do not touch each other. -/
structure JsonInstance.PlacedApart (tr : Trig K) (toRadians : K → K) (ji : JsonInstance K) (placed : List (JsonPlacedItem K)) : Prop where
  items : ∀ p ∈ placed, ∃ j, ji.items[p.index]? = some j ∧ j.Allows tr toRadians p.rotation
  apart : placed.Pairwise fun a c => Disjoint (ji.covered tr a) (ji.covered tr c)

/-- The items lie in the bin and touch neither holes nor zones of too low a quality. -/
structure JsonInstance.InBin (tr : Trig K) (ji : JsonInstance K) (b : JsonBin K) (placed : List (JsonPlacedItem K)) : Prop where
  inside : ∀ p ∈ placed, ji.covered tr p ⊆ region b.shape.corners
  holes : ∀ p ∈ placed, ∀ h ∈ b.shape.holes, Disjoint (ji.covered tr p) (region h)
  zones : ∀ p ∈ placed, ∀ j, ji.items[p.index]? = some j → ∀ z ∈ b.zones, (∀ q, j.baseQuality = some q → z.quality < q) →
    Disjoint (ji.covered tr p) (region z.shape.corners)

/-- The copies of an item in the layouts of the output. -/
def JsonSolution.copies (js : JsonSolution K) (i : ℕ) : ℕ := (js.layouts.map fun l => l.placedItems.countP fun p => p.index = i).sum

/-- The layouts of the output in a bin. -/
def JsonSolution.binsUsed (js : JsonSolution K) (b : ℕ) : ℕ := js.layouts.countP fun l => l.container = .bin b

end Jagua
