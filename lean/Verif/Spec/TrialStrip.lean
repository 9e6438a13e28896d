import Verif.Spec.Trial
import Verif.Model.LBF

/-!
# Specification: what was tested before an item got its place in a strip

A strip is replaced by a longer one when an item finds no place, and by a fitting one in the end. The items
are then placed anew. The tests of before were made in other engines, with other strips.
-/

namespace Jagua

section Any
variable {K : Type*} [Arith K] [LinearOrder K] {n : ℕ}

/-- The query is about the item with number `a.1`, which was to be placed by `a.2`. -/
def Trial.About (tr : Trig K) (items : List (Item K × ℕ)) (q : Trial K n) (a : ℕ × DTransf K) : Prop :=
  ∃ x t, items[a.1]? = some x ∧ x.1.TrialOf tr a.2 t ∧ q.shape = x.1.shape.transform t

/-- The query takes the outside of the outline into account. -/
def Trial.AgainstOutline (q : Trial K n) (outline : SPoly K) : Prop :=
  .binExterior ∉ q.ignored ∧ ∃ h ∈ q.engine.allHazards, h.entity = .binExterior ∧ h.shape.val = outline

/-- The query takes the item with number `c.1` into account, placed by `c.2`. -/
def Trial.AgainstItem (tr : Trig K) (items : List (Item K × ℕ)) (q : Trial K n) (c : ℕ × DTransf K) : Prop :=
  .placedItem c.1 c.2 ∉ q.ignored ∧ ∃ y, items[c.1]? = some y ∧
    ∃ h ∈ q.engine.allHazards, h.entity = .placedItem c.1 c.2 ∧ h.shape.val = y.1.shape.transform (Transf.fromDt tr c.2)

/-- In the tests, every placement was tested against the outline, and of every two one was tested against the other. -/
structure Vetted (tr : Trig K) (items : List (Item K × ℕ)) (ts : List (Trial K n)) (outline : SPoly K) (xs : List (ℕ × DTransf K)) : Prop where
  inside : ∀ a ∈ xs, ∃ q ∈ ts, q.About tr items a ∧ q.AgainstOutline outline
  apart : xs.Pairwise fun a c => ∃ q ∈ ts, (q.About tr items a ∧ q.AgainstItem tr items c) ∨ (q.About tr items c ∧ q.AgainstItem tr items a)

/-- What is asked of the tests: there was no collision; and if no two things in the engine are the same, it is an engine as
C06 to C08 are about. -/
def Trial.Sound (env : Env K) (q : Trial K n) : Prop :=
  q.Free env.f ∧ ((q.engine.allHazards.map (·.entity)).Nodup → q.engine.Reachable env.f env.o)

/-- The items and placements of a layout. -/
def Layout.puts (l : Layout K n) : List (ℕ × DTransf K) := l.placed.values.map fun pi => (pi.itemId, pi.dt)

/-- The items of a strip packing instance, as those of an instance without bins. -/
def SPInstance.listed (inst : SPInstance K) : BPInstance K n := ⟨inst.items, []⟩

end Any

end Jagua
