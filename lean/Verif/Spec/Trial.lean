import Verif.Spec.LBF
import Verif.Spec.RoundedPlacement
import Verif.Spec.RoundedEngine

/-!
# Specification: what the optimizer tested before it placed an item

The optimizer tests the shape of an item under a transformation and stores a rotation and
a translation; the item is placed by what is stored. The two need not agree when numbers are
rounded. The first part is for any arithmetic, the second part is for arithmetic with rounding.
-/

namespace Jagua

section Any
variable {K : Type*} [Arith K] [LinearOrder K] {n : ℕ}

/-- The angle is one of those the item may be turned by. -/
def Item.AllowsAngle (item : Item K) (a : K) : Prop :=
  match item.allowedRotation with
  | .none => a = 0
  | .continuous => True
  | .discrete as => a ∈ as

/-- The shape is moved so that its pole of inaccessibility is in the origin, turned and moved. -/
def Item.sampleOf (tr : Trig K) (item : Item K) (d : DTransf K) : Transf K :=
  (Transf.fromTranslation (-item.shape.poi.center.x) (-item.shape.poi.center.y)).transformFromDecomposed tr d

/-- An allowed angle, or what is recovered from a matrix that turns by an allowed angle. -/
def Item.Turns (tr : Trig K) (item : Item K) (a : K) : Prop :=
  item.AllowsAngle a ∨ ∃ d : DTransf K, item.AllowsAngle d.rotation ∧ a = ((item.sampleOf tr d).decompose tr).rotation

/-- The matrices that may have been tested when `dt` was stored: that of a sample of which `dt` was
recovered, or that of `dt` itself. -/
inductive Item.TrialOf (tr : Trig K) (item : Item K) (dt : DTransf K) : Transf K → Prop
  | sample (d : DTransf K) : item.AllowsAngle d.rotation → dt = (item.sampleOf tr d).decompose tr → Item.TrialOf tr item dt (item.sampleOf tr d)
  | direct : item.Turns tr dt.rotation → Item.TrialOf tr item dt (Transf.fromDt tr dt)

/-- A query: the engine, the shape and what is ignored. -/
structure Trial (K : Type*) (n : ℕ) where
  engine : CDE K n
  shape : SPoly K
  ignored : List (HazardEntity K)

/-- The query when an item is tested in a layout. -/
def Layout.trial (l : Layout K n) (item : Item K) (t : Transf K) : Trial K n := ⟨l.cde, item.shape.transform t, lbfIrrelevant item l⟩

/-- The query was answered: no collision. -/
def Trial.Free (f : Fpa K) (q : Trial K n) : Prop := q.engine.polyCollides f q.shape q.ignored = some false

/-- A layout that was filled item by item, each after a successful test; with the tests. -/
inductive Layout.Filled (env : Env K) (inst : BPInstance K n) : Layout K n → List (Trial K n) → Prop
  | empty (id : ℕ) (bin : Bin K n) (q : ℕ) : inst.bins[bin.id]? = some (bin, q) → Layout.Filled env inst (Layout.new id bin) []
  | place {l l' : Layout K n} {ts : List (Trial K n)} {item : Item K × ℕ} {dt : DTransf K} {t : Transf K} {addr : ℕ} {key : SlotKey} :
      Layout.Filled env inst l ts → inst.items[item.1.id]? = some item → item.1.TrialOf env.tr dt t → (l.trial item.1 t).Free env.f →
      l.placeItem env addr item.1 dt = some (key, l') → Layout.Filled env inst l' (l.trial item.1 t :: ts)

end Any

section Rounded
variable {r : Rounding} {n : ℕ}

/-- The corners of a placed item of the instance as they are meant: moved without error. -/
noncomputable def BPInstance.meant (inst : BPInstance (Rounded r) n) (pi : PlacedItem (Rounded r)) : List (Point ℝ) :=
  match inst.items[pi.itemId]? with
  | some x => x.1.shape.real.map pi.dt.move
  | none => []

/-- The placed items as they are meant fit up to `ε`: no item sticks out of the outline of the bin by more than `ε`, and
there is no point deeper than `ε` in two items, in an item and a hole, or in an item and a zone of too low a quality. -/
structure NearlyFeasible (ε : ℝ) (inst : BPInstance (Rounded r) n) (b : Bin (Rounded r) n) (items : List (PlacedItem (Rounded r))) : Prop where
  inside : ∀ pi ∈ items, ∀ x ∈ region (inst.meant pi), ∃ q ∈ region b.outer.val.real, CloseTo ε q x
  holes : ∀ pi ∈ items, ∀ s ∈ b.holes, ∀ x, ¬ (DeepIn ε (inst.meant pi) x ∧ DeepIn ε s.val.real x)
  zones : ∀ pi ∈ items, ∀ z, some z ∈ b.qualityZones → (∀ q, pi.hazardFilter = some q → z.quality < q) →
    ∀ s ∈ z.zones, ∀ x, ¬ (DeepIn ε (inst.meant pi) x ∧ DeepIn ε s.val.real x)
  apart : items.Pairwise fun a c => ∀ x, ¬ (DeepIn ε (inst.meant a) x ∧ DeepIn ε (inst.meant c) x)

end Rounded

end Jagua
