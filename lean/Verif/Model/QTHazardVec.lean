import Verif.Model.QTHazard

/-!
# The hazard list of a node

Model of `collision_detection/quadtree/qt_hazard_vec.rs`. The functions return
`none` where the code would panic (index out of range, slice out of range,
underflow of the counter, which panics in debug builds and wraps in release
builds).
-/

namespace Jagua

variable {K : Type*} [Arith K] [LinearOrder K]

/-- `qt_hazard_vec.rs:12-15` `QTHazardVec`. -/
structure QTHazardVec (K : Type*) where
  hazards : List (QTHazard K)
  nActive : ℕ
  deriving DecidableEq, Repr

/-- Strength of a hazard: `qt_hazard_vec.rs:150-160` compares activeness first,
then presence, in descending order. -/
def QTHazard.strength (h : QTHazard K) : ℕ := (if h.active then 3 else 0) + h.presence.rank

/-- The list is sorted by `order_by_descending_strength`. -/
def StrengthSorted (l : List (QTHazard K)) : Prop := l.Pairwise fun a b => b.strength ≤ a.strength

/-- Contract of `slice::binary_search_by` as used by `QTHazardVec::add` (lines
35-43): on a sorted list, inserting at the returned position (`Ok` or `Err`)
keeps it sorted. Which position among equal elements is chosen is unspecified,
so every function of this kind is allowed. -/
structure SearchOracle (K : Type*) where
  pos : List (QTHazard K) → QTHazard K → ℕ
  pos_le : ∀ l h, pos l h ≤ l.length
  sorted : ∀ l h, StrengthSorted l → StrengthSorted (l.insertIdx (pos l h) h)

namespace QTHazardVec

/-- `qt_hazard_vec.rs:18-23` `new`. -/
def empty : QTHazardVec K := ⟨[], 0⟩

/-- `qt_hazard_vec.rs:25-44` `add`. -/
def add (o : SearchOracle K) (v : QTHazardVec K) (h : QTHazard K) : QTHazardVec K :=
  ⟨v.hazards.insertIdx (o.pos v.hazards h) h, v.nActive + (if h.active then 1 else 0)⟩

/-- `n -= k` with the underflow panic. -/
def subOrPanic (n k : ℕ) : Option ℕ := if k ≤ n then some (n - k) else none

/-- `qt_hazard_vec.rs:46-65` `remove`. -/
def remove (v : QTHazardVec K) (e : HazardEntity K) :
    Option (QTHazardVec K × Option (QTHazard K)) :=
  match v.hazards.find? (fun h => h.entity = e) with
  | none => some (v, none)
  | some h =>
    match subOrPanic v.nActive (if h.active then 1 else 0) with
    | none => none
    | some n => some (⟨v.hazards.eraseP (fun h => h.entity = e), n⟩, some h)

/-- `qt_hazard_vec.rs:70-91` `strongest`. -/
def strongest (v : QTHazardVec K) (irrelevant : List (HazardEntity K)) : Option (Option (QTHazard K)) :=
  if v.nActive = 0 then some none
  else if irrelevant = [] then
    match v.hazards with
    | [] => none
    | h :: _ => some (some h)
  else if v.nActive ≤ v.hazards.length then
    some ((v.hazards.take v.nActive).find? fun h => !irrelevant.contains h.entity)
  else none

/-- `qt_hazard_vec.rs:93-98` `get`. -/
def get (v : QTHazardVec K) (e : HazardEntity K) : Option (QTHazard K) :=
  (v.hazards.filter fun h => h.active).find? fun h => h.entity = e

/-- `qt_hazard_vec.rs:100-111` `activate_hazard`. -/
def activate (o : SearchOracle K) (v : QTHazardVec K) (e : HazardEntity K) : QTHazardVec K × Bool :=
  match v.hazards.find? (fun h => h.entity = e) with
  | none => (v, false)
  | some h => (add o ⟨v.hazards.eraseP (fun h => h.entity = e), v.nActive⟩ { h with active := true }, true)

/-- `qt_hazard_vec.rs:113-125` `deactivate_hazard`. -/
def deactivate (o : SearchOracle K) (v : QTHazardVec K) (e : HazardEntity K) :
    Option (QTHazardVec K × Bool) :=
  match v.hazards.find? (fun h => h.entity = e) with
  | none => some (v, false)
  | some h =>
    match subOrPanic v.nActive 1 with
    | none => none
    | some n => some (add o ⟨v.hazards.eraseP (fun h => h.entity = e), n⟩ { h with active := false }, true)

/-- `qt_hazard_vec.rs:127-129` `active_hazards`. -/
def activeHazards (v : QTHazardVec K) : Option (List (QTHazard K)) :=
  if v.nActive ≤ v.hazards.length then some (v.hazards.take v.nActive) else none

/-- `qt_hazard_vec.rs:143-147` `has_only_entire_hazards`. -/
def hasOnlyEntire (v : QTHazardVec K) : Bool := v.hazards.all fun h => h.presence.isEntire

end QTHazardVec

end Jagua
