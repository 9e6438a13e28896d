import Verif.Model.CDE

/-!
# Slot maps

Model of the external crate `slotmap` as far as the code uses it
(`SlotMap::with_key`, `insert`, `remove`, `get`, `iter`, `values`, `len`,
`is_empty`). A slot keeps a version that is raised when the slot is filled and
when it is emptied; a key is a slot index with the version at insertion. Empty
slots are reused, last emptied first. Versions are unbounded numbers (32 bits in
the crate).
-/

namespace Jagua

/-- A key of a slot map (`entities/placed_item.rs:9-12` `PItemKey`). -/
structure SlotKey where
  idx : ℕ
  version : ℕ
  deriving DecidableEq, Repr

/-- A slot: its version and, if occupied, its value. -/
structure Slot (α : Type*) where
  version : ℕ
  val : Option α
  deriving DecidableEq, Repr

/-- The slots, and the indices of the empty ones (the linked free list). -/
structure SlotMap (α : Type*) where
  slots : List (Slot α)
  free : List ℕ
  deriving DecidableEq, Repr

namespace SlotMap

variable {α : Type*}

/-- `SlotMap::with_key` -/
def empty : SlotMap α := ⟨[], []⟩

/-- `SlotMap::get` -/
def get? (m : SlotMap α) (k : SlotKey) : Option α :=
  match m.slots[k.idx]? with
  | none => none
  | some s => if s.version = k.version then s.val else none

/-- `SlotMap::insert` -/
def insert (m : SlotMap α) (a : α) : SlotKey × SlotMap α :=
  match m.free with
  | [] => (⟨m.slots.length, 1⟩, ⟨m.slots ++ [⟨1, some a⟩], []⟩)
  | i :: free => match m.slots[i]? with
    | none => (⟨m.slots.length, 1⟩, ⟨m.slots ++ [⟨1, some a⟩], free⟩)
    | some s => (⟨i, s.version + 1⟩, ⟨m.slots.set i ⟨s.version + 1, some a⟩, free⟩)

/-- `SlotMap::remove`; `none` if the key is not valid (any more). -/
def remove (m : SlotMap α) (k : SlotKey) : Option (α × SlotMap α) :=
  match m.get? k with
  | none => none
  | some a => some (a, ⟨m.slots.set k.idx ⟨k.version + 1, none⟩, k.idx :: m.free⟩)

/-- `SlotMap::iter`: in the order of the slots. -/
def toList (m : SlotMap α) : List (SlotKey × α) :=
  m.slots.zipIdx.filterMap fun s => s.1.val.map fun a => (⟨s.2, s.1.version⟩, a)

/-- `SlotMap::values` -/
def values (m : SlotMap α) : List α := m.slots.filterMap (·.val)

/-- `SlotMap::len` (a counter in the crate) -/
def len (m : SlotMap α) : ℕ := m.values.length

end SlotMap

end Jagua
