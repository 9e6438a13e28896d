import Verif.Model.Geometry
import Mathlib.Data.List.Sort
import Mathlib.Data.List.Dedup

/-!
# Grids and the boundary fill

Model of `jagua-rs/src/collision_detection/hpg/grid.rs` and
`hpg/boundary_fill.rs`. Functions return `none` where the code would panic.
-/

namespace Jagua

variable {K : Type*} [LinearOrder K]

/-- `grid.rs:13-20` `Grid`. The numbers of rows and columns are the lengths of the
lists. -/
structure Grid (K : Type*) (α : Type*) where
  cells : List (Option α)
  rows : List K
  cols : List K
  nElements : ℕ

namespace Grid

variable {α : Type*}

/-- `.unique().sorted()` in `grid.rs:28-40`: the distinct values in increasing order. -/
def sortedUnique (l : List K) : List K := (l.dedup).insertionSort (· ≤ ·)

/-- `binary_search` in an increasing list without duplicates: `Sum.inl i` (`Ok`) is
the index of the value, `Sum.inr i` (`Err`) the number of smaller values. -/
def search (l : List K) (x : K) : ℕ ⊕ ℕ :=
  let i := l.countP (· < x)
  if l[i]? = some x then .inl i else .inr i

/-- `grid.rs:148-158` `calculate_index` -/
def calculateIndex (row col nRows nCols : ℕ) : Option ℕ :=
  if row < nRows ∧ col < nCols then some (row * nCols + col) else none

/-- `grid.rs:144-146` `to_index`; `none` is `Err(OutOfBounds)`. -/
def toIndex (g : Grid K α) (row col : ℕ) : Option ℕ := calculateIndex row col g.rows.length g.cols.length

/-- `grid.rs:160-169` `to_row_col` -/
def toRowCol (g : Grid K α) (index : ℕ) : Option (ℕ × ℕ) :=
  if index < g.rows.length * g.cols.length then some (index / g.cols.length, index % g.cols.length) else none

/-- `grid.rs:48-62`: storing one element. -/
def store (rows cols : List K) (cells : List (Option α)) (e : α × Point K) : Option (List (Option α)) :=
  match search rows e.2.y, search cols e.2.x with
  | .inl row, .inl col => (calculateIndex row col rows.length cols.length).bind fun i =>
    if i < cells.length then some (cells.set i (some e.1)) else none
  | _, _ => none

/-- `grid.rs:24-72` `Grid::new` -/
def new (elements : List (α × Point K)) : Option (Grid K α) :=
  let rows := sortedUnique (elements.map fun e => e.2.y)
  let cols := sortedUnique (elements.map fun e => e.2.x)
  (elements.foldlM (store rows cols) (List.replicate (rows.length * cols.length) none)).map fun cells =>
    ⟨cells, rows, cols, elements.length⟩

/-- the index range of `grid.rs:75-89` and `92-106`: `(start, end)`, both
included. (With an empty list the subtraction `n - 1` would overflow; a grid has at
least one row and column because `HazardProximityGrid::new` reads its first cell.) -/
def inRange (l : List K) (lo hi : K) : ℕ × ℕ :=
  (match search l lo with
    | .inl i => i
    | .inr i => i - 1,
   match search l hi with
    | .inl i => i
    | .inr i => min i (l.length - 1))

/-- `grid.rs:75-89` `rows_in_range` -/
def rowsInRange (g : Grid K α) (lo hi : K) : ℕ × ℕ := inRange g.rows lo hi

/-- `grid.rs:92-106` `cols_in_range` -/
def colsInRange (g : Grid K α) (lo hi : K) : ℕ × ℕ := inRange g.cols lo hi

/-- `grid.rs:110-142` `get_neighbors` -/
def neighbors (g : Grid K α) (idx : ℕ) : List ℕ :=
  let nCols := g.cols.length
  let nRows := g.rows.length
  let row := idx / nCols
  let col := idx % nCols
  [ if 0 < row ∧ 0 < col then idx - nCols - 1 else idx,
    if 0 < row then idx - nCols else idx,
    if 0 < row ∧ col < nCols - 1 then idx - nCols + 1 else idx,
    if 0 < col then idx - 1 else idx,
    if col < nCols - 1 then idx + 1 else idx,
    if row < nRows - 1 ∧ 0 < col then idx + nCols - 1 else idx,
    if row < nRows - 1 then idx + nCols else idx,
    if row < nRows - 1 ∧ col < nCols - 1 then idx + nCols + 1 else idx ]

end Grid

/-- `boundary_fill.rs:128-133` `CellState` -/
inductive CellState
  | notQueued
  | visited
  | queued
  deriving DecidableEq, Repr

namespace CellState

/-- `boundary_fill.rs:136-142` `visit` (the counter is incremented by the caller) -/
def visit : CellState → Option CellState
  | queued | notQueued => some visited
  | visited => none

/-- `boundary_fill.rs:144-150` `queue` -/
def queue : CellState → Option CellState
  | notQueued => some queued
  | visited | queued => none

/-- `boundary_fill.rs:152-158` `dequeue` -/
def dequeue : CellState → Option CellState
  | queued => some notQueued
  | visited | notQueued => none

end CellState

/-- `boundary_fill.rs:23-30` `BoundaryFillHPG` -/
structure BFill where
  state : List CellState
  seedRows : ℕ × ℕ
  seedCols : ℕ × ℕ
  queue : List ℕ
  nVisited : ℕ
  seeded : Bool
  deriving DecidableEq, Repr

namespace BFill

variable {α : Type*}

/-- `self.state[i].op()`; panics if out of range or if `op` does. -/
def update (state : List CellState) (i : ℕ) (op : CellState → Option CellState) : Option (List CellState) :=
  match state[i]? with
  | none => none
  | some s => (op s).map fun s' => state.set i s'

/-- `a + (b - a) / 2`; the subtraction panics below zero. -/
def middle (r : ℕ × ℕ) : Option ℕ := if r.1 ≤ r.2 then some (r.1 + (r.2 - r.1) / 2) else none

/-- `boundary_fill.rs:50-62` `init_queue` -/
def initQueue (b : BFill) (g : Grid K α) : Option BFill :=
  (middle b.seedRows).bind fun row => (middle b.seedCols).bind fun col => (g.toIndex row col).bind fun cell =>
  (update b.state cell CellState.queue).map fun st => { b with state := st, queue := b.queue ++ [cell] }

/-- `boundary_fill.rs:33-47` `new` -/
def new (g : Grid K α) (box : AARect K) : Option BFill :=
  initQueue ⟨List.replicate (g.rows.length * g.cols.length) .notQueued, g.rowsInRange box.yMin box.yMax,
    g.colsInRange box.xMin box.xMax, [], 0, false⟩ g

/-- `boundary_fill.rs:106-124` `reset` -/
def reset (b : BFill) (g : Grid K α) (box : AARect K) : Option BFill :=
  initQueue ⟨b.state.map fun _ => .notQueued, g.rowsInRange box.yMin box.yMax, g.colsInRange box.xMin box.xMax, [], 0, false⟩ g

/-- `boundary_fill.rs:66-74` `pop`; the outer `none` is a panic. -/
def pop (b : BFill) : Option (Option ℕ × BFill) :=
  match b.queue with
  | [] => some (none, b)
  | i :: q => (update b.state i CellState.visit).map fun st =>
    (some i, { b with state := st, queue := q, nVisited := b.nVisited + 1 })

/-- `boundary_fill.rs:96-101`: queueing one neighbour. -/
def queueNeighbor (b : BFill) (i : ℕ) : Option BFill :=
  match b.state[i]? with
  | none => none
  | some .notQueued => (update b.state i CellState.queue).map fun st => { b with state := st, queue := b.queue ++ [i] }
  | some _ => some b

/-- `boundary_fill.rs:77-103` `report_position` -/
def report (b : BFill) (g : Grid K α) (index : ℕ) (pos : GeoPosition) : Option BFill :=
  (match b.seeded, pos with
    | false, .interior =>
      (b.queue.foldlM (fun (st : List CellState) i => update st i CellState.dequeue) b.state).map fun st =>
        (true, { b with seeded := true, queue := [], state := st })
    | false, .exterior => (g.toRowCol index).map fun (rc : ℕ × ℕ) =>
      (decide (b.seedRows.1 ≤ rc.1 ∧ rc.1 ≤ b.seedRows.2) && decide (b.seedCols.1 ≤ rc.2 ∧ rc.2 ≤ b.seedCols.2), b)
    | true, .interior => some (true, b)
    | true, .exterior => some (false, b)).bind fun (r : Bool × BFill) =>
  if r.1 then (g.neighbors index).foldlM queueNeighbor r.2 else some r.2

end BFill

end Jagua
