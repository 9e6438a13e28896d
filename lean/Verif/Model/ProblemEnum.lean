import Verif.Model.Problem

/-!
# The interface that all problems share

Model of `jagua-rs/src/entities/problems/problem.rs` and of the parts of
`problem_generic.rs` and `strip_packing.rs` that list layouts.

All functions return `none` where the code would panic. `flush_changes` is left
out: it concerns the proximity grids only (`layout.rs:147-149`).
-/

namespace Jagua

variable {K : Type*} [Arith K] [LinearOrder K] {n : ℕ}

/-- `problem.rs:19-24` `Problem`. -/
inductive Problem (K : Type*) (n : ℕ)
  | bp (p : BPProblem K n)
  | sp (p : SPProblem K n)

namespace Problem

/-- `problem.rs:27-32` `place_item`; `addr` is the address of the shape of the
placed item. -/
def placeItem (env : Env K) (addr : ℕ) (p : Problem K n) (opt : PlacingOption K) :
    Option ((LayoutIndex × SlotKey) × Problem K n) :=
  match p with
  | bp p => (p.placeItem env addr opt).map fun r => (r.1, bp r.2)
  | sp p => (p.placeItem env addr opt).map fun r => (r.1, sp r.2)

/-- `problem.rs:34-44` `remove_item`. -/
def removeItem (env : Env K) (p : Problem K n) (idx : LayoutIndex) (key : SlotKey) (commitInstant : Bool) :
    Option (PlacingOption K × Problem K n) :=
  match p with
  | bp p => (p.removeItem env idx key commitInstant).map fun r => (r.1, bp r.2)
  | sp p => (p.removeItem env idx key commitInstant).map fun r => (r.1, sp r.2)

/-- `problem.rs:46-51` `create_solution`. Strip packing ignores the old solution
(`strip_packing.rs:209`). -/
def createSolution (p : Problem K n) (old : Option (Solution K n)) : Option (Solution K n × Problem K n) :=
  match p with
  | bp p => (p.createSolution old).map fun r => (r.1, bp r.2)
  | sp p => p.createSolution.map fun r => (r.1, sp r.2)

/-- `problem.rs:53-58` `restore_to_solution`. -/
def restore (env : Env K) (p : Problem K n) (sol : Solution K n) : Option (Problem K n) :=
  match p with
  | bp p => (p.restore env sol).map bp
  | sp p => (p.restore env sol).map sp

/-- `problem.rs:60-65` `layouts`, `strip_packing.rs:256-258`: a strip packing
problem has one layout. -/
def layouts : Problem K n → List (Layout K n)
  | bp p => p.layouts
  | sp p => [p.layout]

/-- `problem.rs:74-79` `template_layouts`, `strip_packing.rs:264-266`. -/
def templates : Problem K n → List (Layout K n)
  | bp p => p.templates
  | sp _ => []

/-- `problem.rs:81-86` `missing_item_qtys`. -/
def missing : Problem K n → List ℤ
  | bp p => p.missing
  | sp p => p.missing

/-- `problem.rs:88-93` `bin_qtys`, `strip_packing.rs:276-278`. -/
def binQtys : Problem K n → List ℕ
  | bp p => p.binQtys
  | sp _ => [0]

/-- `problem.rs:95-100` `instance`: the items and their demand. -/
def items : Problem K n → List (Item K × ℕ)
  | bp p => p.inst.items
  | sp p => p.inst.items

/-- `problem_generic.rs:46-51` `placed_item_qtys`. -/
def placedItemQtys (p : Problem K n) : List ℕ := placedQtys (p.items.map (·.2)) p.missing

/-- `problem_generic.rs:53-61` `usage`. -/
def usage (p : Problem K n) : K := problemUsage p.layouts

/-- `problem_generic.rs:63-65` `used_bin_cost`. -/
def usedBinCost (p : Problem K n) : ℕ := (p.layouts.map (·.bin.value)).sum

/-- `problem_generic.rs:68-70` `layout_indices`. -/
def layoutIndices (p : Problem K n) : List LayoutIndex := (List.range p.layouts.length).map .real

/-- `problem_generic.rs:73-81` `template_layout_indices_with_stock`, and
`strip_packing.rs:272-274`. -/
def templatesWithStock : Problem K n → Option (List LayoutIndex)
  | bp p => p.templatesWithStock
  | sp _ => some []

/-- `problem_generic.rs:83-88` `get_layout`. -/
def getLayout (p : Problem K n) : LayoutIndex → Option (Layout K n)
  | .real i => p.layouts[i]?
  | .template i => p.templates[i]?

end Problem

end Jagua
