import Verif.Model.Problem
import Verif.Spec.Layout

/-!
# Specification vocabulary for problems

What a caller may do with a bin packing or strip packing problem, and how copies
of items and bins are counted.
-/

namespace Jagua

variable {K : Type*} [Arith K] [LinearOrder K] {n : ℕ}

/-- the number of copies of item `i` in a slot map of placed items -/
def copiesIn (m : SlotMap (PlacedItem K)) (i : ℕ) : ℕ := m.values.countP fun pi => pi.itemId = i

/-- the number of copies of item `i` in the layouts -/
def copies (ls : List (Layout K n)) (i : ℕ) : ℕ := (ls.map fun l => copiesIn l.placed i).sum

/-- the number of layouts in a bin of type `b` -/
def binsUsed (ls : List (Layout K n)) (b : ℕ) : ℕ := ls.countP fun l => l.bin.id = b

/-- what identifies a layout for a user: its id, its bin and its placed items -/
def Layout.view (l : Layout K n) : ℕ × Bin K n × SlotMap (PlacedItem K) := (l.id, l.bin, l.placed)

/-- the same for a snapshot -/
def LayoutSnapshot.view (s : LayoutSnapshot K n) : ℕ × Bin K n × SlotMap (PlacedItem K) := (s.id, s.bin, s.placed)

/-- The catalogue of an item list: item `i` is the `i`-th; numbers out of range
stand for an item that is never used. -/
def catOf (items : List (Item K × ℕ)) (i : ℕ) : Item K :=
  match items[i]? with
  | some x => x.1
  | none => ⟨i, ⟨[], ⟨0, 0, 0, 0⟩, 0, ⟨⟨0, 0⟩, 0⟩, none⟩, .none, none, 0, Transf.empty, none⟩

/-- the catalogue of an instance -/
def BPInstance.cat (inst : BPInstance K n) : ℕ → Item K := catOf inst.items

/-- The instance comes out of `BPInstance::new` and its bins out of `Bin::new`. -/
def BPInstance.Built (env : Env K) (inst : BPInstance K n) : Prop :=
  BPInstance.new inst.items inst.bins = some inst ∧ ∀ b ∈ inst.bins, b.1.Built env

/-! ## Bin packing -/

/-- The operations on a bin packing problem. The caller keeps all solutions;
`solution (some j)` gives the `j`-th as hint, `restore j` restores it. -/
inductive BPOp (K : Type*) (n : ℕ)
  | place (addr : ℕ) (opt : PlacingOption K)
  | remove (idx : LayoutIndex) (key : SlotKey) (commitInstant : Bool)
  | registerLayout (l : Layout K n)
  | deregisterLayout (idx : LayoutIndex)
  | solution (hint : Option ℕ)
  | restore (j : ℕ)

/-- A problem and the solutions made so far. -/
structure BPState (K : Type*) (n : ℕ) where
  p : BPProblem K n
  sols : List (Solution K n)

/-- the ids and bins of all layouts that are in the problem, were removed from it
since the last restore, or are in a solution -/
def BPState.known (st : BPState K n) : List (ℕ × Bin K n) :=
  (st.p.layouts ++ st.p.removed).map (fun l => (l.id, l.bin)) ++
    st.sols.flatMap fun s => s.snapshots.map fun sn => (sn.id, sn.bin)

/-- The obligations of the caller.
* Items exist, and the same item is not placed twice in a layout with the same
  transformation.
* Templates exist and their bin is in stock.
* Layouts and keys exist.
* A registered layout was built by the operations of layouts from the items and
  bins of the instance, its bin is in stock, its id was given out before, is not
  in use and did not belong to a layout with another bin.
* A solution used as hint is the one last created or restored.
* A restored solution does not exceed the demand, unless overflow checks are off. -/
def BPOp.Pre (env : Env K) (st : BPState K n) : BPOp K n → Prop
  | .place _ opt => opt.itemId < st.p.inst.items.length ∧ match opt.layoutIdx with
    | .real i => ∃ l, st.p.layouts[i]? = some l ∧ ∀ pi ∈ l.placed.values, ¬ (pi.itemId = opt.itemId ∧ pi.dt = opt.dt)
    | .template i => ∃ q, st.p.binQtys[i]? = some q ∧ 0 < q
  | .remove idx key _ => match idx with
    | .real i => ∃ l pi, st.p.layouts[i]? = some l ∧ l.placed.get? key = some pi
    | .template _ => False
  | .registerLayout l =>
    (∃ s : LayoutState K n, s.Reachable env st.p.inst.cat ∧ s.layout = l) ∧
    (∀ pi ∈ l.placed.values, pi.itemId < st.p.inst.items.length) ∧
    (∃ q, st.p.inst.bins[l.bin.id]? = some (l.bin, q)) ∧
    (∃ q, st.p.binQtys[l.bin.id]? = some q ∧ 0 < q) ∧
    l.id ≤ st.p.layoutCounter ∧ (∀ l' ∈ st.p.layouts, l'.id ≠ l.id) ∧ ∀ x ∈ st.known, x.1 = l.id → x.2 = l.bin
  | .deregisterLayout idx => ∃ i, idx = .real i ∧ i < st.p.layouts.length
  | .solution hint => ∀ j, hint = some j → ∃ s, st.sols[j]? = some s ∧ st.p.refSolution = some s.id
  | .restore j => ∃ s, st.sols[j]? = some s ∧
      (env.overflowChecks = true → ∀ (i : ℕ) (x : Item K × ℕ) (c : ℕ), st.p.inst.items[i]? = some x → s.placed[i]? = some c → c ≤ x.2)

/-- Running an operation; `none` is a panic. -/
def BPOp.run (env : Env K) : BPOp K n → BPState K n → Option (BPState K n)
  | .place addr opt, st => (st.p.placeItem env addr opt).map fun r => { st with p := r.2 }
  | .remove idx key ci, st => (st.p.removeItem env idx key ci).map fun r => { st with p := r.2 }
  | .registerLayout l, st => (st.p.registerLayout l).map fun r => { st with p := r.2 }
  | .deregisterLayout idx, st => (st.p.deregisterLayout idx).map fun p => { st with p := p }
  | .solution none, st => (st.p.createSolution none).map fun r => ⟨r.2, st.sols ++ [r.1]⟩
  | .solution (some j), st => match st.sols[j]? with
    | none => none
    | some s => (st.p.createSolution (some s)).map fun r => ⟨r.2, st.sols ++ [r.1]⟩
  | .restore j, st => match st.sols[j]? with
    | none => none
    | some s => (st.p.restore env s).map fun p => { st with p := p }

/-- Running operations that meet their obligations. -/
inductive BPRun (env : Env K) : BPState K n → List (BPOp K n) → BPState K n → Prop
  | nil (st) : BPRun env st [] st
  | cons {st op st' ops st''} : op.Pre env st → op.run env st = some st' → BPRun env st' ops st'' →
      BPRun env st (op :: ops) st''

/-- Problems that come from `BPProblem::new` and any sequence of operations. -/
def BPState.Reachable (env : Env K) (st : BPState K n) : Prop :=
  ∃ (inst : BPInstance K n) (ops : List (BPOp K n)), inst.Built env ∧ BPRun env ⟨BPProblem.new inst, []⟩ ops st

end Jagua
