import Verif.Lemmas.LBFGridStrip
import Verif.Spec.HPGExamples
import Verif.Props.LBF

/-! # C77: the optimizer never looks at an outdated proximity grid -/

set_option linter.unusedSectionVars false

namespace Jagua

section

variable {K : Type*} [Arith K] [LinearOrder K] {n : ℕ} {R : Type*}

/-- **The grids are up to date (bin packing).** The optimizer keeps a grid per layout, and updates it with every item it places. The
result is the same as that of the optimizer that computes the grid of a layout from scratch whenever it looks at it; and the
grids it ends with are those computed from scratch. Over any arithmetic. -/
theorem C77_grids_up_to_date {lenv : LEnv K n R} {henv : HEnv K} {nCells : ℕ} {env : Env K} {cfg : LbfConfig} {addr : ℕ → ℕ → ℕ} {fuel : ℕ} {inst : BPInstance K n}
    {r : R} (hb : inst.Built env) {sol : Solution K n} {s : GridBP K n} (h : lbfSolveBPG lenv henv nCells env cfg addr fuel inst r = some (sol, s)) :
    lbfSolveBP (lenv.fresh henv nCells) env cfg addr fuel inst r = some (sol, s.p) ∧
    List.Forall₂ (fun l g => Layout.freshGrid henv nCells l = some g) s.p.layouts s.grids := by
  obtain ⟨h1, h2⟩ := lbfSolveBPG_fresh (fun b hm => by
    obtain ⟨_, _, _, _, _, _, e⟩ := hb.2 b hm
    exact Bin.Unused.of_new e) h
  exact ⟨h1, h2.layouts.imp fun _ _ e => e.grid⟩

/-- **The grids are up to date (strip packing).** The same for strips: the grid of every strip that is made is used only for that strip. -/
theorem C77_grids_up_to_date_strip {lenv : LEnv K n R} {henv : HEnv K} {nCells : ℕ} {env : StripEnv K} {cfg : LbfConfig} {addr : ℕ → ℕ → ℕ} {addrs : ℕ → ℕ → ℕ → ℕ}
    {addr0 addr1 : ℕ} {addrs1 : ℕ → ℕ} {fuel : ℕ} {inst : SPInstance K} {r : R} {sol : Solution K n} {s : GridSP K n}
    (h : lbfSolveSPG lenv henv nCells env cfg addr addrs addr0 addr1 addrs1 fuel inst r = some (sol, s)) :
    lbfSolveSP (lenv.fresh henv nCells) env cfg addr addrs addr0 addr1 addrs1 fuel inst r = some (sol, s.p) ∧
    s.p.layout.freshGrid henv nCells = some s.grid := by
  obtain ⟨h1, h2⟩ := lbfSolveSPG_fresh h
  exact ⟨h1, Layout.Fresh.grid h2⟩

end

variable {K : Type*} [Field K] [LinearOrder K] [IsStrictOrderedRing K] {n : ℕ} {R : Type*}

theorem CanPlace.of_ready {henv : HEnv K} (hs : ∀ x, 0 ≤ x → 0 ≤ henv.sqrt x) {env : Env K} {nCells : ℕ} {items : List (Item K × ℕ)}
    (hr : ∀ x ∈ items, x.1.GridReady) : CanPlace n henv env nCells items := by
  refine CanPlace.of_registrable ?_ ?_
  · intro x hx addr dt
    obtain ⟨s, h1, h2, h3⟩ := (hr x hx).surrogate
    obtain ⟨p, hp⟩ := List.exists_mem_of_ne_nil _ (hr x hx).points
    have hin := mem_boundingBox (List.mem_map_of_mem (f := fun p : Point K => p.transform (Transf.fromDt env.tr dt)) hp)
    refine ⟨rfl, ⟨s.transform (Transf.fromDt env.tr dt), ?_, ?_, ?_⟩, hin.1.trans hin.2.1, hin.2.2.1.trans hin.2.2.2⟩
    · show (x.1.shape.transform _).surrogate = _
      unfold SPoly.transform
      dsimp only
      rw [h1]
      rfl
    · intro e
      exact h2 (List.map_eq_nil_iff.1 e)
    · intro pole hp
      obtain ⟨q, hq, rfl⟩ := List.mem_map.1 hp
      exact h3 q hq
  · intro bbox statics g hg pole hp
    obtain ⟨⟨rects, -, ⟨r, -, hrad⟩, -⟩, -, -⟩ := HPG.new_cells hg
    have h3 : 0 ≤ g.cellRadius := by
      rw [hrad]
      exact div_nonneg (hs _ (by positivity)) (by norm_num)
    simp only [HPG.seedBox, Circle.bbox]
    constructor <;> linarith

/-- **Keeping the grids never fails (bin packing).** If the grids of the bins can be made and the items have poles, then keeping the grids up to date
makes no difference at all: the run with grids that are updated panics, or finishes with a solution, exactly as the run with grids computed from scratch. -/
theorem C77_updates_never_fail {lenv : LEnv K n R} {henv : HEnv K} (hs : ∀ x, 0 ≤ x → 0 ≤ henv.sqrt x) {nCells : ℕ} {env : Env K} {cfg : LbfConfig}
    {addr : ℕ → ℕ → ℕ} {fuel : ℕ} {inst : BPInstance K n} {r : R} (hb : inst.Built env) (hr : ∀ x ∈ inst.items, x.1.GridReady)
    (hg : ∀ b ∈ inst.bins, b.1.newGrid henv nCells ≠ none) :
    (lbfSolveBPG lenv henv nCells env cfg addr fuel inst r).map (fun x => (x.1, x.2.p)) = lbfSolveBP (lenv.fresh henv nCells) env cfg addr fuel inst r := by
  cases e : lbfSolveBPG lenv henv nCells env cfg addr fuel inst r with
  | some x =>
    rw [(C77_grids_up_to_date hb e).1]
    rfl
  | none =>
    cases e2 : lbfSolveBP (lenv.fresh henv nCells) env cfg addr fuel inst r with
    | none => rfl
    | some x =>
      obtain ⟨s, e3, -⟩ := lbfSolveBPG_total (fun b hm => by
        obtain ⟨_, _, _, _, _, _, e⟩ := hb.2 b hm
        exact Bin.Unused.of_new e) (fun b hm => Option.ne_none_iff_exists'.1 (hg b hm)) (CanPlace.of_ready hs hr) e2
      rw [e] at e3
      cases e3

/-- **Keeping the grids never fails (strip packing).** If the run with grids computed from scratch finishes, then the run with grids that are
updated finishes with the same solution, provided that the grids of the first and of the last strip can be made. -/
theorem C77_updates_never_fail_strip {lenv : LEnv K n R} {henv : HEnv K} (hs : ∀ x, 0 ≤ x → 0 ≤ henv.sqrt x) {nCells : ℕ} {env : StripEnv K} {cfg : LbfConfig}
    {addr : ℕ → ℕ → ℕ} {addrs : ℕ → ℕ → ℕ → ℕ} {addr0 addr1 : ℕ} {addrs1 : ℕ → ℕ} {fuel : ℕ} {inst : SPInstance K} {r : R} (hb : inst.Built)
    (hr : ∀ x ∈ inst.items, x.1.GridReady)
    (hfirst : ∀ p : SPProblem K n, SPProblem.new env n addr0 inst (fsum (inst.items.map fun (x : Item K × ℕ) => x.1.shape.area * (x.2 : K)) * 2 / inst.stripHeight) = some p →
      p.layout.bin.newGrid henv nCells ≠ none)
    {sol : Solution K n} {p : SPProblem K n} (h : lbfSolveSP (lenv.fresh henv nCells) env cfg addr addrs addr0 addr1 addrs1 fuel inst r = some (sol, p))
    (hlast : p.layout.bin.newGrid henv nCells ≠ none) :
    ∃ s, lbfSolveSPG lenv henv nCells env cfg addr addrs addr0 addr1 addrs1 fuel inst r = some (sol, s) ∧ s.p = p :=
  lbfSolveSPG_total hb (CanPlace.of_ready hs hr) hfirst h hlast

namespace Ex

theorem gridReady_lbf (k : ℕ) : ∀ x ∈ [(triItem, k), (sqItem, 1)], x.1.GridReady := by
  intro x hx
  simp only [List.mem_cons, List.not_mem_nil, or_false] at hx
  rcases hx with rfl | rfl
  · exact ⟨⟨_, rfl, by decide, by decide +kernel⟩, show triItem.shape.points ≠ [] by decide +kernel⟩
  · exact ⟨⟨_, rfl, by decide, by decide +kernel⟩, show sqItem.shape.points ≠ [] by decide +kernel⟩

/-- the run in one bin, with a grid of 16 cells -/
def gridRun : Option (Solution ℚ 2 × GridBP ℚ 2) :=
  lbfInst.bind fun i => lbfSolveBPG lbfLenv henv 16 lbfEnv ⟨20, 2⟩ (fun a b => 1000 * a + b) 4 i 1

/-- the run in a strip that has to grow, with a grid of 16 cells -/
def gridStripRun : Option (Solution ℚ 2 × GridSP ℚ 2) :=
  lbfSolveSPG lbfLenv henv 16 lbfSenv lbfCfg (fun a b => 1000 * a + b) (fun a b c => 10000 * a + 100 * b + c) 1 2 id 6 lbfStripInst 6

/-- the same run with grids computed from scratch -/
def freshStripRun : Option (Solution ℚ 2 × SPProblem ℚ 2) :=
  lbfSolveSP (lbfLenv.fresh henv 16) lbfSenv lbfCfg (fun a b => 1000 * a + b) (fun a b c => 10000 * a + 100 * b + c) 1 2 id 6 lbfStripInst 6

end Ex

/-- Non-trivial case for bin packing: all three items find a place, the layout ends with its grid of 16 cells. -/
example : ∃ (i : BPInstance ℚ 2) (sol : Solution ℚ 2) (s : GridBP ℚ 2), i.Built Ex.lbfEnv ∧ (∀ x, 0 ≤ x → 0 ≤ Ex.henv.sqrt x) ∧ (∀ x ∈ i.items, x.1.GridReady) ∧
    (∀ b ∈ i.bins, b.1.newGrid Ex.henv 16 ≠ none) ∧
    lbfSolveBPG Ex.lbfLenv Ex.henv 16 Ex.lbfEnv ⟨20, 2⟩ (fun a b => 1000 * a + b) 4 i 1 = some (sol, s) ∧ sol.placed = [2, 1] ∧
    (s.grids.map fun g => g.map fun g => g.grid.cells.length) = [some 16] := by
  obtain ⟨i, hi⟩ : ∃ i, Ex.lbfInst = some i := Option.isSome_iff_exists.1 (by decide +kernel)
  obtain ⟨h1, h2, h3⟩ := Ex.lbfInst_fine hi
  have h : Ex.gridRun.map (fun s => decide (s.1.placed = [2, 1]) && decide ((s.2.grids.map fun g => g.map fun g => g.grid.cells.length) = [some 16])) = some true := by
    decide +kernel
  have hg : Ex.lbfInst.map (fun i => i.bins.all fun b => (b.1.newGrid Ex.henv 16).isSome) = some true := by decide +kernel
  rw [hi] at hg
  obtain ⟨⟨sol, s⟩, hs, he⟩ := Option.map_eq_some_iff.1 h
  unfold Ex.gridRun at hs
  rw [hi, Option.bind_some] at hs
  simp only [Bool.and_eq_true, decide_eq_true_eq] at he
  refine ⟨i, sol, s, h1, fun x hx => (Ex.henv_sqrt x hx).1, by rw [h3]; exact Ex.gridReady_lbf 2, ?_, hs, he.1, he.2⟩
  intro b hb e
  have := List.all_eq_true.1 (Option.some.inj hg) b hb
  rw [e] at this
  cases this

/-- Non-trivial case for strip packing: a triangle and a square in a strip, which grows during the run. -/
example : ∃ (sol : Solution ℚ 2) (s : GridSP ℚ 2) (p : SPProblem ℚ 2), Ex.lbfStripInst.Built ∧ (∀ x ∈ Ex.lbfStripInst.items, x.1.GridReady) ∧
    (∀ p : SPProblem ℚ 2, SPProblem.new Ex.lbfSenv 2 1 Ex.lbfStripInst
      (fsum (Ex.lbfStripInst.items.map fun (x : Item ℚ × ℕ) => x.1.shape.area * (x.2 : ℚ)) * 2 / Ex.lbfStripInst.stripHeight) = some p → p.layout.bin.newGrid Ex.henv 16 ≠ none) ∧
    Ex.gridStripRun = some (sol, s) ∧ sol.placed = [1, 1] ∧ (s.grid.map fun g => g.grid.cells.length) = some 16 ∧
    Ex.freshStripRun = some (sol, p) ∧ p.layout.bin.newGrid Ex.henv 16 ≠ none := by
  have h : Ex.gridStripRun.map (fun s => decide (s.1.placed = [1, 1]) && decide ((s.2.grid.map fun g => g.grid.cells.length) = some 16) &&
      (s.2.p.layout.bin.newGrid Ex.henv 16).isSome) = some true := by
    decide +kernel
  have h0 : (SPProblem.new Ex.lbfSenv 2 1 Ex.lbfStripInst (fsum (Ex.lbfStripInst.items.map fun (x : Item ℚ × ℕ) => x.1.shape.area * (x.2 : ℚ)) * 2 /
      Ex.lbfStripInst.stripHeight)).map (fun p => (p.layout.bin.newGrid Ex.henv 16).isSome) = some true := by decide +kernel
  obtain ⟨⟨sol, s⟩, hs, he⟩ := Option.map_eq_some_iff.1 h
  simp only [Bool.and_eq_true, decide_eq_true_eq] at he
  refine ⟨sol, s, s.p, rfl, Ex.gridReady_lbf 1, ?_, hs, he.1.1, he.1.2, (C77_grids_up_to_date_strip hs).1, ?_⟩
  · intro p hp e
    rw [hp, Option.map_some, e] at h0
    cases h0
  · intro e
    rw [e] at he
    cases he.2

end Jagua
