import Verif.Spec.Problem
import Verif.Spec.LayoutExamples

/-!
# Concrete problems used to show that hypotheses can be met
-/

namespace Jagua.Ex

open Jagua

/-- the plain 8 × 8 bin with number 0 -/
def mkBin0 : Option (Bin ℚ 2) := Bin.new env 2 0 ⟨103, bin⟩ 5 .empty [] []

/-- three triangles and two squares, two bins -/
def mkInst : Option (BPInstance ℚ 2) := mkBin0.bind fun b => BPInstance.new [(cat 0, 3), (cat 1, 2)] [(b, 2)]

theorem exists_inst : ∃ inst : BPInstance ℚ 2, mkInst = some inst ∧ inst.Built env := by
  obtain ⟨b, hb⟩ : ∃ b, mkBin0 = some b := Option.isSome_iff_exists.1 (by decide +kernel)
  obtain ⟨inst, hi⟩ : ∃ inst, mkInst = some inst := Option.isSome_iff_exists.1 (by decide +kernel)
  have h := hi
  unfold mkInst at h
  rw [hb, Option.bind_some] at h
  have h' := h
  unfold BPInstance.new at h'
  split_ifs at h' with hc
  rw [Option.some.injEq] at h'
  subst h'
  refine ⟨_, hi, h, ?_⟩
  intro x hx
  rw [List.mem_singleton] at hx
  subst hx
  exact ⟨_, _, _, _, _, _, hb⟩

/-- decidable form of the obligations (of operations other than registering a layout) -/
def bpPreB {K : Type*} [Arith K] [LinearOrder K] {n : ℕ} (st : BPState K n) : BPOp K n → Bool
  | .place _ opt => decide (opt.itemId < st.p.inst.items.length) && match opt.layoutIdx with
    | .real i => match st.p.layouts[i]? with
      | none => false
      | some l => l.placed.values.all fun pi => !(pi.itemId = opt.itemId ∧ pi.dt = opt.dt : Bool)
    | .template i => match st.p.binQtys[i]? with
      | none => false
      | some q => decide (0 < q)
  | .remove (.real i) key _ => match st.p.layouts[i]? with
    | none => false
    | some l => (l.placed.get? key).isSome
  | .remove (.template _) _ _ => false
  | .registerLayout _ => false
  | .deregisterLayout (.real i) => decide (i < st.p.layouts.length)
  | .deregisterLayout (.template _) => false
  | .solution none => true
  | .solution (some j) => match st.sols[j]? with
    | none => false
    | some s => decide (st.p.refSolution = some s.id)
  | .restore j => match st.sols[j]? with
    | none => false
    | some s => s.placed.zipIdx.all fun c => match st.p.inst.items[c.2]? with
      | none => true
      | some x => decide (c.1 ≤ x.2)

theorem bpPreB_pre {K : Type*} [Arith K] [LinearOrder K] {n : ℕ} {env : Env K} {st : BPState K n} {op : BPOp K n} (h : bpPreB st op = true) :
    op.Pre env st := by
  cases op with
  | place a opt =>
    obtain ⟨idx, id, dt⟩ := opt
    unfold bpPreB at h
    rw [Bool.and_eq_true, decide_eq_true_eq] at h
    refine ⟨h.1, ?_⟩
    have h2 := h.2
    cases idx with
    | real i =>
      dsimp only at h2 ⊢
      cases hl : st.p.layouts[i]? with
      | none => rw [hl] at h2; simp at h2
      | some l =>
        rw [hl] at h2
        refine ⟨l, rfl, fun pi hpi => ?_⟩
        have := List.all_eq_true.1 h2 pi hpi
        simpa [not_and_or, Classical.or_iff_not_imp_left] using this
    | template i =>
      dsimp only at h2 ⊢
      cases hq : st.p.binQtys[i]? with
      | none => rw [hq] at h2; simp at h2
      | some q => rw [hq] at h2; exact ⟨q, rfl, by simpa using h2⟩
  | remove idx key ci =>
    cases idx with
    | template i => simp [bpPreB] at h
    | real i =>
      unfold bpPreB at h
      dsimp only at h
      cases hl : st.p.layouts[i]? with
      | none => rw [hl] at h; simp at h
      | some l =>
        rw [hl] at h
        obtain ⟨pi, hpi⟩ := Option.isSome_iff_exists.1 h
        exact ⟨l, pi, hl, hpi⟩
  | registerLayout l => simp [bpPreB] at h
  | deregisterLayout idx =>
    cases idx with
    | template i => simp [bpPreB] at h
    | real i => exact ⟨i, rfl, by simpa [bpPreB] using h⟩
  | solution hint =>
    cases hint with
    | none => intro j hj; cases hj
    | some j =>
      rintro _ ⟨⟩
      unfold bpPreB at h
      dsimp only at h
      cases hs : st.sols[j]? with
      | none => rw [hs] at h; simp at h
      | some s => rw [hs] at h; exact ⟨s, rfl, by simpa using h⟩
  | restore j =>
    unfold bpPreB at h
    dsimp only at h
    cases hs : st.sols[j]? with
    | none => rw [hs] at h; simp at h
    | some s =>
      rw [hs] at h
      refine ⟨s, hs, fun _ i x c hx hc => ?_⟩
      have := List.all_eq_true.1 h (c, i) (List.mem_zipIdx_iff_getElem?.2 hc)
      dsimp only at this
      rw [hx] at this
      simpa using this

/-- Run operations, checking the caller's obligations. -/
def bpRunIn {K : Type*} [Arith K] [LinearOrder K] {n : ℕ} (env : Env K) : List (BPOp K n) → BPState K n → Option (BPState K n)
  | [], st => some st
  | op :: ops, st => if bpPreB st op then (op.run env st).bind (bpRunIn env ops) else none

theorem bpRunIn_run {K : Type*} [Arith K] [LinearOrder K] {n : ℕ} {env : Env K} {ops : List (BPOp K n)} {st st' : BPState K n}
    (h : bpRunIn env ops st = some st') : BPRun env st ops st' := by
  induction ops generalizing st with
  | nil => rw [bpRunIn] at h; rw [← Option.some.inj h]; exact .nil _
  | cons op ops ih =>
    rw [bpRunIn] at h
    split at h
    · rename_i hp
      cases hr : op.run env st with
      | none => rw [hr] at h; simp at h
      | some c₁ =>
        rw [hr] at h
        exact .cons (bpPreB_pre hp) hr (ih h)
    · simp at h

/-- the same with the environment of the examples -/
def bpRun {n : ℕ} : List (BPOp ℚ n) → BPState ℚ n → Option (BPState ℚ n) := bpRunIn env

theorem bpRun_run {n : ℕ} {ops : List (BPOp ℚ n)} {st st' : BPState ℚ n} (h : bpRun ops st = some st') : BPRun env st ops st' := bpRunIn_run h

/-- the state after running the operations on the fresh example problem -/
def bpAfter (ops : List (BPOp ℚ 2)) : Option (BPState ℚ 2) := mkInst.bind fun inst => bpRun ops ⟨BPProblem.new inst, []⟩

theorem bpAfter_reachable {ops : List (BPOp ℚ 2)} {st : BPState ℚ 2} (h : bpAfter ops = some st) : st.Reachable env := by
  obtain ⟨inst, hi, hb⟩ := exists_inst
  unfold bpAfter at h
  rw [hi, Option.bind_some] at h
  exact ⟨inst, ops, hb, bpRun_run h⟩

/-- two layouts with one item each -/
def bpOps : List (BPOp ℚ 2) :=
  [.place 1 ⟨.template 0, 0, shift 2 5⟩, .place 2 ⟨.template 0, 1, shift 2 2⟩]

/-- then a solution, a second item in layout 0, and layout 1 is emptied -/
def bpOps2 : List (BPOp ℚ 2) :=
  bpOps ++ [.solution none, .place 3 ⟨.real 0, 1, shift 6 2⟩, .remove (.real 1) ⟨0, 1⟩ false]

end Jagua.Ex
