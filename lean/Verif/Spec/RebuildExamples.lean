import Verif.Spec.Rebuild
import Verif.Spec.LBFExamples

/-!
# Solutions with turned items, used to show that hypotheses can be met
-/

namespace Jagua.Ex

open Jagua

/-- Run operations with the trigonometry `turns`, checking the caller's obligations. -/
def turnRun {n : ℕ} : List (BPOp ℚ n) → BPState ℚ n → Option (BPState ℚ n) := bpRunIn lbfEnv

theorem turnRun_run {n : ℕ} {ops : List (BPOp ℚ n)} {st st' : BPState ℚ n} (h : turnRun ops st = some st') : BPRun lbfEnv st ops st' := bpRunIn_run h

/-- the state after running the operations on the fresh example problem -/
def turnAfter (ops : List (BPOp ℚ 2)) : Option (BPState ℚ 2) := mkInst.bind fun inst => turnRun ops ⟨BPProblem.new inst, []⟩

theorem turnAfter_reachable {ops : List (BPOp ℚ 2)} {st : BPState ℚ 2} (h : turnAfter ops = some st) : st.Reachable lbfEnv := by
  obtain ⟨inst, hi, hb⟩ := exists_inst
  unfold turnAfter at h
  rw [hi, Option.bind_some] at h
  exact ⟨inst, ops, hb, turnRun_run h⟩

/-- a triangle turned by a quarter and a square in one layout, another triangle in a second layout, and the solution -/
def turnOps : List (BPOp ℚ 2) :=
  [.place 1 ⟨.template 0, 0, ⟨2, 3, 5⟩⟩, .place 2 ⟨.real 0, 1, shift 6 3⟩, .place 3 ⟨.template 0, 0, shift 2 5⟩, .solution none]

/-- Run operations on a strip with the trigonometry `turns`, checking the caller's obligations. -/
def turnRunSP {n : ℕ} : List (SPOp ℚ) → SPState ℚ n → Option (SPState ℚ n)
  | [], st => some st
  | op :: ops, st => if spPreB st op then (op.run lbfSenv st).bind (turnRunSP ops) else none

theorem turnRunSP_run {n : ℕ} {ops : List (SPOp ℚ)} {st st' : SPState ℚ n} (h : turnRunSP ops st = some st') : SPRun lbfSenv st ops st' := by
  induction ops generalizing st with
  | nil => rw [turnRunSP] at h; rw [← Option.some.inj h]; exact .nil _
  | cons op ops ih =>
    rw [turnRunSP] at h
    split at h
    · rename_i hp
      obtain ⟨c, hr, h⟩ := Option.bind_eq_some_iff.1 h
      refine .cons ?_ hr (ih h)
      have := (spPreB_pre hp).1
      cases op <;> exact this
    · simp at h

/-- the state after running the operations on a fresh strip of width 20 -/
def turnAfterSP (ops : List (SPOp ℚ)) : Option (SPState ℚ 2) :=
  (SPProblem.new lbfSenv 2 100 stripInst 20).bind fun p => turnRunSP ops ⟨p, []⟩

theorem turnAfterSP_reachable {ops : List (SPOp ℚ)} {st : SPState ℚ 2} (h : turnAfterSP ops = some st) : st.Reachable lbfSenv := by
  obtain ⟨p, hp, h⟩ := Option.bind_eq_some_iff.1 h
  exact ⟨stripInst, 100, 20, p, ops, stripInst_built, hp, turnRunSP_run h⟩

/-- a triangle turned by a quarter and a square, the strip shortened at both ends, and the solution -/
def turnOpsSP : List (SPOp ℚ) := [.place 1 ⟨.real 0, 0, ⟨2, 4, 3⟩⟩, .place 2 ⟨.real 0, 1, shift 7 4⟩, .centered 3 id 18, .solution]

end Jagua.Ex
