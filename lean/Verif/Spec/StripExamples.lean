import Verif.Spec.Strip
import Verif.Spec.LayoutExamples

/-!
# A concrete strip packing problem used to show that hypotheses can be met
-/

namespace Jagua.Ex

open Jagua

/-- tolerance 1/10 -/
def senv : StripEnv ℚ := { env with stripValue := fun _ => 0, tolerance := 1 / 10 }

/-- three triangles and two squares, strip height 8 -/
def stripInst : SPInstance ℚ := ⟨[(cat 0, 3), (cat 1, 2)], 8⟩

theorem stripInst_built : stripInst.Built := by
  unfold SPInstance.Built
  rfl

/-- decidable form of the obligations and of the collision check -/
def spPreB {n : ℕ} (st : SPState ℚ n) : SPOp ℚ → Bool
  | .place _ opt => decide (opt.layoutIdx = .real 0) && decide (opt.itemId < st.p.inst.items.length) &&
      st.p.layout.placed.values.all (fun pi => !(pi.itemId = opt.itemId ∧ pi.dt = opt.dt : Bool)) &&
      match st.p.inst.items[opt.itemId]? with
      | none => true
      | some x => st.p.layout.cde.polyCollides senv.f (x.1.shape.transform (Transf.fromDt senv.tr opt.dt)) [] == some false
  | .remove idx key _ => decide (idx = .real 0) && (st.p.layout.placed.get? key).isSome
  | .restore j => match st.sols[j]? with
    | none => false
    | some s => s.placed.zipIdx.all fun c => match st.p.inst.items[c.2]? with
      | none => true
      | some x => decide (c.1 ≤ x.2)
  | _ => true

theorem spPreB_pre {n : ℕ} {st : SPState ℚ n} {op : SPOp ℚ} (h : spPreB st op = true) : op.Pre senv st ∧ op.Checked senv st := by
  cases op with
  | place a opt =>
    unfold spPreB at h
    simp only [Bool.and_eq_true, decide_eq_true_eq] at h
    obtain ⟨⟨⟨h1, h2⟩, h3⟩, h4⟩ := h
    refine ⟨⟨h1, h2, fun pi hpi => ?_⟩, fun x hx => ?_⟩
    · have := List.all_eq_true.1 h3 pi hpi
      simpa [not_and_or, Classical.or_iff_not_imp_left] using this
    · rw [hx] at h4
      simpa using h4
  | remove idx key ci =>
    unfold spPreB at h
    simp only [Bool.and_eq_true, decide_eq_true_eq] at h
    exact ⟨⟨h.1, Option.isSome_iff_exists.1 h.2⟩, trivial⟩
  | restore j =>
    unfold spPreB at h
    dsimp only at h
    cases hs : st.sols[j]? with
    | none => rw [hs] at h; simp at h
    | some s =>
      rw [hs] at h
      refine ⟨⟨s, hs, fun _ i x c hx hc => ?_⟩, trivial⟩
      have := List.all_eq_true.1 h (c, i) (List.mem_zipIdx_iff_getElem?.2 hc)
      dsimp only at this
      rw [hx] at this
      simpa using this
  | modify => exact ⟨trivial, trivial⟩
  | inBack => exact ⟨trivial, trivial⟩
  | atFront => exact ⟨trivial, trivial⟩
  | centered => exact ⟨trivial, trivial⟩
  | fit => exact ⟨trivial, trivial⟩
  | solution => exact ⟨trivial, trivial⟩

/-- Run operations, checking the caller's obligations. -/
def spRun {n : ℕ} : List (SPOp ℚ) → SPState ℚ n → Option (SPState ℚ n)
  | [], st => some st
  | op :: ops, st => if spPreB st op then (op.run senv st).bind (spRun ops) else none

theorem spRun_run {n : ℕ} {ops : List (SPOp ℚ)} {st st' : SPState ℚ n} (h : spRun ops st = some st') :
    SPCheckedRun senv st ops st' := by
  induction ops generalizing st with
  | nil => rw [spRun] at h; rw [← Option.some.inj h]; exact .nil _
  | cons op ops ih =>
    rw [spRun] at h
    split at h
    · rename_i hp
      cases hr : op.run senv st with
      | none => rw [hr] at h; simp at h
      | some c₁ =>
        rw [hr] at h
        exact .cons (spPreB_pre hp).1 (spPreB_pre hp).2 hr (ih h)
    · simp at h

/-- the state after running the operations on a fresh strip of width 20 -/
def spAfter (ops : List (SPOp ℚ)) : Option (SPState ℚ 2) :=
  (SPProblem.new senv 2 100 stripInst 20).bind fun p => spRun ops ⟨p, []⟩

theorem spAfter_reachable {ops : List (SPOp ℚ)} {st : SPState ℚ 2} (h : spAfter ops = some st) : st.CheckedReachable senv := by
  obtain ⟨p, hp, h⟩ := Option.bind_eq_some_iff.1 h
  exact ⟨stripInst, 100, 20, p, ops, stripInst_built, hp, spRun_run h⟩

/-- two items side by side -/
def spOps : List (SPOp ℚ) := [.place 1 ⟨.real 0, 0, shift 2 3⟩, .place 2 ⟨.real 0, 1, shift 6 4⟩]

end Jagua.Ex
