import Verif.Lemmas.LBFGridStrip
import Verif.Spec.Main

/-! # Grids do not depend on addresses -/

set_option linter.unusedSectionVars false

namespace Jagua

variable {K : Type*} [Arith K] [LinearOrder K] {n : ℕ} {R : Type*}

theorem GridGen.attempt_erase (env : HEnv K) (bbox : AARect K) (hs : List (Hazard K)) (dim : K) :
    GridGen.attempt env bbox (hs.map Hazard.erase) dim = GridGen.attempt env bbox hs dim := by
  unfold GridGen.attempt GridGen.distanceToHazard
  simp only [List.mapM_map]
  rfl

theorem GridGen.loop_erase (env : HEnv K) (bbox : AARect K) (hs : List (Hazard K)) (target : ℕ) : ∀ (left : ℕ) (c s : K) (p : Option Ordering),
    GridGen.loop env bbox (hs.map Hazard.erase) target left c s p = GridGen.loop env bbox hs target left c s p
  | 0, c, s, p => by
    unfold GridGen.loop
    rw [GridGen.attempt_erase]
  | left + 1, c, s, p => by
    unfold GridGen.loop
    rw [GridGen.attempt_erase]
    simp only [GridGen.loop_erase env bbox hs target left]

theorem HPGCell.new_erase (env : HEnv K) (bbox : AARect K) (hs : List (Hazard K)) : HPGCell.new env bbox (hs.map Hazard.erase) = HPGCell.new env bbox hs := by
  unfold HPGCell.new
  rw [List.foldlM_map]
  rfl

theorem HPG.new_erase (env : HEnv K) (bbox : AARect K) (hs : List (Hazard K)) (nCells : ℕ) : HPG.new env bbox (hs.map Hazard.erase) nCells = HPG.new env bbox hs nCells := by
  unfold HPG.new GridGen.generate
  have h : (hs.map Hazard.erase).filter (fun h => h.entity.isUniversal) = (hs.filter fun h => h.entity.isUniversal).map Hazard.erase := by
    rw [List.filter_map]
    rfl
  rw [h]
  simp only [GridGen.loop_erase, HPGCell.new_erase]

theorem HPG.register_erase (env : HEnv K) (g : HPG K) (h : Hazard K) : g.register env h.erase = g.register env h := by
  have hp : ∀ (c : HPGCell K) (pole : Circle K), c.registerPole env h.erase pole = c.registerPole env h pole := fun _ _ => rfl
  have hl : ∀ (pole : Circle K) (k : ℕ) (g : Grid K (HPGCell K)) (b : BFill), HPG.fillLoop env h.erase pole k g b = HPG.fillLoop env h pole k g b := by
    intro pole k
    induction k with
    | zero => intro g b; rfl
    | succ k ih =>
      intro g b
      unfold HPG.fillLoop
      simp only [hp, ih]
  unfold HPG.register HPG.registerPole
  simp only [hl]
  rfl

theorem Layout.Twin.freshGrid {l l' : Layout K n} (h : l.Twin l') (henv : HEnv K) (nCells : ℕ) : l.freshGrid henv nCells = l'.freshGrid henv nCells := by
  have key : ∀ (hs hs' : List (Hazard K)) (g : HPG K), hs.map Hazard.erase = hs'.map Hazard.erase →
      hs.foldlM (HPG.register henv) g = hs'.foldlM (HPG.register henv) g := by
    intro hs hs' g e
    have : ∀ hs : List (Hazard K), hs.foldlM (HPG.register henv) g = (hs.map Hazard.erase).foldlM (HPG.register henv) g := by
      intro hs
      rw [List.foldlM_map]
      simp only [HPG.register_erase]
    rw [this hs, this hs', e]
  unfold Layout.freshGrid
  rw [h.cde.bbox, ← HPG.new_erase, h.cde.statics, HPG.new_erase]
  simp only [key _ _ _ h.cde.dynamics]

end Jagua
