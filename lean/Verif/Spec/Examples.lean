import Verif.Spec.Engine
import Verif.Lemmas.CDEReach

/-!
# A concrete engine used to show that hypotheses can be met
-/

namespace Jagua.Ex

open Jagua

/-- an 8 × 8 bin -/
def bin : SPoly ℚ :=
  { points := [⟨0, 0⟩, ⟨8, 0⟩, ⟨8, 8⟩, ⟨0, 8⟩], bbox := ⟨0, 0, 8, 8⟩, area := 64, poi := ⟨⟨4, 4⟩, 4⟩ }

/-- a triangular item -/
def tri : SPoly ℚ :=
  { points := [⟨1, 1⟩, ⟨3, 1⟩, ⟨1, 3⟩], bbox := ⟨1, 1, 3, 3⟩, area := 2, poi := ⟨⟨3 / 2, 3 / 2⟩, 1 / 4⟩ }

/-- a square item -/
def sq : SPoly ℚ :=
  { points := [⟨5, 5⟩, ⟨7, 5⟩, ⟨7, 7⟩, ⟨5, 7⟩], bbox := ⟨5, 5, 7, 7⟩, area := 4, poi := ⟨⟨6, 6⟩, 1⟩ }

def dt : DTransf ℚ := ⟨0, 0, 0⟩

def hBin : Hazard ℚ := ⟨.binExterior, ⟨0, bin⟩, true⟩
def hTri : Hazard ℚ := ⟨.placedItem 0 dt, ⟨1, tri⟩, true⟩
def hSq : Hazard ℚ := ⟨.placedItem 1 dt, ⟨2, sq⟩, true⟩

/-- a zone of low quality -/
def zone : SPoly ℚ :=
  { points := [⟨1 / 2, 1 / 2⟩, ⟨15 / 2, 1 / 2⟩, ⟨15 / 2, 15 / 2⟩, ⟨1 / 2, 15 / 2⟩], bbox := ⟨1 / 2, 1 / 2, 15 / 2, 15 / 2⟩,
    area := 49, poi := ⟨⟨4, 4⟩, 7 / 2⟩ }

/-- a small item placed in the zone -/
def small : SPoly ℚ :=
  { points := [⟨5 / 2, 5 / 2⟩, ⟨7 / 2, 5 / 2⟩, ⟨7 / 2, 7 / 2⟩, ⟨5 / 2, 7 / 2⟩], bbox := ⟨5 / 2, 5 / 2, 7 / 2, 7 / 2⟩,
    area := 1, poi := ⟨⟨3, 3⟩, 1 / 2⟩ }

/-- a triangle one edge of which passes through the small item -/
def wedge : SPoly ℚ :=
  { points := [⟨19 / 5, 11 / 4⟩, ⟨1, 11 / 4⟩, ⟨19 / 5, 1⟩], bbox := ⟨1, 1, 19 / 5, 11 / 4⟩, area := 49 / 20,
    poi := ⟨⟨3, 9 / 4⟩, 1 / 5⟩ }

def hZone : Hazard ℚ := ⟨.inferiorQualityZone 0 0, ⟨3, zone⟩, true⟩
def hSmall : Hazard ℚ := ⟨.placedItem 2 dt, ⟨4, small⟩, true⟩

/-- hazards by entity, without addresses -/
def haz : HazardEntity ℚ → Hazard ℚ
  | .placedItem 0 _ => hTri.erase
  | .placedItem _ _ => hSq.erase
  | _ => hBin.erase

/-- decidable form of the obligations -/
def preB {n : ℕ} (c : CDE ℚ n) : CDEOp ℚ → Bool
  | .register h => c.allHazards.all fun x => x.entity ≠ h.entity
  | .deregister e _ => c.dynamics.any fun h => h.entity = e
  | .commit => true
  | .restore snap => decide (snap.map (·.entity)).Nodup && snap.all fun h => c.statics.all fun s => s.entity ≠ h.entity

theorem preB_iff {n : ℕ} {c : CDE ℚ n} {op : CDEOp ℚ} : preB c op = true ↔ op.Pre c := by
  cases op <;> simp [preB, CDEOp.Pre]

/-- Run operations, checking the caller's obligations. -/
def runChecked {n : ℕ} : List (CDEOp ℚ) → CDE ℚ n → Option (CDE ℚ n)
  | [], c => some c
  | op :: ops, c => if preB c op then (op.run Fpa.exact SearchOracle.first c).bind (runChecked ops) else none

theorem runChecked_run {n : ℕ} {ops : List (CDEOp ℚ)} {c c' : CDE ℚ n} (h : runChecked ops c = some c') :
    CDERun Fpa.exact SearchOracle.first c ops c' := by
  induction ops generalizing c with
  | nil => rw [runChecked] at h; rw [← Option.some.inj h]; exact .nil _
  | cons op ops ih =>
    rw [runChecked] at h
    split at h
    · rename_i hp
      cases hr : op.run Fpa.exact SearchOracle.first c with
      | none => rw [hr] at h; simp at h
      | some c₁ => rw [hr] at h; exact .cons ((preB_iff).1 hp) hr (ih h)
    · simp at h

/-- register both items, remove the triangle lazily, remove the square -/
def ops : List (CDEOp ℚ) := [.register hTri, .register hSq, .deregister hTri.entity false]

def start : Option (CDE ℚ 2) := CDE.new Fpa.exact SearchOracle.first 2 ⟨0, 0, 8, 8⟩ [hBin]

end Jagua.Ex

namespace Jagua.Ex

open Jagua

/-- The state after a list of checked operations is reachable. -/
theorem reachable {n : ℕ} {bbox : AARect ℚ} {statics : List (Hazard ℚ)} {ops : List (CDEOp ℚ)} {c : CDE ℚ n}
    (hn : (statics.map (·.entity)).Nodup)
    (h : (CDE.new Fpa.exact SearchOracle.first n bbox statics).bind (runChecked ops) = some c) :
    c.Reachable Fpa.exact SearchOracle.first := by
  cases h0 : CDE.new Fpa.exact SearchOracle.first n bbox statics with
  | none => rw [h0] at h; simp at h
  | some c₀ =>
    rw [h0] at h
    exact ⟨bbox, statics, c₀, ops, hn, h0, runChecked_run h⟩

/-- There is a reachable engine of depth 2 with a bin, a registered square and a
lazily deregistered triangle. -/
theorem exists_engine : ∃ c : CDE ℚ 2, c.Reachable Fpa.exact SearchOracle.first ∧ c.statics = [hBin] ∧
    c.dynamics = [hSq] ∧ c.uncommitted = [hTri] ∧ c.bbox = ⟨0, 0, 8, 8⟩ ∧ c.Consistent haz ∧ start.bind (runChecked ops) = some c := by
  have h : ∃ c, start.bind (runChecked ops) = some c := Option.isSome_iff_exists.1 (by decide +kernel)
  obtain ⟨c, hc⟩ := h
  have h1 : (start.bind (runChecked ops)).map (fun c => (c.statics, c.dynamics, c.uncommitted, c.bbox))
      = some ([hBin], [hSq], [hTri], ⟨0, 0, 8, 8⟩) := by decide +kernel
  rw [hc] at h1
  simp only [Option.map_some, Option.some.injEq, Prod.mk.injEq] at h1
  refine ⟨c, reachable (by decide) hc, h1.1, h1.2.1, h1.2.2.1, h1.2.2.2, ?_, hc⟩
  intro x hx
  rw [h1.2.1, h1.2.2.1] at hx
  simp only [List.cons_append, List.nil_append, List.mem_cons, List.not_mem_nil, or_false] at hx
  rcases hx with rfl | rfl <;> rfl

theorem bin_wf : bin.WF := ⟨by decide +kernel, by unfold AARect.Valid; decide +kernel, by decide⟩
theorem sq_wf : sq.WF := ⟨by decide +kernel, by unfold AARect.Valid; decide +kernel, by decide⟩
theorem tri_wf : tri.WF := ⟨by decide +kernel, by unfold AARect.Valid; decide +kernel, by decide⟩

theorem good {c : CDE ℚ 2} (hs : c.statics = [hBin]) (hd : c.dynamics = [hSq]) (hb : c.bbox = ⟨0, 0, 8, 8⟩) : c.Good where
  box := by rw [hb]; unfold AARect.Valid; decide +kernel
  shapes h hh := by
    unfold CDE.allHazards at hh
    rw [hs, hd] at hh
    simp only [List.cons_append, List.nil_append, List.mem_cons, List.not_mem_nil, or_false] at hh
    rcases hh with rfl | rfl
    · exact bin_wf
    · exact sq_wf
  active h hh := by
    unfold CDE.allHazards at hh
    rw [hs, hd] at hh
    simp only [List.cons_append, List.nil_append, List.mem_cons, List.not_mem_nil, or_false] at hh
    rcases hh with rfl | rfl <;> rfl
  fits h hh he := by
    unfold CDE.allHazards at hh
    rw [hs, hd] at hh
    simp only [List.cons_append, List.nil_append, List.mem_cons, List.not_mem_nil, or_false] at hh
    rcases hh with rfl | rfl
    · rw [hb]; left; decide +kernel
    · exact absurd he (by decide)

end Jagua.Ex
