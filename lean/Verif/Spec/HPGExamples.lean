import Verif.Spec.HPG
import Verif.Spec.Examples

/-!
# A concrete engine with a proximity grid
-/

namespace Jagua.Ex

open Jagua

/-- bisection for the smallest `k` with `m ≤ k ^ 2` -/
def upSqrt : ℕ → ℕ → ℕ → ℕ → ℕ
  | 0, _, hi, _ => hi
  | k + 1, lo, hi, m => if m ≤ ((lo + hi) / 2) ^ 2 then upSqrt k lo ((lo + hi) / 2) m else upSqrt k ((lo + hi) / 2) hi m

/-- square root rounded up to a multiple of 1/100 -/
def ratSqrt (x : ℚ) : ℚ :=
  upSqrt (Nat.log2 ((x * 10000).ceil.toNat + 1) + 1) 0 ((x * 10000).ceil.toNat + 1) (x * 10000).ceil.toNat / 100

theorem upSqrt_spec (k lo hi m : ℕ) (h : m ≤ hi ^ 2) : m ≤ upSqrt k lo hi m ^ 2 := by
  induction k generalizing lo hi with
  | zero => exact h
  | succ k ih =>
    unfold upSqrt
    split_ifs with hc
    · exact ih _ _ hc
    · exact ih _ _ h

def henv : HEnv ℚ := ⟨Fpa.exact, ratSqrt, fun x => x.ceil.toNat, 1000000, -1000000⟩

theorem henv_sqrt : henv.SqrtUpper := by
  intro x hx
  show 0 ≤ ratSqrt x ∧ x ≤ ratSqrt x ^ 2
  unfold ratSqrt
  refine ⟨by positivity, ?_⟩
  have h := upSqrt_spec (Nat.log2 ((x * 10000).ceil.toNat + 1) + 1) 0 ((x * 10000).ceil.toNat + 1) (x * 10000).ceil.toNat (by nlinarith)
  have h1 : x * 10000 ≤ ((x * 10000).ceil.toNat : ℚ) := by
    refine (Rat.le_ceil).trans ?_
    exact_mod_cast Int.self_le_toNat _
  rw [div_pow, le_div_iff₀ (by norm_num)]
  calc x * 100 ^ 2 = x * 10000 := by norm_num
    _ ≤ _ := h1
    _ ≤ _ := by exact_mod_cast h

/-- shapes with their pole of inaccessibility as only pole -/
def withPole (s : SPoly ℚ) : SPoly ℚ := { s with surrogate := some ⟨[], [s.poi], s.poi, [], 1, 0⟩ }

def pTri : Hazard ℚ := ⟨.placedItem 0 dt, ⟨1, withPole tri⟩, true⟩
def pSq : Hazard ℚ := ⟨.placedItem 1 dt, ⟨2, withPole sq⟩, true⟩

/-- hazards by entity, without addresses -/
def pHaz : HazardEntity ℚ → Hazard ℚ
  | .placedItem 0 _ => pTri.erase
  | .placedItem _ _ => pSq.erase
  | _ => hBin.erase

/-- the 8 × 8 bin with a grid of 16 cells -/
def hStart : Option (HCDE ℚ 2) := HCDE.new henv SearchOracle.first 2 ⟨0, 0, 8, 8⟩ [hBin] 16

/-- decidable form of the obligations, with `pHaz` for the hazards -/
def hPreB {n : ℕ} (φ : HazardEntity ℚ → Hazard ℚ) (c : HCDE ℚ n) : HOp ℚ → Bool
  | .register h => preB c.cde (.register h) && decide (h.erase = φ h.entity)
  | .deregister e ci => preB c.cde (.deregister e ci)
  | .flush | .commit => true
  | .snapshot | .restore _ => false

/-- Run operations, checking the caller's obligations. -/
def hRunChecked {n : ℕ} (φ : HazardEntity ℚ → Hazard ℚ) : List (HOp ℚ) → HCDE ℚ n → Option (HCDE ℚ n)
  | [], c => some c
  | op :: ops, c => if hPreB φ c op then (op.run henv SearchOracle.first c).bind (hRunChecked φ ops) else none

theorem hRunChecked_reach {n : ℕ} {bbox : AARect ℚ} {statics : List (Hazard ℚ)} {nCells : ℕ} {φ : HazardEntity ℚ → Hazard ℚ}
    {ops : List (HOp ℚ)} {c c' : HCDE ℚ n} (h0 : HReach henv SearchOracle.first bbox statics nCells φ (.inl c))
    (h : hRunChecked φ ops c = some c') : HReach henv SearchOracle.first bbox statics nCells φ (.inl c') := by
  induction ops generalizing c with
  | nil => cases h; exact h0
  | cons op ops ih =>
    rw [hRunChecked] at h
    split_ifs at h with hp
    obtain ⟨c1, h1, h⟩ := Option.bind_eq_some_iff.1 h
    refine ih ?_ h
    cases op with
    | register x =>
      simp only [hPreB, Bool.and_eq_true, decide_eq_true_eq] at hp
      exact .register h0 (preB_iff.1 hp.1) hp.2 h1
    | deregister e ci => exact .deregister h0 (preB_iff.1 hp) h1
    | flush => exact .flush h0 h1
    | commit => exact .commit h0 h1
    | snapshot => simp [hPreB] at hp
    | restore s => simp [hPreB] at hp

theorem hRunChecked_runAll {n : ℕ} {φ : HazardEntity ℚ → Hazard ℚ} {ops : List (HOp ℚ)} {c c' : HCDE ℚ n}
    (h : hRunChecked φ ops c = some c') : HOp.runAll henv SearchOracle.first ops c = some c' := by
  induction ops generalizing c with
  | nil => exact h
  | cons op ops ih =>
    rw [hRunChecked] at h
    split_ifs at h with hp
    obtain ⟨c1, h1, h⟩ := Option.bind_eq_some_iff.1 h
    unfold HOp.runAll
    rw [List.foldlM_cons]
    exact Option.bind_eq_some_iff.2 ⟨c1, h1, ih h⟩

/-- register both items, remove the triangle lazily, process this -/
def hOps : List (HOp ℚ) := [.register pTri, .register pSq, .deregister pTri.entity false, .flush]

/-- an item too large for the corner of the bin behind the square -/
def large : SPoly ℚ :=
  { points := [⟨4, 4⟩, ⟨8, 4⟩, ⟨8, 8⟩, ⟨4, 8⟩], bbox := ⟨4, 4, 8, 8⟩, area := 16, poi := ⟨⟨6, 6⟩, 2⟩ }

/-- There is a reachable engine with the bin, a grid that can be read, and the square
registered after a triangle has come and gone; the cell in the corner behind the square
refuses items with a pole of radius 2. -/
theorem exists_hpg : ∃ (c : HCDE ℚ 2) (g : HPG ℚ) (x : HPGCell ℚ), hStart.bind (hRunChecked pHaz hOps) = some c ∧
    HReach henv SearchOracle.first ⟨0, 0, 8, 8⟩ [hBin] 16 pHaz (.inl c) ∧ c.hazProxGrid = some (some g) ∧ some x ∈ g.grid.cells ∧
    c.cde.statics = [hBin] ∧ c.cde.dynamics = [pSq] ∧ c.cde.bbox = ⟨0, 0, 8, 8⟩ ∧ x.bbox = ⟨6, 6, 8, 8⟩ ∧ x.uni = (21 / 50, pSq.entity) ∧
    x.couldAccommodate 2 none = some false := by
  obtain ⟨c0, hc0⟩ : ∃ c, hStart = some c := Option.isSome_iff_exists.1 (by decide +kernel)
  obtain ⟨c, hc⟩ : ∃ c, hStart.bind (hRunChecked pHaz hOps) = some c := Option.isSome_iff_exists.1 (by decide +kernel)
  have h : (hStart.bind (hRunChecked pHaz hOps)).bind (fun c => (c.hazProxGrid.bind id).bind fun g => (g.grid.cells[15]?.bind id).map fun x =>
      decide (c.cde.statics = [hBin]) && decide (c.cde.dynamics = [pSq]) && decide (c.cde.bbox = ⟨0, 0, 8, 8⟩) &&
      decide (x.bbox = ⟨6, 6, 8, 8⟩) && decide (x.uni = (21 / 50, pSq.entity)) && decide (x.couldAccommodate 2 none = some false)) = some true := by
    decide +kernel
  rw [hc, Option.bind_some] at h
  obtain ⟨g, hg, h⟩ := Option.bind_eq_some_iff.1 h
  obtain ⟨x, hx, h⟩ := Option.map_eq_some_iff.1 h
  obtain ⟨og, hg1, hg2⟩ := Option.bind_eq_some_iff.1 hg
  obtain ⟨ox, hx1, hx2⟩ := Option.bind_eq_some_iff.1 hx
  simp only [Bool.and_eq_true, decide_eq_true_eq] at h
  obtain ⟨⟨⟨⟨⟨h1, h2⟩, h3⟩, h4⟩, h5⟩, h6⟩ := h
  refine ⟨c, g, x, hc, ?_, ?_, ?_, h1, h2, h3, h4, h5, h6⟩
  · rw [hc0, Option.bind_some] at hc
    exact hRunChecked_reach (.new hc0) hc
  · rw [hg1, show og = some g from hg2]
  · exact List.mem_of_getElem? (by rw [hx1, show ox = some x from hx2])

end Jagua.Ex
