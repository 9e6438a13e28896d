import Verif.Spec.Layout
import Verif.Spec.Examples

/-!
# Concrete bins, items and layouts used to show that hypotheses can be met
-/

namespace Jagua.Ex

open Jagua

/-- trigonometry for the single angle 0, enough for placements without rotation -/
def trig : Trig ℚ := ⟨fun _ => 0, fun _ => 1, fun _ _ => 0⟩

/-- "the pole of inaccessibility": a small circle around the middle of the
bounding box, right for the rectangles used here -/
def mid (pts : List (Point ℚ)) : Circle ℚ :=
  let b := boundingBox pts
  ⟨b.centroid, 1 / 100⟩

def env : Env ℚ := ⟨Fpa.exact, SearchOracle.first, trig, mid, true⟩

/-- a square with side 2 around the origin -/
def unitSq : SPoly ℚ :=
  { points := [⟨-1, -1⟩, ⟨1, -1⟩, ⟨1, 1⟩, ⟨-1, 1⟩], bbox := ⟨-1, -1, 1, 1⟩, area := 4, poi := ⟨⟨0, 0⟩, 1⟩ }

/-- a right triangle around the origin -/
def unitTri : SPoly ℚ :=
  { points := [⟨-1, -1⟩, ⟨2, -1⟩, ⟨-1, 2⟩], bbox := ⟨-1, -1, 2, 2⟩, area := 9 / 2, poi := ⟨⟨0, 0⟩, 1 / 2⟩ }

/-- the catalogue: item 0 is the triangle, all others are squares -/
def cat (i : ℕ) : Item ℚ :=
  { id := i, shape := if i = 0 then unitTri else unitSq, allowedRotation := .none, baseQuality := none, value := 1,
    pretransform := .empty, hazardFilter := none }

/-- placing without rotation -/
def shift (x y : ℚ) : DTransf ℚ := ⟨0, x, y⟩

/-- the 8 × 8 bin with a hole and a zone of quality 3 -/
def mkBin : Option (Bin ℚ 2) :=
  Bin.new env 2 7 ⟨100, bin⟩ 5 .empty [⟨101, sq⟩] [⟨3, [⟨102, small⟩]⟩]

/-- the 8 × 8 bin without anything in it -/
def mkPlain : Option (Bin ℚ 2) := Bin.new env 2 8 ⟨103, bin⟩ 5 .empty [] []

/-- decidable form of the obligations (of operations other than changing the bin) -/
def layoutPreB {n : ℕ} (st : LayoutState ℚ n) : LayoutOp ℚ n → Bool
  | .place _ item dt => decide (item.id = (cat item.id).id) && st.layout.placed.values.all fun pi => !(pi.itemId = item.id ∧ pi.dt = dt : Bool)
  | .remove key _ => (st.layout.placed.get? key).isSome
  | .snapshot => true
  | .restore i => i < st.snaps.length
  | .changeBin _ => false

/-- Run operations, checking the caller's obligations; items are given by their number. -/
def layoutRun {n : ℕ} : List (LayoutOp ℚ n) → LayoutState ℚ n → Option (LayoutState ℚ n)
  | [], st => some st
  | op :: ops, st => if layoutPreB st op then (op.run env st).bind (layoutRun ops) else none

theorem layoutRun_run {n : ℕ} {ops : List (LayoutOp ℚ n)} {st st' : LayoutState ℚ n}
    (hcat : ∀ op ∈ ops, ∀ a item dt, op = .place a item dt → item = cat item.id) (h : layoutRun ops st = some st') :
    LayoutRun env cat st ops st' := by
  induction ops generalizing st with
  | nil => rw [layoutRun] at h; rw [← Option.some.inj h]; exact .nil _
  | cons op ops ih =>
    rw [layoutRun] at h
    split at h
    · rename_i hp
      cases hr : op.run env st with
      | none => rw [hr] at h; simp at h
      | some c₁ =>
        rw [hr] at h
        refine .cons ?_ hr (ih (fun op' hop => hcat op' (List.mem_cons_of_mem _ hop)) h)
        cases op with
        | place a item dt =>
          refine ⟨hcat _ List.mem_cons_self a item dt rfl, ?_⟩
          unfold layoutPreB at hp
          simp only [Bool.and_eq_true, List.all_eq_true, Bool.not_eq_true', decide_eq_false_iff_not] at hp
          exact fun pi hpi => hp.2 pi hpi
        | remove key ci =>
          unfold layoutPreB at hp
          exact Option.isSome_iff_exists.1 hp
        | snapshot => trivial
        | restore i =>
          show i < st.snaps.length
          simpa [layoutPreB] using hp
        | changeBin b => simp [layoutPreB] at hp
    · simp at h

theorem exists_bin : ∃ b : Bin ℚ 2, mkBin = some b ∧ b.Built env := by
  obtain ⟨b, hb⟩ : ∃ b, mkBin = some b := Option.isSome_iff_exists.1 (by decide +kernel)
  exact ⟨b, hb, _, _, _, _, _, _, hb⟩

theorem exists_plain : ∃ b : Bin ℚ 2, mkPlain = some b ∧ b.Built env := by
  obtain ⟨b, hb⟩ : ∃ b, mkPlain = some b := Option.isSome_iff_exists.1 (by decide +kernel)
  exact ⟨b, hb, _, _, _, _, _, _, hb⟩

/-- place two items, remove the first lazily, take a snapshot, place a third -/
def layoutOps : List (LayoutOp ℚ 2) :=
  [.place 1 (cat 0) (shift 2 5), .place 2 (cat 1) (shift 6 2), .remove ⟨0, 1⟩ false, .snapshot, .place 3 (cat 2) (shift 1 1)]

theorem layoutOps_cat : ∀ op ∈ layoutOps, ∀ a item dt, op = .place a item dt → item = cat item.id := by
  intro op hop a item dt he
  unfold layoutOps at hop
  simp only [List.mem_cons, List.not_mem_nil, or_false] at hop
  rcases hop with rfl | rfl | rfl | rfl | rfl <;> cases he <;> rfl

/-- A reachable layout in the 8 × 8 bin with two placed items and a snapshot. -/
theorem exists_layout : ∃ st : LayoutState ℚ 2, st.Reachable env cat ∧
    st.layout.placed.values.map PlacedItem.entity = [.placedItem 2 (shift 1 1), .placedItem 1 (shift 6 2)] ∧
    st.snaps.length = 1 ∧ mkPlain.bind (fun b => layoutRun layoutOps ⟨Layout.new 0 b, []⟩) = some st := by
  obtain ⟨b, hb, hbb⟩ := exists_plain
  obtain ⟨st, hst⟩ : ∃ st, mkPlain.bind (fun b => layoutRun layoutOps ⟨Layout.new 0 b, []⟩) = some st :=
    Option.isSome_iff_exists.1 (by decide +kernel)
  have h : (mkPlain.bind (fun b => layoutRun layoutOps ⟨Layout.new 0 b, []⟩)).map
      (fun st => (st.layout.placed.values.map PlacedItem.entity, st.snaps.length))
      = some ([.placedItem 2 (shift 1 1), .placedItem 1 (shift 6 2)], 1) := by decide +kernel
  rw [hst] at h
  simp only [Option.map_some, Option.some.injEq, Prod.mk.injEq] at h
  refine ⟨st, ⟨0, b, layoutOps, hbb, layoutRun_run layoutOps_cat ?_⟩, h.1, h.2, hst⟩
  rw [hb, Option.bind_some] at hst
  exact hst

end Jagua.Ex
