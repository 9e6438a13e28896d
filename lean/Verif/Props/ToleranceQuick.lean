import Verif.Props.Tolerance
import Verif.Props.Quadtree

/-! # C68: the three-valued quick checks with tolerant comparisons -/

set_option linter.unusedSectionVars false

namespace Jagua

variable {K : Type*} [Field K] [LinearOrder K] [IsStrictOrderedRing K] {n : ℕ}

/-- C68: in an engine whose cells are larger than the tolerance, the quick checks
for edges, circles and points are right whenever they commit themselves. `True`:
a relevant hazard's open region is really met. `False`: none is. -/
theorem C68_quick_checks {f : Fpa K} {M ε : K} (hf : f.Tolerant M ε) {o : SearchOracle K} {c : CDE K n} (hr : c.Reachable f o) (hg : c.Good)
    (ht : c.Fine M ε) {irr : List (HazardEntity K)} :
    (∀ e : Edge K, e.start ∈ c.bbox.pts → e.stop ∈ c.bbox.pts →
      (c.edgeDefinitelyCollides e irr = some .true → ∃ x ∈ c.allHazards, x.entity ∉ irr ∧
        ∃ w ∈ e.pts, w ∈ openHaz x.entity.position x.shape.val.points) ∧
      (c.edgeDefinitelyCollides e irr = some .false → ∀ x ∈ c.allHazards, x.entity ∉ irr →
        ∀ w ∈ e.pts, w ∉ openHaz x.entity.position x.shape.val.points)) ∧
    (∀ ci : Circle K, ci.center ∈ c.bbox.pts →
      (c.circleDefinitelyCollides ci irr = some .true → ∃ x ∈ c.allHazards, x.entity ∉ irr ∧
        ∃ w ∈ ci.pts, w ∈ openHaz x.entity.position x.shape.val.points) ∧
      (c.circleDefinitelyCollides ci irr = some .false → ∀ x ∈ c.allHazards, x.entity ∉ irr →
        ∀ w ∈ ci.pts, w ∈ c.bbox.pts → w ∉ openHaz x.entity.position x.shape.val.points)) ∧
    (∀ x ∈ c.allHazards, ∀ p : Point K, p ∈ c.bbox.pts →
      (c.pointDefinitelyCollidesWith p x.entity = some .true → p ∈ openHaz x.entity.position x.shape.val.points) ∧
      (c.pointDefinitelyCollidesWith p x.entity = some .false → p ∉ openHaz x.entity.position x.shape.val.points)) := by
  refine ⟨?_, ?_, ?_⟩
  · intro e h1 h2
    unfold CDE.edgeDefinitelyCollides
    rw [(collidesPoint_iff _ _).2 h1, (collidesPoint_iff _ _).2 h2]
    simp only [Bool.not_true, Bool.or_self, Bool.false_eq_true, if_false]
    obtain ⟨t, t1, t2, t3⟩ := hr.inv.definitely e.collidesRect irr
    rw [t1]
    constructor
    · intro h
      obtain ⟨x, hx, hxi, hd⟩ := t2.1 (Option.some.inj h)
      rw [ht.def1 hf hg hx] at hd
      exact ⟨x, hx, hxi, def1_true (queryOK_edge e).rect (hg.shapes x hx) n hg.box (hg.geo x) (hg.fit hx) hd⟩
    · intro h x hx hxi w hw
      have hd := t3.1 (Option.some.inj h) x hx hxi
      rw [ht.def1 hf hg hx] at hd
      exact def1_false (queryOK_edge e).rect (hg.shapes x hx) n hg.box (hg.geo x) (hg.fit hx) hd w hw (seg_in_rect h1 h2 hw)
  · intro ci h1
    unfold CDE.circleDefinitelyCollides
    rw [(collidesPoint_iff _ _).2 h1, if_pos rfl]
    obtain ⟨t, t1, t2, t3⟩ := hr.inv.definitely ci.collidesRect irr
    rw [t1]
    constructor
    · intro h
      obtain ⟨x, hx, hxi, hd⟩ := t2.1 (Option.some.inj h)
      rw [ht.def1 hf hg hx] at hd
      exact ⟨x, hx, hxi, def1_true (queryOK_circle ci).rect (hg.shapes x hx) n hg.box (hg.geo x) (hg.fit hx) hd⟩
    · intro h x hx hxi w hw
      have hd := t3.1 (Option.some.inj h) x hx hxi
      rw [ht.def1 hf hg hx] at hd
      exact def1_false (queryOK_circle ci).rect (hg.shapes x hx) n hg.box (hg.geo x) (hg.fit hx) hd w hw
  · intro x hx p hp
    unfold CDE.pointDefinitelyCollidesWith
    have hq : ∀ r : AARect K, r.Valid → (r.collidesPoint p = true ↔ ∃ w ∈ ({p} : Set (Point K)), w ∈ r.pts) := by
      intro r _
      rw [collidesPoint_iff]
      simp
    rw [(collidesPoint_iff _ _).2 hp, if_pos rfl, (hr.inv.definitelyWith _ x.entity).2 x hx rfl, ht.def1 hf hg hx]
    refine ⟨?_, ?_⟩
    · intro h
      obtain ⟨w, hw, ho⟩ := def1_true hq (hg.shapes x hx) n hg.box (hg.geo x) (hg.fit hx) (Option.some.inj h)
      rw [Set.mem_singleton_iff] at hw
      rw [← hw]
      exact ho
    · intro h
      exact def1_false hq (hg.shapes x hx) n hg.box (hg.geo x) (hg.fit hx) (Option.some.inj h) p rfl hp

namespace Ex

/-- a square that covers a whole cell -/
def block : SPoly ℚ :=
  { points := [⟨3, 3⟩, ⟨7, 3⟩, ⟨7, 7⟩, ⟨3, 7⟩], bbox := ⟨3, 3, 7, 7⟩, area := 16, poi := ⟨⟨5, 5⟩, 2⟩ }

theorem block_wf : block.WF := ⟨by decide +kernel, by unfold AARect.Valid; decide +kernel, by decide⟩

def hBlock : Hazard ℚ := ⟨.placedItem 4 dt, ⟨6, block⟩, true⟩

def diag : Edge ℚ := ⟨⟨9 / 2, 9 / 2⟩, ⟨11 / 2, 11 / 2⟩⟩

def dot : Circle ℚ := ⟨⟨5, 5⟩, 1 / 2⟩

/-- what the quick checks answer inside the block, for all hazards and without the block -/
def quickAnswers (c : CDE ℚ 2) : List (Option Tribool) :=
  [c.edgeDefinitelyCollides diag [], c.edgeDefinitelyCollides diag [hBlock.entity], c.circleDefinitelyCollides dot [],
    c.circleDefinitelyCollides dot [hBlock.entity], c.pointDefinitelyCollidesWith ⟨5, 5⟩ hBlock.entity,
    c.pointDefinitelyCollidesWith ⟨5, 5⟩ hBin.entity]

end Ex

/-- The hypotheses hold for the 8 × 8 bin with an item that covers a whole cell,
and both answers occur for an edge, a circle and a point. -/
example : ∃ c : CDE ℚ 2, Ex.tol.Tolerant 8 (1 / 125) ∧ c.Reachable Ex.tol SearchOracle.first ∧ c.Good ∧ c.Fine 8 (1 / 125) ∧
    Ex.quickAnswers c = [some .true, some .false, some .true, some .false, some .true, some .false] := by
  obtain ⟨c, hc⟩ : ∃ c, Ex.tolEngine Ex.hBlock = some c := Option.isSome_iff_exists.1 (by decide +kernel)
  have h : (Ex.tolEngine Ex.hBlock).map (fun c => (c.allHazards, c.bbox, Ex.quickAnswers c)) =
      some ([Ex.hBin, Ex.hBlock], ⟨0, 0, 8, 8⟩, [some .true, some .false, some .true, some .false, some .true, some .false]) := by
    decide +kernel
  rw [hc] at h
  simp only [Option.map_some, Option.some.injEq, Prod.mk.injEq] at h
  obtain ⟨h1, h2, h3⟩ := h
  refine ⟨c, Ex.tol_tolerant, Ex.tolEngine_spec hc, Ex.tol_good Ex.block_wf rfl rfl h1 h2,
    ⟨by norm_num, by rw [h2]; unfold AARect.width; norm_num, by rw [h2]; unfold AARect.height; norm_num, ?_⟩, h3⟩
  rw [h1]
  intro x hx
  simp only [List.mem_cons, List.not_mem_nil, or_false] at hx
  rcases hx with rfl | rfl <;> (unfold Bounded; decide +kernel)

end Jagua
