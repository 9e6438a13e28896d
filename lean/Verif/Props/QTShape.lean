import Verif.Lemmas.QTShape
import Verif.Spec.Examples

/-!
# The shape of the quadtree

C60: the quadtree is refined exactly along the outlines of the hazards, and the numbers the engine reports about it are right.
-/

set_option linter.unusedSectionVars false

namespace Jagua

variable {K : Type*} [Field K] [LinearOrder K] [IsStrictOrderedRing K] {n : ℕ}

/-- C60: the boxes of the nodes are the quadrants of the quadrants ... of the box of the engine, at most as deep as the engine was
made; the leaves cover the box and do not overlap. -/
theorem C60_boxes {f : Fpa K} {o : SearchOracle K} {c : CDE K n} (h : c.Reachable f o) (hv : c.bbox.Valid) :
    (∀ p r, c.tree.rectAt p = some r → r = c.bbox.sub p ∧ p.length ≤ n ∧
      r.width = c.bbox.width / 2 ^ p.length ∧ r.height = c.bbox.height / 2 ^ p.length) ∧
    (∀ v ∈ c.bbox.pts, ∃ p, c.tree.HasLeaf p ∧ v ∈ (c.bbox.sub p).pts) ∧
    ∀ p q, c.tree.HasLeaf p → c.tree.HasLeaf q → p ≠ q → Disjoint (c.bbox.sub p).inner (c.bbox.sub q).pts := by
  refine ⟨?_, fun v hm => QTNode.exists_leaf _ hv h.inv.canon hm, ?_⟩
  · intro p r hr
    obtain ⟨rfl, h2⟩ := QTNode.rectAt_sub _ h.inv.canon hr
    exact ⟨rfl, h2, (AARect.sub_dim hv p).1, (AARect.sub_dim hv p).2⟩
  · intro p q hp hq hne
    rw [Set.disjoint_left]
    exact fun v h1 h2 => hne (QTNode.leaf_unique _ hv hp hq h1 h2)

/-- C60: a node below the root is divided only if the outline of a known hazard meets its box, and every node above the maximal depth
is divided if such an outline passes through the inside of its box. The root is divided as soon as there is a hazard. -/
theorem C60_refined_along_outlines {o : SearchOracle K} {c : CDE K n} (h : c.Reachable Fpa.exact o) (hv : c.bbox.Valid)
    (hwf : ∀ x ∈ c.known, x.shape.val.WF)
    (hfit : ∀ x ∈ c.known, x.entity.position = .exterior → c.bbox.width ≤ x.shape.val.bbox.width ∨ c.bbox.height ≤ x.shape.val.bbox.height) :
    (∀ i, c.tree.HasNode [i] ↔ 0 < n ∧ c.known ≠ []) ∧
    (∀ p i, p ≠ [] → c.tree.HasNode (p ++ [i]) → p.length < n ∧ ∃ x ∈ c.known, ∃ w ∈ (c.bbox.sub p).pts, w ∈ bdry x.shape.val.points) ∧
    ∀ p i, p.length < n → (∃ x ∈ c.known, ∃ w ∈ (c.bbox.sub p).inner, w ∈ bdry x.shape.val.points) → c.tree.HasNode (p ++ [i]) := by
  have hheld := c.held fun x hx => ⟨hwf x hx, hfit x hx⟩
  refine ⟨?_, ?_, ?_⟩
  · intro i
    rw [QTNode.hasNode_child_iff _ h.inv.canon i, CDE.treeHaz_partial]
  · intro p i hp hn
    constructor
    · obtain ⟨r, hr⟩ := Option.isSome_iff_exists.1 hn
      have := (QTNode.rectAt_sub _ h.inv.canon hr).2
      simp only [List.length_append, List.length_singleton] at this
      omega
    · cases p with
      | nil => exact absurd rfl hp
      | cons j p =>
        have hc := h.inv.canon
        generalize c.tree = t at hc hn
        cases t with
        | leaf b v => unfold QTNode.HasNode at hn; cases hn
        | node b v cs =>
          obtain ⟨g1, g2⟩ := hheld.child hv j
          exact QTNode.touched_of_child (cs j) (quadrants_valid hv j) (hc.2.2.2 j) g1 g2 (p := p) hn
  · intro p i hlen hw
    exact QTNode.child_of_inner _ hv h.inv.canon hheld hlen hw i

/-- C60: the number of nodes that the engine reports is right and at most (4^(depth + 1) - 1) / 3; the smallest dimension it
reports is the width of the nodes at the maximal depth, all others are wider. -/
theorem C60_numbers {f : Fpa K} {o : SearchOracle K} {c : CDE K n} (h : c.Reachable f o) (hv : c.bbox.Valid) :
    (∃ ps : List (List (Fin 4)), ps.Nodup ∧ (∀ p, p ∈ ps ↔ c.tree.HasNode p) ∧ c.numberOfNodes = ps.length) ∧
    3 * c.numberOfNodes + 1 ≤ 4 ^ (n + 1) ∧
    ∀ p r, c.tree.rectAt p = some r → c.smallestNodeDimension ≤ r.width ∧ (c.smallestNodeDimension = r.width ↔ p.length = n) := by
  refine ⟨⟨c.tree.paths, c.tree.paths_nodup, c.tree.mem_paths, c.tree.paths_length.symm⟩, c.tree.numberOfChildren_le, ?_⟩
  intro p r hr
  obtain ⟨rfl, h2⟩ := QTNode.rectAt_sub _ h.inv.canon hr
  have hbox : c.tree.bbox = c.bbox := by
    have hc := h.inv.canon
    generalize c.tree = t at hc
    cases t with
    | leaf b v => exact hc.1
    | node b v cs => exact hc.1
  have hw : 0 < c.bbox.width := by unfold AARect.width; linarith [hv.1]
  unfold CDE.smallestNodeDimension
  rw [hbox, (AARect.sub_dim hv p).1]
  have h2' : (1 : K) < 2 := by norm_num
  constructor
  · exact div_le_div_of_nonneg_left hw.le (by positivity) (pow_le_pow_right₀ h2'.le h2)
  · constructor
    · intro he
      rw [div_eq_div_iff (by positivity) (by positivity)] at he
      exact pow_right_injective₀ (by norm_num) (by norm_num) (mul_left_cancel₀ hw.ne' he)
    · intro he; rw [he]

/-- Non-trivial case for C60: an engine of depth 3 with a bin, a square and a triangle whose removal is not committed. The tree has
77 of 85 possible nodes, some leaves are larger than others; after the commit it has 73. -/
example : ∃ c c' : CDE ℚ 3, c.Reachable Fpa.exact SearchOracle.first ∧ c.bbox.Valid ∧ (∀ x ∈ c.known, x.shape.val.WF) ∧
    (∀ x ∈ c.known, x.entity.position = .exterior → c.bbox.width ≤ x.shape.val.bbox.width ∨ c.bbox.height ≤ x.shape.val.bbox.height) ∧
    c.known = [Ex.hBin, Ex.hSq, Ex.hTri] ∧ c.numberOfNodes = 77 ∧ c.smallestNodeDimension = 1 ∧ c.tree.HasLeaf [3, 1] ∧ c.tree.HasLeaf [2, 0, 0] ∧
    c.commit = some c' ∧ c'.numberOfNodes = 73 := by
  obtain ⟨c, hc⟩ : ∃ c, (CDE.new Fpa.exact SearchOracle.first 3 ⟨0, 0, 8, 8⟩ [Ex.hBin]).bind (Ex.runChecked Ex.ops) = some c :=
    Option.isSome_iff_exists.1 (by decide +kernel)
  have h : ((CDE.new Fpa.exact SearchOracle.first 3 ⟨0, 0, 8, 8⟩ [Ex.hBin]).bind (Ex.runChecked Ex.ops)).map (fun c =>
      (c.bbox, c.known, c.numberOfNodes, c.smallestNodeDimension)) = some (⟨0, 0, 8, 8⟩, [Ex.hBin, Ex.hSq, Ex.hTri], 77, 1) := by decide +kernel
  have h' : ((CDE.new Fpa.exact SearchOracle.first 3 ⟨0, 0, 8, 8⟩ [Ex.hBin]).bind (Ex.runChecked Ex.ops)).map (fun c =>
      (c.commit.map CDE.numberOfNodes, (c.tree.rectAt [3, 1]).isSome, ([0, 1, 2, 3].all fun i => (c.tree.rectAt [3, 1, i]).isNone),
        (c.tree.rectAt [2, 0, 0]).isSome, ([0, 1, 2, 3].all fun i => (c.tree.rectAt [2, 0, 0, i]).isNone))) =
      some (some 73, true, true, true, true) := by decide +kernel
  rw [hc] at h h'
  simp only [Option.map_some, Option.some.injEq, Prod.mk.injEq] at h
  obtain ⟨hb, hk, h1, h2⟩ := h
  obtain ⟨h3, h4⟩ := Prod.mk.inj (Option.some.inj h')
  obtain ⟨h4, h5⟩ := Prod.mk.inj h4
  obtain ⟨h5, h6⟩ := Prod.mk.inj h5
  obtain ⟨h6, h7⟩ := Prod.mk.inj h6
  obtain ⟨c', hc', h3⟩ := Option.map_eq_some_iff.1 h3
  have hmem : ∀ {P : Hazard ℚ → Prop}, P Ex.hBin → P Ex.hSq → P Ex.hTri → ∀ x ∈ c.known, P x := by
    intro P p1 p2 p3 x hx
    rw [hk] at hx
    simp only [List.mem_cons, List.not_mem_nil, or_false] at hx
    rcases hx with rfl | rfl | rfl
    exacts [p1, p2, p3]
  refine ⟨c, c', Ex.reachable (by decide) hc, by rw [hb]; unfold AARect.Valid; decide +kernel, hmem Ex.bin_wf Ex.sq_wf Ex.tri_wf, ?_, hk, h1, h2,
    ⟨h4, ?_⟩, ⟨h6, ?_⟩, hc', h3⟩
  · rw [hb]
    exact hmem (fun _ => .inl (by decide +kernel)) (fun h => absurd h (by decide)) (fun h => absurd h (by decide))
  · intro i hi
    rw [List.all_eq_true] at h5
    have := h5 i (by fin_cases i <;> simp)
    unfold QTNode.HasNode at hi
    rw [Option.isNone_iff_eq_none] at this
    rw [show [3, 1] ++ [i] = [3, 1, i] from rfl, this] at hi
    cases hi
  · intro i hi
    rw [List.all_eq_true] at h7
    have := h7 i (by fin_cases i <;> simp)
    unfold QTNode.HasNode at hi
    rw [Option.isNone_iff_eq_none] at this
    rw [show [2, 0, 0] ++ [i] = [2, 0, 0, i] from rfl, this] at hi
    cases hi

end Jagua
