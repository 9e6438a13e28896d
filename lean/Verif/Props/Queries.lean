import Verif.Props.Problem
import Verif.Props.Strip
import Verif.Props.Solution

/-! # C66: what a problem reports about itself between operations -/

set_option linter.unusedSectionVars false

namespace Jagua

variable {K : Type*} [Arith K] [LinearOrder K] {n : ℕ}

/-! ## Bin packing -/

/-- C66: the cost of the used bins is, over the bin types of the instance, the value
of the type times the number of bins that are no longer in stock. -/
theorem C66_used_bin_cost {env : Env K} {st : BPState K n} (hr : st.Reachable env) :
    st.p.usedBinCost = (st.p.inst.bins.zipIdx.map fun x => x.1.1.value * (x.1.2 - st.p.binQtys[x.2]?.getD 0)).sum := by
  have hl := C20_layouts_use_instance_bins hr
  have hs := (C20_stock hr).2
  let w : ℕ → ℕ := fun b => (st.p.inst.bins[b]?.map fun x => x.1.value).getD 0
  have h1 : st.p.usedBinCost = (st.p.layouts.map fun l => w l.bin.id).sum := by
    unfold BPProblem.usedBinCost
    refine congrArg _ (List.map_congr_left fun l hm => ?_)
    obtain ⟨q, hq⟩ := hl l hm
    simp only [w, hq]
    rfl
  rw [h1, sum_by_key st.p.layouts (fun l => l.bin.id) w st.p.inst.bins.length fun l hm => by
    obtain ⟨q, hq⟩ := hl l hm
    exact (List.getElem?_eq_some_iff.1 hq).1]
  congr 1
  apply List.ext_getElem
  · simp
  · intro b h2 h3
    have hb : b < st.p.inst.bins.length := by simpa using h2
    obtain ⟨q, hq, he⟩ := hs b _ (List.getElem?_eq_getElem hb)
    simp only [List.getElem_map, List.getElem_range, List.getElem_zipIdx, zero_add, hq, Option.getD_some]
    have : st.p.inst.bins[b].2 - q = binsUsed st.p.layouts b := by omega
    rw [this]
    simp only [w, List.getElem?_eq_getElem hb, Option.map_some, Option.getD_some, binsUsed, Nat.cast_id]

/-- C66: a real index leads to the layout with this number and to nothing else; for
every bin type there is a template, an empty layout in this bin, and no other. -/
theorem C66_get_layout {env : Env K} {st : BPState K n} (hr : st.Reachable env) :
    (∀ i, (∃ l, st.p.getLayout (.real i) = some l) ↔ i < st.p.layouts.length) ∧
    (∀ i l, st.p.getLayout (.real i) = some l → st.p.layouts[i]? = some l) ∧
    (∀ b, (∃ l, st.p.getLayout (.template b) = some l) ↔ b < st.p.inst.bins.length) ∧
    ∀ b l, st.p.getLayout (.template b) = some l → l.placed.values = [] ∧ ∃ q, st.p.inst.bins[b]? = some (l.bin, q) := by
  have ht := hr.inv.templates
  refine ⟨fun i => ?_, fun i l h => h, fun b => ?_, fun b l h => ?_⟩
  · exact ⟨fun ⟨l, h⟩ => (List.getElem?_eq_some_iff.1 h).1, fun h => ⟨_, List.getElem?_eq_getElem h⟩⟩
  · simp only [BPProblem.getLayout, ht, BPProblem.new]
    constructor
    · rintro ⟨l, hl⟩
      simpa using (List.getElem?_eq_some_iff.1 hl).1
    · intro hb
      exact ⟨_, List.getElem?_eq_getElem (by simpa using hb)⟩
  · simp only [BPProblem.getLayout, ht, BPProblem.new, List.getElem?_map, List.getElem?_zipIdx] at h
    obtain ⟨y, hy, rfl⟩ := Option.map_eq_some_iff.1 h
    obtain ⟨z, hz, rfl⟩ := Option.map_eq_some_iff.1 hy
    exact ⟨rfl, z.2, hz⟩

/-- C66: the reported placed quantities are the numbers of copies in the layouts, item
by item. -/
theorem C66_placed_qtys {env : Env K} {st : BPState K n} (hr : st.Reachable env) :
    placedQtys (st.p.inst.items.map (·.2)) st.p.missing =
      (List.range st.p.inst.items.length).map fun i => (st.p.layouts.map fun l => l.placed.values.countP fun pi => pi.itemId = i).sum := by
  apply List.ext_getElem?
  intro i
  rw [placedQtys_spec hr.inv.missing, List.getElem?_map]
  by_cases hi : i < st.p.inst.items.length
  · rw [List.getElem?_eq_getElem hi, List.getElem?_range hi]; rfl
  · rw [List.getElem?_eq_none (by omega), List.getElem?_eq_none (by simpa using hi)]; rfl

/-- C66: the stock in a solution is what is left, not what is used: a solution
reports the full stock for a bin type exactly when it uses no bin of the type. -/
theorem C66_bin_qtys_are_left {env : Env K} {st : BPState K n} (hr : st.Reachable env) {s : Solution K n} (hs : s ∈ st.sols)
    {b : ℕ} {x : Bin K n × ℕ} (hx : st.p.inst.bins[b]? = some x) :
    s.binQtys[b]? = some x.2 ↔ ∀ sn ∈ s.snapshots, sn.bin.id ≠ b := by
  obtain ⟨q, h1, h2⟩ := (C50_quantities hr hs).2.2 b x hx
  rw [h1, Option.some_inj]
  have : (∀ sn ∈ s.snapshots, sn.bin.id ≠ b) ↔ (s.snapshots.countP fun sn => sn.bin.id = b) = 0 := by
    rw [List.countP_eq_zero]; simp
  rw [this]
  omega

/-! ## Strip packing -/

section Ordered
variable {K : Type*} [Field K] [LinearOrder K] [IsStrictOrderedRing K] {n : ℕ}

/-- C66: with items in the strip the occupied range is the smallest interval of
horizontal positions that contains all points of all items: no point lies outside,
and both ends are positions of points. The occupied width is its length. -/
theorem C66_occupied_range {env : StripEnv K} {st : SPState K n} (hr : st.Reachable env) (hu : env.tr.Unit)
    (hitems : ∀ x ∈ st.p.inst.items, x.1.shape.Proper ∧ signedArea x.1.shape.points ≠ 0) (hne : st.p.layout.placed.values ≠ []) :
    ∃ lo hi, occupiedRange st.p.layout = some (lo, hi) ∧ occupiedWidth st.p.layout = hi - lo ∧ lo < hi ∧
      (∀ pi ∈ st.p.layout.placed.values, ∀ v ∈ region pi.shape.val.points, lo ≤ v.x ∧ v.x ≤ hi) ∧
      (∃ pi ∈ st.p.layout.placed.values, ∃ v ∈ region pi.shape.val.points, v.x = lo) ∧
      ∃ pi ∈ st.p.layout.placed.values, ∃ v ∈ region pi.shape.val.points, v.x = hi := by
  have hp := hr.proper hu hitems
  obtain ⟨lo, hi, h1, h2, ⟨p, hp1, hp2⟩, q, hq1, hq2⟩ := occupiedRange_spec hne
  refine ⟨lo, hi, h1, by unfold occupiedWidth; rw [h1], ?_, fun pi hpi v hv => ?_, ⟨p, hp1, ?_⟩, q, hq1, ?_⟩
  · have := (h2 p hp1).2
    rw [← hp2]
    refine lt_of_lt_of_le ?_ this
    have hw := (hp p hp1).wf
    exact hw.bbox_valid.1
  · have hb := region_subset_bbox hv
    rw [← (hp pi hpi).wf.bbox_eq] at hb
    exact ⟨(h2 pi hpi).1.trans hb.1, hb.2.1.trans (h2 pi hpi).2⟩
  · have hw := (hp p hp1).wf
    obtain ⟨⟨v, hv, he⟩, -⟩ := boundingBox_attained hw.nonempty
    exact ⟨v, .inl (vertex_mem_bdry hv), by rw [he, ← hw.bbox_eq, hp2]⟩
  · have hw := (hp q hq1).wf
    obtain ⟨-, -, ⟨v, hv, he⟩, -⟩ := boundingBox_attained hw.nonempty
    exact ⟨v, .inl (vertex_mem_bdry hv), by rw [he, ← hw.bbox_eq, hq2]⟩

end Ordered

/-- C66: an empty strip has no occupied range and occupied width zero. -/
theorem C66_occupied_range_empty {l : Layout K n} : (occupiedRange l = none ↔ l.placed.values = []) ∧
    (l.placed.values = [] → occupiedWidth l = 0) := by
  have key : occupiedRange l = none ↔ l.placed.values = [] := by
    unfold occupiedRange
    split
    · rename_i h; simp [h]
    · rename_i h; simp [h]
  refine ⟨key, fun h => ?_⟩
  unfold occupiedWidth
  rw [key.2 h]

/-! ## Instances -/

/-- Non-trivial instance for bin packing: two bins of value 5 are used up, each holds
an item; there is one template. -/
example : ∃ st : BPState ℚ 2, st.Reachable Ex.env ∧ st.p.usedBinCost = 10 ∧ st.p.binQtys = [0] ∧ st.p.layouts.length = 2 ∧
    (st.p.getLayout (.template 0)).isSome ∧ placedQtys (st.p.inst.items.map (·.2)) st.p.missing = [1, 1] := by
  obtain ⟨st, hst⟩ : ∃ st, Ex.bpAfter Ex.bpOps = some st := Option.isSome_iff_exists.1 (by decide +kernel)
  have h : (Ex.bpAfter Ex.bpOps).map (fun st => (st.p.usedBinCost, st.p.binQtys, st.p.layouts.length,
      (st.p.getLayout (.template 0)).isSome, placedQtys (st.p.inst.items.map (·.2)) st.p.missing)) =
      some (10, [0], 2, true, [1, 1]) := by decide +kernel
  rw [hst, Option.map_some, Option.some_inj] at h
  simp only [Prod.mk.injEq] at h
  exact ⟨st, Ex.bpAfter_reachable hst, h.1, h.2.1, h.2.2.1, h.2.2.2.1, h.2.2.2.2⟩

/-- C66: `solution.rs:25-26` documents the bin quantities of a solution as "quantity
of bins used for each type of bin". This solution uses two bins and reports none. -/
theorem C66_bin_qtys_not_used : ∃ (st : BPState ℚ 2) (s : Solution ℚ 2), st.Reachable Ex.env ∧ s ∈ st.sols ∧
    s.snapshots.length = 2 ∧ (s.snapshots.countP fun sn => sn.bin.id = 0) = 2 ∧ s.binQtys = [0] := by
  obtain ⟨st, hst⟩ : ∃ st, Ex.bpAfter Ex.bpOps2 = some st := Option.isSome_iff_exists.1 (by decide +kernel)
  have h : (Ex.bpAfter Ex.bpOps2).bind (fun st => st.sols[0]?.map fun s => (s.snapshots.length,
      (s.snapshots.countP fun sn => sn.bin.id = 0), s.binQtys)) = some (2, 2, [0]) := by decide +kernel
  rw [hst, Option.bind_some] at h
  obtain ⟨s, hs, h⟩ := Option.map_eq_some_iff.1 h
  simp only [Prod.mk.injEq] at h
  exact ⟨st, s, Ex.bpAfter_reachable hst, List.mem_of_getElem? hs, h⟩

/-- Non-trivial instance for strips: two items that occupy the positions 1 to 7. -/
example : ∃ st : SPState ℚ 2, st.Reachable Ex.senv ∧ Ex.senv.tr.Unit ∧
    (∀ x ∈ st.p.inst.items, x.1.shape.Proper ∧ signedArea x.1.shape.points ≠ 0) ∧ st.p.layout.placed.values.length = 2 ∧
    occupiedRange st.p.layout = some (1, 7) ∧ occupiedWidth st.p.layout = 6 := by
  obtain ⟨st, hst⟩ : ∃ st, Ex.spAfter Ex.spOps = some st := Option.isSome_iff_exists.1 (by decide +kernel)
  have h : (Ex.spAfter Ex.spOps).map (fun st => (st.p.layout.placed.values.length, occupiedRange st.p.layout,
      occupiedWidth st.p.layout)) = some (2, some (1, 7), 6) := by decide +kernel
  rw [hst, Option.map_some, Option.some_inj] at h
  simp only [Prod.mk.injEq] at h
  exact ⟨st, (Ex.spAfter_reachable hst).reachable, Ex.trig_unit, by rw [Ex.spAfter_inst hst]; exact Ex.stripInst_proper, h⟩

end Jagua
