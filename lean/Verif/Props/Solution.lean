import Verif.Lemmas.ProblemRun
import Verif.Spec.ProblemExamples
import Mathlib.Algebra.BigOperators.Ring.List
import Mathlib.Algebra.Order.BigOperators.Group.List
import Mathlib.Tactic.Ring
import Mathlib.Tactic.FieldSimp

/-! # C50: what a solution reports -/

set_option linter.unusedSectionVars false

namespace Jagua

variable {K : Type*} [Arith K] [LinearOrder K] {n : ℕ}

/-- the copies of item `i` in the snapshots of a solution -/
def Solution.copies (s : Solution K n) (i : ℕ) : ℕ := (s.snapshots.map fun sn => copiesIn sn.placed i).sum

/-- the items in the snapshots of a solution -/
def Solution.allPlaced (s : Solution K n) : List (PlacedItem K) := s.snapshots.flatMap fun sn => sn.placed.values

theorem Solution.copies_eq (s : Solution K n) (i : ℕ) : s.copies i = s.allPlaced.countP fun pi => pi.itemId = i := by
  unfold Solution.copies Solution.allPlaced
  rw [List.countP_flatMap]
  rfl

theorem forall₂_of_mapM {α β : Type*} {f : α → Option β} {l : List α} {bs : List β} (h : l.mapM f = some bs) :
    List.Forall₂ (fun a b => f a = some b) l bs := by
  induction l generalizing bs with
  | nil => cases h; exact .nil
  | cons a l ih =>
    rw [List.mapM_cons] at h
    obtain ⟨b, hb, h⟩ := Option.bind_eq_some_iff.1 h
    obtain ⟨bs', hbs, h⟩ := Option.bind_eq_some_iff.1 h
    cases h
    exact .cons hb (ih hbs)

/-- summing over a list by key -/
theorem sum_by_key {α M : Type*} [Semiring M] (l : List α) (key : α → ℕ) (w : ℕ → M) (N : ℕ) (h : ∀ a ∈ l, key a < N) :
    (l.map fun a => w (key a)).sum = ((List.range N).map fun i => w i * ((l.countP fun a => key a = i : ℕ) : M)).sum := by
  induction l with
  | nil => simp
  | cons a l ih =>
    rw [List.map_cons, List.sum_cons, ih fun x hx => h x (List.mem_cons_of_mem _ hx)]
    have hsplit : ((List.range N).map fun i => w i * (((a :: l).countP fun a => key a = i : ℕ) : M)) =
        (List.range N).map fun i => w i * ((l.countP fun a => key a = i : ℕ) : M) + (if i = key a then w i else 0) := by
      refine List.map_congr_left fun i _ => ?_
      rw [List.countP_cons]
      by_cases hk : key a = i
      · rw [if_pos (by simpa using hk), if_pos hk.symm]; push_cast; rw [mul_add, mul_one]
      · rw [if_neg (by simpa using hk), if_neg (Ne.symm hk)]; push_cast; rw [add_zero, add_zero]
    rw [hsplit, List.sum_map_add, add_comm]
    congr 1
    have ha := h a List.mem_cons_self
    clear ih h hsplit
    induction N with
    | zero => omega
    | succ N ih =>
      rw [List.range_succ, List.map_append, List.sum_append, List.map_singleton, List.sum_singleton]
      by_cases hN : key a = N
      · rw [if_pos hN.symm, hN]
        have : ((List.range N).map fun i => if i = N then w i else 0).sum = 0 := by
          apply List.sum_eq_zero
          intro x hx
          obtain ⟨i, hi, rfl⟩ := List.mem_map.1 hx
          rw [if_neg (by have := List.mem_range.1 hi; omega)]
        rw [this, zero_add]
      · rw [if_neg (Ne.symm hN), add_zero]
        exact ih (by omega)

theorem SolutionIn.placed_eq {env : Env K} {inst : BPInstance K n} {s : Solution K n} (h : SolutionIn env inst s) :
    s.placed = (List.range inst.items.length).map s.copies := by
  apply List.ext_getElem?
  intro i
  rw [h.placed i, List.getElem?_map]
  by_cases hi : i < inst.items.length
  · rw [List.getElem?_eq_getElem hi, List.getElem?_range hi]; rfl
  · rw [List.getElem?_eq_none (by omega), List.getElem?_eq_none (by simpa using hi)]; rfl

theorem SolutionIn.items_lt {env : Env K} {inst : BPInstance K n} {s : Solution K n} (h : SolutionIn env inst s) :
    ∀ pi ∈ s.allPlaced, pi.itemId < inst.items.length := by
  intro pi hpi
  obtain ⟨sn, hsn, hpi⟩ := List.mem_flatMap.1 hpi
  exact (h.snaps sn hsn).items pi hpi

theorem mapM_range {β : Type*} (g : ℕ → ℕ) (f : ℕ × ℕ → Option β) (r : ℕ → β) (N : ℕ) (h : ∀ i < N, f (g i, i) = some (r i)) :
    ((List.range N).map g).zipIdx.mapM f = some ((List.range N).map r) := by
  have : ((List.range N).map g).zipIdx = (List.range N).map fun i => (g i, i) := by
    apply List.ext_getElem
    · simp
    · intro i h1 h2
      simp
  rw [this]
  have key : ∀ l : List ℕ, (∀ i ∈ l, i < N) → (l.map fun i => (g i, i)).mapM f = some (l.map r) := by
    intro l
    induction l with
    | nil => intro _; rfl
    | cons a l ih =>
      intro hl
      rw [List.map_cons, List.mapM_cons, h a (hl a List.mem_cons_self), ih fun i hi => hl i (List.mem_cons_of_mem _ hi)]
      rfl
  exact key _ fun i hi => List.mem_range.1 hi

/-- C50: a solution reports as placed quantity of each item the copies in its
snapshots, as target the demand of the instance, and its bin stock plus its
snapshots per bin type is the stock of the instance. -/
theorem C50_quantities {env : Env K} {st : BPState K n} (hr : st.Reachable env) {s : Solution K n} (hs : s ∈ st.sols) :
    s.placed = (List.range st.p.inst.items.length).map s.copies ∧ s.target = st.p.inst.items.map (·.2) ∧
    ∀ (b : ℕ) (x : Bin K n × ℕ), st.p.inst.bins[b]? = some x →
      ∃ q, s.binQtys[b]? = some q ∧ q + (s.snapshots.countP fun sn => sn.bin.id = b) = x.2 := by
  have h := hr.inv.sols s hs
  refine ⟨h.placed_eq, h.target, fun b x hx => ?_⟩
  have := h.stock b
  rw [hx, Option.map_some] at this
  obtain ⟨a, ha, he⟩ := Option.map_eq_some_iff.1 this
  exact ⟨a, ha, he⟩

/-- C50: `n_items_placed` is the number of items in the snapshots. -/
theorem C50_n_items_placed {env : Env K} {st : BPState K n} (hr : st.Reachable env) {s : Solution K n} (hs : s ∈ st.sols) :
    s.nItemsPlaced = (s.snapshots.map fun sn => sn.placed.values.length).sum := by
  have h := hr.inv.sols s hs
  unfold Solution.nItemsPlaced
  rw [h.placed_eq]
  have := sum_by_key (M := ℕ) s.allPlaced (·.itemId) (fun _ => 1) st.p.inst.items.length h.items_lt
  simp only [List.map_const', List.sum_replicate, smul_eq_mul, mul_one, one_mul, Nat.cast_id] at this
  rw [show s.copies = fun i => s.allPlaced.countP fun pi => pi.itemId = i from funext s.copies_eq, ← this]
  unfold Solution.allPlaced
  rw [List.length_flatMap]

/-- C50: `missing_item_qtys` is demand minus copies, and is what the problem
reports as missing after restoring the solution. -/
theorem C50_missing {env : Env K} {st : BPState K n} (hr : st.Reachable env) {s : Solution K n} (hs : s ∈ st.sols) :
    s.missingItemQtys st.p.inst.qtys = some (st.p.inst.items.zipIdx.map fun x => (x.1.2 : ℤ) - s.copies x.2) ∧
    ∀ p', st.p.restore env s = some p' → some p'.missing = s.missingItemQtys st.p.inst.qtys := by
  have h := hr.inv.sols s hs
  have hq : ∀ i, i < st.p.inst.items.length → st.p.inst.qtys[i]? = some ((st.p.inst.items[i]?.map (·.2)).getD 0) := by
    intro i hi
    unfold BPInstance.qtys
    rw [List.getElem?_map, List.getElem?_eq_getElem hi]
    rfl
  have key : s.missingItemQtys st.p.inst.qtys = some (st.p.inst.items.zipIdx.map fun x => (x.1.2 : ℤ) - s.copies x.2) := by
    unfold Solution.missingItemQtys
    rw [h.placed_eq, mapM_range s.copies _ (fun i => (((st.p.inst.items[i]?.map (·.2)).getD 0 : ℕ) : ℤ) - s.copies i)]
    · congr 1
      apply List.ext_getElem
      · simp
      · intro i h1 h2
        simp at h1
        simp [h1]
    · intro i hi
      dsimp only
      rw [hq i hi]
      rfl
  refine ⟨key, fun p' hp' => ?_⟩
  rw [key]
  congr 1
  unfold BPProblem.restore at hp'
  obtain ⟨ls, _, hp'⟩ := Option.bind_eq_some_iff.1 hp'
  obtain ⟨m, hm, hp'⟩ := Option.bind_eq_some_iff.1 hp'
  split_ifs at hp' with hl
  obtain rfl := Option.some.inj hp'
  show m = _
  have h19 := hr.inv.missing
  unfold missingOfSolution at hm
  have hlen : st.p.missing.length = st.p.inst.items.length := by
    apply le_antisymm
    · by_contra hc
      have := h19 st.p.inst.items.length
      rw [List.getElem?_eq_none (le_refl st.p.inst.items.length), List.getElem?_eq_getElem (by omega)] at this
      simp at this
    · by_contra hc
      have := h19 st.p.missing.length
      rw [List.getElem?_eq_none (le_refl st.p.missing.length), List.getElem?_eq_getElem (by omega)] at this
      simp at this
  have hF := forall₂_of_mapM hm
  have hml : m.length = st.p.missing.length := by
    have := hF.length_eq; simpa using this.symm
  apply List.ext_getElem
  · simp [hml, hlen]
  · intro i h1 h2
    have hi : i < st.p.inst.items.length := by omega
    have := hF.get (i := i) (by simp; omega) h1
    simp only [List.get_eq_getElem, List.getElem_zipIdx, zero_add] at this
    rw [hq i hi, h.placed i, List.getElem?_eq_getElem hi] at this
    simp only [Option.map_some] at this
    unfold usizeSubAsIsize at this
    split_ifs at this
    rw [Option.some.injEq] at this
    rw [← this]
    simp [Solution.copies]

/-- C50: `is_complete` says whether every item is placed at least as often as
demanded. -/
theorem C50_is_complete {env : Env K} {st : BPState K n} (hr : st.Reachable env) {s : Solution K n} (hs : s ∈ st.sols) :
    ∃ b, s.isComplete st.p.inst.qtys = some b ∧
      (b = true ↔ ∀ (i : ℕ) (x : Item K × ℕ), st.p.inst.items[i]? = some x → x.2 ≤ s.copies i) := by
  have h := hr.inv.sols s hs
  have hz : s.placed.zipIdx = (List.range st.p.inst.items.length).map fun i => (s.copies i, i) := by
    rw [h.placed_eq]
    apply List.ext_getElem
    · simp
    · intro i h1 h2
      simp
  unfold Solution.isComplete
  rw [hz, anyM_some (g := fun x => decide (x.1 < (st.p.inst.items[x.2]?.map (·.2)).getD 0))]
  · refine ⟨_, rfl, ?_⟩
    simp only [Bool.not_eq_true', List.any_eq_false, List.mem_map, List.mem_range, decide_eq_true_eq, not_lt]
    constructor
    · intro hall i x hx
      have := hall (s.copies i, i) ⟨i, (List.getElem?_eq_some_iff.1 hx).1, rfl⟩
      rw [hx] at this
      exact this
    · rintro hall _ ⟨i, hi, rfl⟩
      dsimp only
      rw [List.getElem?_eq_getElem hi]
      exact hall i _ (List.getElem?_eq_getElem hi)
  · intro x hx
    obtain ⟨i, hi, rfl⟩ := List.mem_map.1 hx
    dsimp only
    unfold BPInstance.qtys
    rw [List.getElem?_map, List.getElem?_eq_getElem (List.mem_range.1 hi)]
    rfl

theorem SolutionIn.item_area {env : Env K} {inst : BPInstance K n} {s : Solution K n} (h : SolutionIn env inst s) :
    ∀ pi ∈ s.allPlaced, pi.shape.val.area = (inst.cat pi.itemId).shape.area := by
  intro pi hpi
  obtain ⟨sn, hsn, hpi⟩ := List.mem_flatMap.1 hpi
  rw [((h.snaps sn hsn).valid.ok pi hpi).2]
  rfl

section
variable {K : Type*} [Field K] [LinearOrder K] {n : ℕ}

/-- C50: `completeness` is the area of the items in the snapshots over the
demanded area. -/
theorem C50_completeness {env : Env K} {st : BPState K n} (hr : st.Reachable env) {s : Solution K n} (hs : s ∈ st.sols) :
    s.completeness st.p.inst.items = some (((s.snapshots.flatMap fun sn => sn.placed.values).map (·.shape.val.area)).sum /
      (st.p.inst.items.map fun x => x.1.shape.area * (x.2 : K)).sum) := by
  have h := hr.inv.sols s hs
  unfold Solution.completeness
  rw [h.placed_eq, mapM_range s.copies _ (fun i => (st.p.inst.cat i).shape.area * (s.copies i : K))]
  · rw [Option.map_some, fsum_eq, fsum_eq]
    congr 2
    have := sum_by_key s.allPlaced (·.itemId) (fun i => (st.p.inst.cat i).shape.area) st.p.inst.items.length h.items_lt
    rw [show (s.snapshots.flatMap fun sn => sn.placed.values) = s.allPlaced from rfl, List.map_congr_left h.item_area, this]
    congr 1
    refine List.map_congr_left fun i _ => ?_
    rw [s.copies_eq]
  · intro i hi
    dsimp only
    unfold BPInstance.cat catOf
    rw [List.getElem?_eq_getElem hi]
    rfl


/-- C50: the usage of a solution is the area of its items over the area of its
bins, provided the bins have an area. -/
theorem C50_usage {env : Env K} {st : BPState K n} (hr : st.Reachable env) {s : Solution K n} (hs : s ∈ st.sols)
    (harea : ∀ x ∈ st.p.inst.bins, x.1.area ≠ 0) :
    s.usage = ((s.snapshots.flatMap fun sn => sn.placed.values).map (·.shape.val.area)).sum /
      (s.snapshots.map (·.bin.area)).sum := by
  have h := hr.inv.sols s hs
  rw [h.usage, fsum_eq, fsum_eq]
  congr 1
  rw [List.map_flatMap, List.flatMap_def, List.sum_flatten, List.map_map]
  congr 1
  refine List.map_congr_left fun sn hsn => ?_
  have hsn' := h.snaps sn hsn
  obtain ⟨q, hq⟩ := hsn'.bin
  have := harea _ (List.mem_of_getElem? hq)
  rw [hsn'.valid.usage, fsum_eq]
  field_simp
  rfl

end

/-- C50: the check `problem_matches_solution`, made in debug builds after creating
and after restoring a solution, never fails. -/
theorem C50_problem_matches_solution {env : Env K} {st : BPState K n} (hr : st.Reachable env) :
    (∀ hint, (∀ o, hint = some o → o ∈ st.sols ∧ st.p.refSolution = some o.id) → ∃ s p', st.p.createSolution hint = some (s, p') ∧
      problemMatchesSolution p'.layouts s = some true) ∧
    ∀ s ∈ st.sols, ∀ p', st.p.restore env s = some p' → problemMatchesSolution p'.layouts s = some true := by
  have key : ∀ (ls : List (Layout K n)) (s : Solution K n), SolutionIn env st.p.inst s →
      (∀ l ∈ ls, ∃ sn ∈ s.snapshots, l.view = sn.view) → problemMatchesSolution ls s = some true := by
    intro ls s hs hl
    unfold problemMatchesSolution
    rw [anyM_some (g := fun _ => false)]
    · simp
    · intro l hll
      obtain ⟨sn, hsn, hv⟩ := hl l hll
      simp only [Layout.view, LayoutSnapshot.view, Prod.mk.injEq] at hv
      rw [hv.1, hs.find hsn, Option.map_some]
      congr 1
      rw [Bool.not_eq_false']
      unfold layoutsMatch
      rw [if_neg (by rw [hv.2.1]; simp), List.all_eq_true]
      intro x hx
      rw [List.any_eq_true]
      exact ⟨x, by rw [hv.2.2]; exact hx, by simp⟩
  refine ⟨fun hint hh => ?_, fun s hs p' hp' => ?_⟩
  · obtain ⟨rs, s, p', F, e1, e2, e3, e4⟩ := hr.inv.createSolution hint hh
    refine ⟨s, p', e1, key _ _ ?_ ?_⟩
    · have := e4.sols s (by simp)
      rw [e2] at this
      exact this
    · intro l hl
      rw [e2] at hl
      obtain ⟨r, hr', rfl⟩ := List.mem_map.1 hl
      obtain ⟨l0, _, hR⟩ := Forall₂.exists_left F hr'
      exact ⟨r.2, by rw [e3]; exact List.mem_map_of_mem hr', hR.view.trans hR.snapView.symm⟩
  · obtain ⟨ls, e1, e2, e3⟩ := hr.inv.restoreLayouts hs
    unfold BPProblem.restore at hp'
    rw [e1, Option.bind_some] at hp'
    obtain ⟨m, hm, hp'⟩ := Option.bind_eq_some_iff.1 hp'
    split_ifs at hp' with hl
    obtain rfl := Option.some.inj hp'
    refine key _ _ (hr.inv.sols s hs) fun l hl => ?_
    obtain ⟨sn, hsn, he⟩ := List.mem_map.1 (e3.mem_iff.1 (List.mem_map_of_mem (f := Layout.view) hl))
    exact ⟨sn, hsn, he.symm⟩

/-- Non-trivial instance for C50: a solution with two snapshots and two items, in
bins with an area. -/
example : ∃ (st : BPState ℚ 2) (s : Solution ℚ 2), st.Reachable Ex.env ∧ s ∈ st.sols ∧ s.snapshots.length = 2 ∧
    s.nItemsPlaced = 2 ∧ s.isComplete st.p.inst.qtys = some false ∧ s.missingItemQtys st.p.inst.qtys = some [2, 1] ∧
    (∀ x ∈ st.p.inst.bins, x.1.area ≠ 0) ∧ s.usage ≠ 0 ∧ (st.p.restore Ex.env s).isSome = true := by
  obtain ⟨st, hst⟩ : ∃ st, Ex.bpAfter Ex.bpOps2 = some st := Option.isSome_iff_exists.1 (by decide +kernel)
  have h : (Ex.bpAfter Ex.bpOps2).bind (fun st => st.sols[0]?.map fun s => decide (s.snapshots.length = 2) &&
      decide (s.nItemsPlaced = 2) && decide (s.isComplete st.p.inst.qtys = some false) &&
      decide (s.missingItemQtys st.p.inst.qtys = some [2, 1]) &&
      (st.p.inst.bins.all fun x => decide (x.1.area ≠ 0)) && decide (s.usage ≠ 0) && (st.p.restore Ex.env s).isSome)
      = some true := by decide +kernel
  rw [hst, Option.bind_some] at h
  obtain ⟨s, hs, h⟩ := Option.map_eq_some_iff.1 h
  simp only [decide_eq_true_eq, Bool.and_eq_true, List.all_eq_true, and_assoc] at h
  exact ⟨st, s, Ex.bpAfter_reachable hst, List.mem_of_getElem? hs, h⟩

end Jagua
