import Verif.Lemmas.ProblemRun
import Verif.Spec.ProblemExamples

/-! # C19–C23, C49, C50: bin packing problems and solutions -/

set_option linter.unusedSectionVars false

namespace Jagua

variable {K : Type*} [Arith K] [LinearOrder K] {n : ℕ}

/-! ## C19 Demand is conserved -/

/-- C19: after any operations the missing quantity of each item is its demand
minus the copies in the layouts, and there is one entry per item. -/
theorem C19_demand {env : Env K} {st : BPState K n} (hr : st.Reachable env) :
    st.p.missing.length = st.p.inst.items.length ∧ ∀ (i : ℕ) (x : Item K × ℕ), st.p.inst.items[i]? = some x →
      st.p.missing[i]? = some ((x.2 : ℤ) - copies st.p.layouts i) := by
  have h := hr.inv.missing
  have key : ∀ (i : ℕ) (x : Item K × ℕ), st.p.inst.items[i]? = some x →
      st.p.missing[i]? = some ((x.2 : ℤ) - copies st.p.layouts i) := by
    intro i x hx
    have := h i
    rw [hx, Option.map_some] at this
    obtain ⟨a, ha, he⟩ := Option.map_eq_some_iff.1 this
    rw [ha, ← he]
    congr 1
    ring
  refine ⟨?_, key⟩
  apply le_antisymm
  · by_contra hc
    have := h st.p.inst.items.length
    rw [List.getElem?_eq_none (le_refl st.p.inst.items.length), List.getElem?_eq_getElem (by omega)] at this
    simp at this
  · by_contra hc
    have := h st.p.missing.length
    rw [List.getElem?_eq_none (le_refl st.p.missing.length), List.getElem?_eq_getElem (by omega)] at this
    simp at this

/-- C19: the reported placed quantities are the copies in the layouts. -/
theorem C19_placed_quantities {env : Env K} {st : BPState K n} (hr : st.Reachable env) (i : ℕ) :
    (placedQtys st.p.inst.qtys st.p.missing)[i]? = if i < st.p.inst.items.length then some (copies st.p.layouts i) else none := by
  rw [BPInstance.qtys, placedQtys_spec hr.inv.missing i]
  split_ifs with hi
  · rw [List.getElem?_eq_getElem hi]; rfl
  · rw [List.getElem?_eq_none (by omega)]; rfl

/-- C19: no admissible operation panics, and the operations keep the instance and
the solutions made before. -/
theorem C19_operations_do_not_panic {env : Env K} {st : BPState K n} (hr : st.Reachable env) {op : BPOp K n}
    (hp : op.Pre env st) : ∃ st', op.run env st = some st' ∧ st'.Reachable env ∧ st'.p.inst = st.p.inst ∧
      ∃ t, st'.sols = st.sols ++ t := by
  obtain ⟨st', h1, h2, h3, h4⟩ := BPOp.run_inv hr.inv hp
  exact ⟨st', h1, hr.run (.cons hp h1 (.nil _)), h3, h4⟩

/-! ## C20 Bin stock is conserved -/

/-- C20: stock left plus layouts using a bin type is the stock of the instance. -/
theorem C20_stock {env : Env K} {st : BPState K n} (hr : st.Reachable env) :
    st.p.binQtys.length = st.p.inst.bins.length ∧ ∀ (b : ℕ) (x : Bin K n × ℕ), st.p.inst.bins[b]? = some x →
      ∃ q, st.p.binQtys[b]? = some q ∧ q + binsUsed st.p.layouts b = x.2 := by
  have h := hr.inv.stock
  refine ⟨h.length, fun b x hx => ?_⟩
  have := h b
  rw [hx, Option.map_some] at this
  obtain ⟨a, ha, he⟩ := Option.map_eq_some_iff.1 this
  exact ⟨a, ha, he⟩

/-- C20: every layout uses a bin of the instance. -/
theorem C20_layouts_use_instance_bins {env : Env K} {st : BPState K n} (hr : st.Reachable env) :
    ∀ l ∈ st.p.layouts, ∃ q, st.p.inst.bins[l.bin.id]? = some (l.bin, q) :=
  fun l hl => (hr.inv.layouts l hl).bin

/-- C20: a template is offered iff its bin is in stock. -/
theorem C20_templates_with_stock {env : Env K} {st : BPState K n} (hr : st.Reachable env) :
    ∃ idx, st.p.templatesWithStock = some idx ∧ ∀ t, t ∈ idx ↔ ∃ b q, t = .template b ∧ st.p.binQtys[b]? = some q ∧ 0 < q := by
  have h := hr.inv
  have ht : ∀ (x : Layout K n × ℕ), x ∈ st.p.templates.zipIdx → x.1.bin.id = x.2 ∧ x.2 < st.p.inst.bins.length := by
    intro x hx
    rw [List.mem_zipIdx_iff_getElem?, h.templates] at hx
    simp only [BPProblem.new, List.getElem?_map, List.getElem?_zipIdx] at hx
    obtain ⟨y, hy, he⟩ := Option.map_eq_some_iff.1 hx
    obtain ⟨z, hz, rfl⟩ := Option.map_eq_some_iff.1 hy
    rw [← he]
    exact ⟨h.built.bin_id hz, (List.getElem?_eq_some_iff.1 hz).1⟩
  have hlen : st.p.templates.length = st.p.inst.bins.length := by
    rw [h.templates]; simp [BPProblem.new]
  have hq := h.stock.length
  obtain ⟨bs, e, hF⟩ := mapM_forall₂ (f := fun (t : Layout K n × ℕ) => (st.p.binQtys[t.1.bin.id]?).map fun q =>
      if q = 0 then [] else [LayoutIndex.template t.2])
    (R := fun t r => ∃ q, st.p.binQtys[t.2]? = some q ∧ r = if q = 0 then [] else [LayoutIndex.template t.2])
    st.p.templates.zipIdx (fun x hx => by
      obtain ⟨h1, h2⟩ := ht x hx
      rw [h1, List.getElem?_eq_getElem (by omega)]
      exact ⟨_, rfl, _, rfl, rfl⟩)
  refine ⟨bs.flatten, by unfold BPProblem.templatesWithStock; rw [e]; rfl, fun t => ?_⟩
  rw [List.mem_flatten]
  constructor
  · rintro ⟨r, hr', htr⟩
    obtain ⟨x, hx, q, hq, rfl⟩ := Forall₂.exists_left hF hr'
    split_ifs at htr with h0
    · simp at htr
    · exact ⟨x.2, q, by simpa using htr, hq, Nat.pos_of_ne_zero h0⟩
  · rintro ⟨b, q, rfl, hb, hpos⟩
    have hbl := (List.getElem?_eq_some_iff.1 hb).1
    have hm : (st.p.templates[b]'(by omega), b) ∈ st.p.templates.zipIdx := by
      rw [List.mem_zipIdx_iff_getElem?]; exact List.getElem?_eq_getElem _
    obtain ⟨r, hr', q', hq', rfl⟩ := Forall₂.exists_left (R := fun r t => ∃ q, st.p.binQtys[t.2]? = some q ∧
        r = if q = 0 then [] else [LayoutIndex.template t.2]) (List.Forall₂.flip hF) hm
    refine ⟨_, hr', ?_⟩
    rw [hb] at hq'
    obtain rfl := Option.some.inj hq'
    rw [if_neg (by omega)]
    simp

/-- Non-trivial instance for C19 and C20: two layouts in use, no bin left, and one
copy of each item placed. -/
example : ∃ st : BPState ℚ 2, st.Reachable Ex.env ∧ st.p.layouts.length = 2 ∧ st.p.missing = [2, 1] ∧ st.p.binQtys = [0] ∧
    (BPOp.remove (.real 1) ⟨0, 1⟩ true).Pre Ex.env st := by
  obtain ⟨st, hst⟩ : ∃ st, Ex.bpAfter Ex.bpOps = some st := Option.isSome_iff_exists.1 (by decide +kernel)
  have h : (Ex.bpAfter Ex.bpOps).map (fun st => (st.p.layouts.length, st.p.missing, st.p.binQtys,
      Ex.bpPreB st (.remove (.real 1) ⟨0, 1⟩ true))) = some (2, [2, 1], [0], true) := by decide +kernel
  rw [hst] at h
  simp only [Option.map_some, Option.some.injEq, Prod.mk.injEq] at h
  exact ⟨st, Ex.bpAfter_reachable hst, h.1, h.2.1, h.2.2.1, Ex.bpPreB_pre h.2.2.2⟩

/-! ## C21 Creating a solution from the previous one -/

/-- C21: with the last created or restored solution as hint, a solution has the
same id, quantities, bin stock and usage as without a hint, and its snapshots
agree one by one in id, bin, placed items (with keys), usage and in the hazards
they hold, up to the order of the hazards and the addresses of the shapes. The
problem's layouts are the same afterwards, and answer alike. -/
theorem C21_incremental {env : Env K} {st : BPState K n} (hr : st.Reachable env) {o : Solution K n} (ho : o ∈ st.sols)
    (href : st.p.refSolution = some o.id) :
    ∃ s₁ p₁ s₂ p₂, st.p.createSolution (some o) = some (s₁, p₁) ∧ st.p.createSolution none = some (s₂, p₂) ∧
      s₁.id = s₂.id ∧ s₁.usage = s₂.usage ∧ s₁.placed = s₂.placed ∧ s₁.target = s₂.target ∧ s₁.binQtys = s₂.binQtys ∧
      List.Forall₂ (fun a b => a.id = b.id ∧ a.bin = b.bin ∧ a.placed = b.placed ∧ a.usage = b.usage ∧
        (a.cdeSnapshot.map fun h => (h.entity, h.shape.val, h.active)).Perm
          (b.cdeSnapshot.map fun h => (h.entity, h.shape.val, h.active))) s₁.snapshots s₂.snapshots ∧
      List.Forall₂ (fun a b => a.id = b.id ∧ a.bin = b.bin ∧ a.placed = b.placed ∧ SameAnswers env.f a.cde b.cde)
        p₁.layouts p₂.layouts ∧ p₁.missing = p₂.missing ∧ p₁.binQtys = p₂.binQtys := by
  have h := hr.inv
  obtain ⟨rs₁, s₁, p₁, F1, e1, hp1, hs1, i1⟩ := h.createSolution (some o) (by rintro _ ⟨⟩; exact ⟨ho, href⟩)
  obtain ⟨rs₂, s₂, p₂, F2, e2, hp2, hs2, i2⟩ := h.createSolution none (by simp)
  have comb : ∀ {ls : List (Layout K n)} {a b : List (Layout K n × LayoutSnapshot K n)}, List.Forall₂ (SnapRel env st.p.inst) ls a →
      List.Forall₂ (SnapRel env st.p.inst) ls b →
      List.Forall₂ (fun x y => ∃ l, SnapRel env st.p.inst l x ∧ SnapRel env st.p.inst l y) a b := by
    intro ls a b ha
    induction ha generalizing b with
    | nil => intro hb; cases hb; exact .nil
    | cons hx _ ih => intro hb; cases hb with | cons hy hb => exact .cons ⟨_, hx, hy⟩ (ih hb)
  have F := comb F1 F2
  have hv : ∀ x y, (∃ l, SnapRel env st.p.inst l x ∧ SnapRel env st.p.inst l y) →
      (x.1.id = y.1.id ∧ x.1.bin = y.1.bin ∧ x.1.placed = y.1.placed) ∧
      (x.2.id = y.2.id ∧ x.2.bin = y.2.bin ∧ x.2.placed = y.2.placed ∧ x.2.usage = y.2.usage) := by
    rintro x y ⟨l, hx, hy⟩
    have a := hx.view.trans hy.view.symm
    have b := hx.snapView.trans hy.snapView.symm
    simp only [Layout.view, LayoutSnapshot.view, Prod.mk.injEq] at a b
    exact ⟨a, b.1, b.2.1, b.2.2, hx.usage.trans hy.usage.symm⟩
  have hu : problemUsage (rs₁.map (·.1)) = problemUsage (rs₂.map (·.1)) := by
    unfold problemUsage
    simp only [List.map_map]
    rw [Forall₂.map_eq F (f := (fun l : Layout K n => l.bin.area * l.usage) ∘ fun x => x.1)
        (g := (fun l : Layout K n => l.bin.area * l.usage) ∘ fun x => x.1) ?_,
      Forall₂.map_eq F (f := (fun l : Layout K n => l.bin.area) ∘ fun x => x.1)
        (g := (fun l : Layout K n => l.bin.area) ∘ fun x => x.1) ?_]
    · intro x y hxy
      obtain ⟨⟨_, e2, _⟩, _⟩ := hv x y hxy
      show x.1.bin.area = y.1.bin.area
      rw [e2]
    · intro x y hxy
      obtain ⟨⟨_, e2, e3⟩, _⟩ := hv x y hxy
      show x.1.bin.area * x.1.usage = y.1.bin.area * y.1.usage
      unfold Layout.usage
      rw [e2, e3]
  refine ⟨s₁, p₁, s₂, p₂, e1, e2, ?_⟩
  subst hp1 hs1 hp2 hs2
  refine ⟨rfl, hu, rfl, rfl, rfl, ?_, ?_, rfl, rfl⟩
  · dsimp only
    rw [List.forall₂_map_left_iff, List.forall₂_map_right_iff]
    refine F.imp fun x y hxy => ?_
    obtain ⟨_, b1, b2, b3, b4⟩ := hv x y hxy
    refine ⟨b1, b2, b3, b4, ?_⟩
    obtain ⟨l, hx, hy⟩ := hxy
    have hp := perm_of_consistent hx.snap.valid.cons hy.snap.valid.cons
      (hx.snap.valid.ents.trans (by rw [b3]; exact hy.snap.valid.ents.symm))
    have hp := hp.map fun h => (h.entity, h.shape.val, h.active)
    rw [List.map_map, List.map_map] at hp
    exact hp
  · dsimp only
    rw [List.forall₂_map_left_iff, List.forall₂_map_right_iff]
    refine F.imp fun x y hxy => ?_
    obtain ⟨⟨a1, a2, a3⟩, _⟩ := hv x y hxy
    refine ⟨a1, a2, a3, ?_⟩
    obtain ⟨l, hx, hy⟩ := hxy
    exact (hx.layout.inv.same hy.layout.inv a2 (by rw [a3])).same.answers

/-- Non-trivial instance for C21: since the last solution an item was added to one
layout, another layout was emptied and a third was left alone. -/
example : ∃ (st : BPState ℚ 2) (o : Solution ℚ 2), st.Reachable Ex.env ∧ o ∈ st.sols ∧ st.p.refSolution = some o.id ∧
    o.snapshots.length = 2 ∧ st.p.layouts.length = 1 ∧ st.p.unmodified = [] := by
  obtain ⟨st, hst⟩ : ∃ st, Ex.bpAfter Ex.bpOps2 = some st := Option.isSome_iff_exists.1 (by decide +kernel)
  have h : (Ex.bpAfter Ex.bpOps2).map (fun st => (st.sols.map (fun o => (o.id, o.snapshots.length)), st.p.refSolution,
      st.p.layouts.length, st.p.unmodified)) = some ([(1, 2)], some 1, 1, []) := by decide +kernel
  rw [hst] at h
  simp only [Option.map_some, Option.some.injEq, Prod.mk.injEq] at h
  obtain ⟨h1, h2, h3, h4⟩ := h
  obtain ⟨o, ho, he⟩ := List.map_eq_singleton_iff.1 h1
  simp only [Prod.mk.injEq] at he
  exact ⟨st, o, Ex.bpAfter_reachable hst, by rw [ho]; simp, by rw [h2, he.1], he.2, h3, h4⟩

/-! ## C22 Restoring a solution -/

/-- C22: whatever happens after a solution was created, restoring it succeeds and
brings back the layouts (ids, bins, placed items with keys) up to their order,
the missing quantities and the bin stock of that moment; each layout answers
collision queries as before. With overflow checks the solution must not exceed
the demand, see `C22_overplaced_solution_panics`. -/
theorem C22_restore {env : Env K} {st st₁ st₂ : BPState K n} (hr : st.Reachable env) {hint : Option ℕ}
    (hpre : (BPOp.solution (K := K) (n := n) hint).Pre env st)
    (hsol : (BPOp.solution hint).run env st = some st₁) {ops : List (BPOp K n)} (hrun : BPRun env st₁ ops st₂)
    (hoc : env.overflowChecks = true → ∀ (i : ℕ) (x : Item K × ℕ), st.p.inst.items[i]? = some x → copies st.p.layouts i ≤ x.2) :
    ∃ st₃, (BPOp.restore st.sols.length).run env st₂ = some st₃ ∧ st₃.Reachable env ∧
      (st₃.p.layouts.map fun l => (l.id, l.bin, l.placed)).Perm (st.p.layouts.map fun l => (l.id, l.bin, l.placed)) ∧
      st₃.p.missing = st.p.missing ∧ st₃.p.binQtys = st.p.binQtys ∧
      ∀ l₃ ∈ st₃.p.layouts, ∃ l ∈ st.p.layouts, l.id = l₃.id ∧ l.bin = l₃.bin ∧ l.placed = l₃.placed ∧
        SameAnswers env.f l₃.cde l.cde := by
  have h := hr.inv
  -- the solution
  have hnew : ∃ o : Option (Solution K n), (∀ s, o = some s → s ∈ st.sols ∧ st.p.refSolution = some s.id) ∧
      (BPOp.solution hint).run env st = (st.p.createSolution o).map fun r => ⟨r.2, st.sols ++ [r.1]⟩ := by
    cases hint with
    | none => exact ⟨none, by simp, rfl⟩
    | some j =>
      obtain ⟨s, hs, he⟩ := hpre j rfl
      refine ⟨some s, by rintro _ ⟨⟩; exact ⟨List.mem_of_getElem? hs, he⟩, ?_⟩
      unfold BPOp.run
      dsimp only
      rw [hs]
  obtain ⟨o, ho, hrun0⟩ := hnew
  obtain ⟨rs, sol, p', F, e1, hp', hs', i1⟩ := h.createSolution o ho
  rw [hrun0, e1, Option.map_some, Option.some.injEq] at hsol
  subst hsol
  obtain ⟨i2, hinst, t, ht⟩ := hrun.inv i1
  have hget : st₂.sols[st.sols.length]? = some sol := by rw [ht]; simp
  have hinst : st₂.p.inst = st.p.inst := by rw [hinst, hp']
  have hoc2 : env.overflowChecks = true → ∀ (i : ℕ) (x : Item K × ℕ) (c : ℕ), st₂.p.inst.items[i]? = some x →
      sol.placed[i]? = some c → c ≤ x.2 := by
    intro h1 i x c hx hc
    rw [hinst] at hx
    rw [hs'] at hc
    dsimp only at hc
    rw [BPInstance.qtys, placedQtys_spec h.missing i, hx, Option.map_some, Option.some.injEq] at hc
    rw [← hc]
    exact hoc h1 i x hx
  obtain ⟨ls, m, hperm, e3, i3⟩ := i2.restore (List.mem_of_getElem? hget) hoc2
  have hstep : (BPOp.restore st.sols.length).run env st₂ = some ⟨{ st₂.p with
      layouts := ls, missing := m, binQtys := sol.binQtys, removed := [], unmodified := ls.map (·.id), refSolution := some sol.id },
      st₂.sols⟩ := by
    unfold BPOp.run; dsimp only; rw [hget]; dsimp only; rw [e3]; rfl
  have hview : (ls.map Layout.view).Perm (st.p.layouts.map Layout.view) := by
    refine hperm.trans ?_
    rw [hs']
    dsimp only
    rw [List.map_map]
    rw [← Forall₂.map_eq F (f := Layout.view) (g := LayoutSnapshot.view ∘ fun r => r.2) fun a b r => r.snapView.symm]
  have hpre3 : (BPOp.restore (K := K) (n := n) st.sols.length).Pre env st₂ := ⟨sol, hget, hoc2⟩
  refine ⟨_, hstep, ?_, hview, ?_, ?_, ?_⟩
  · refine hr.run (ops := BPOp.solution hint :: (ops ++ [.restore st.sols.length]))
      (.cons hpre (hrun0.trans (by rw [e1]; rfl)) (hrun.append (.cons hpre3 hstep (.nil _))))
  · have h3 := i3.missing
    dsimp only at h3 ⊢
    have hc : copies ls = copies st.p.layouts := by
      funext i
      rw [copies_view, copies_view]
      exact (hview.map _).sum_eq
    rw [hc, hinst] at h3
    exact h3.unique h.missing
  · dsimp only
    rw [hs']
  · intro l₃ hl₃
    obtain ⟨l, hl, hv⟩ := List.mem_map.1 (hview.mem_iff.1 (List.mem_map_of_mem (f := Layout.view) hl₃))
    have hv' := hv
    simp only [Layout.view, Prod.mk.injEq] at hv'
    have a := i3.layouts l₃ hl₃
    dsimp only at a
    rw [hinst] at a
    exact ⟨l, hl, hv'.1, hv'.2.1, hv'.2.2, (a.inv.same (h.layouts l hl).inv hv'.2.1.symm (by rw [hv'.2.2])).same.answers⟩

/-- C22: the order of the layouts is not always brought back: layout 0 is emptied
and restored behind layout 1. -/
theorem C22_order_may_change : ∃ st st' : BPState ℚ 2, st.Reachable Ex.env ∧
    BPRun Ex.env st [.solution none, .remove (.real 0) ⟨0, 1⟩ true, .restore 0] st' ∧
    st.p.layouts.map (·.id) = [2, 3] ∧ st'.p.layouts.map (·.id) = [3, 2] := by
  obtain ⟨st, hst⟩ : ∃ st, Ex.bpAfter Ex.bpOps = some st := Option.isSome_iff_exists.1 (by decide +kernel)
  have hs : ((Ex.bpAfter Ex.bpOps).bind fun st => (Ex.bpRun [.solution none, .remove (.real 0) ⟨0, 1⟩ true, .restore 0] st).map
      fun st' => (st.p.layouts.map (·.id), st'.p.layouts.map (·.id))) = some ([2, 3], [3, 2]) := by decide +kernel
  rw [hst, Option.bind_some] at hs
  obtain ⟨st', h', he⟩ := Option.map_eq_some_iff.1 hs
  simp only [Prod.mk.injEq] at he
  exact ⟨st, st', Ex.bpAfter_reachable hst, Ex.bpRun_run h', he.1, he.2⟩

/-- C22 needs the condition on the demand: `place_item` accepts more copies than
demanded, and then restoring the solution panics with overflow checks. -/
theorem C22_overplaced_solution_panics : ∃ (st : BPState ℚ 2) (s : Solution ℚ 2), st.Reachable Ex.env ∧ st.sols[0]? = some s ∧
    st.p.missing = [3, -1] ∧ st.p.restore Ex.env s = none := by
  let ops : List (BPOp ℚ 2) := [.place 1 ⟨.template 0, 1, Ex.shift 2 5⟩, .place 2 ⟨.real 0, 1, Ex.shift 2 2⟩,
    .place 3 ⟨.real 0, 1, Ex.shift 6 2⟩, .solution none]
  obtain ⟨st, hst⟩ : ∃ st, Ex.bpAfter ops = some st := Option.isSome_iff_exists.1 (by decide +kernel)
  have h : (Ex.bpAfter ops).bind (fun st => st.sols[0]?.map fun s => (st.p.missing, (st.p.restore Ex.env s).isNone))
      = some ([3, -1], true) := by decide +kernel
  rw [hst, Option.bind_some] at h
  obtain ⟨s, hs, he⟩ := Option.map_eq_some_iff.1 h
  simp only [Prod.mk.injEq, Option.isNone_iff_eq_none] at he
  exact ⟨st, s, Ex.bpAfter_reachable hst, hs, he.1, he.2⟩

/-- Non-trivial instance for C22: after the solution, an item is placed in one
layout and another layout is emptied. -/
example : ∃ st st₁ st₂ : BPState ℚ 2, st.Reachable Ex.env ∧ (BPOp.solution none).run Ex.env st = some st₁ ∧
    BPRun Ex.env st₁ [.place 3 ⟨.real 0, 1, Ex.shift 6 2⟩, .remove (.real 1) ⟨0, 1⟩ false] st₂ ∧
    (∀ (i : ℕ) (x : Item ℚ × ℕ), st.p.inst.items[i]? = some x → copies st.p.layouts i ≤ x.2) ∧
    st.p.layouts.length = 2 ∧ st₂.p.layouts.length = 1 := by
  obtain ⟨st, hst⟩ : ∃ st, Ex.bpAfter Ex.bpOps = some st := Option.isSome_iff_exists.1 (by decide +kernel)
  have hs : ((Ex.bpAfter Ex.bpOps).bind fun st => ((BPOp.solution none).run Ex.env st).bind fun st₁ =>
      (Ex.bpRun [.place 3 ⟨.real 0, 1, Ex.shift 6 2⟩, .remove (.real 1) ⟨0, 1⟩ false] st₁).map
      fun st' => (st.p.layouts.length, st'.p.layouts.length, st.p.missing)) = some (2, 1, [2, 1]) := by decide +kernel
  rw [hst, Option.bind_some] at hs
  obtain ⟨st₁, h1, hs⟩ := Option.bind_eq_some_iff.1 hs
  obtain ⟨st₂, h2, he⟩ := Option.map_eq_some_iff.1 hs
  simp only [Prod.mk.injEq] at he
  have hr := Ex.bpAfter_reachable hst
  refine ⟨st, st₁, st₂, hr, h1, Ex.bpRun_run h2, fun i x hx => ?_, he.1, he.2.1⟩
  have := (C19_demand hr).2 i x hx
  rw [he.2.2] at this
  have hi := (List.getElem?_eq_some_iff.1 this).1
  match i, hi with
  | 0, _ => simp at this; omega
  | 1, _ => simp at this; omega

/-! ## C49 The handle returned by placing an item -/

/-- C49: placing an item in an existing layout returns that layout and a key that
was free; the key then leads to the item, moved as asked. The layout keeps its
id, bin and its other items with their keys, and no other layout changes. -/
theorem C49_place_in_layout {env : Env K} {st : BPState K n} (hr : st.Reachable env) (addr : ℕ) {i id : ℕ} {dt : DTransf K}
    {l : Layout K n} (hl : st.p.layouts[i]? = some l) {x : Item K × ℕ} (hx : st.p.inst.items[id]? = some x)
    (hnew : ∀ pi ∈ l.placed.values, ¬ (pi.itemId = id ∧ pi.dt = dt)) :
    ∃ key p' l' pi, st.p.placeItem env addr ⟨.real i, id, dt⟩ = some ((.real i, key), p') ∧
      p'.layouts = st.p.layouts.set i l' ∧ l'.id = l.id ∧ l'.bin = l.bin ∧
      l.placed.get? key = none ∧ l'.placed.get? key = some pi ∧ pi.itemId = id ∧ pi.dt = dt ∧
      pi.shape.val = x.1.shape.transform (Transf.fromDt env.tr dt) ∧
      l'.placed.values.Perm (pi :: l.placed.values) ∧ ∀ k b, l.placed.get? k = some b → l'.placed.get? k = some b := by
  have h := hr.inv
  have hin := h.layouts l (List.mem_of_getElem? hl)
  have hid := (List.getElem?_eq_some_iff.1 hx).1
  obtain ⟨c1, c2⟩ := catOf_id h.built.ids hx
  have hcat : st.p.inst.cat id = x.1 := by rw [← c1]; exact c2.symm
  obtain ⟨k, l', m, e1, e2, _⟩ := h.placeReal addr hl hid hnew
  obtain ⟨k2, l2, f1, f2, f3, f4, f5, f6, f7⟩ := hin.inv.placeItem addr (item := x.1) (dt := dt) c2 (by
    intro pi hpi; rw [c1]; exact hnew pi hpi)
  rw [hcat, f1, Option.some.injEq, Prod.mk.injEq] at e1
  obtain ⟨rfl, rfl⟩ := e1
  obtain ⟨w1, w2, w3, w4, w5⟩ := SlotMap.insert_spec hin.inv.slots (PlacedItem.new env addr x.1 dt)
  rw [← f5, ← f6] at w2 w5
  rw [← f6] at w3
  refine ⟨k2, _, l2, PlacedItem.new env addr x.1 dt, e2, rfl, f3, f4, w3, w2, c1, rfl, rfl, f7, fun k b hk => ?_⟩
  exact w5 k (by rintro rfl; rw [w3] at hk; cases hk) b hk

/-- C49: placing an item in a bin type that is in stock opens a new layout in
that bin, behind the others, with an id that no layout had before; the returned
handle leads to the item, the only one in it. -/
theorem C49_place_in_new_layout {env : Env K} {st : BPState K n} (hr : st.Reachable env) (addr : ℕ) {i id q : ℕ} {dt : DTransf K}
    (hq : st.p.binQtys[i]? = some q) (hpos : 0 < q) {x : Item K × ℕ} (hx : st.p.inst.items[id]? = some x) :
    ∃ key p' l' pi, st.p.placeItem env addr ⟨.template i, id, dt⟩ = some ((.real st.p.layouts.length, key), p') ∧
      p'.layouts = st.p.layouts ++ [l'] ∧ (∀ y ∈ st.known, y.1 ≠ l'.id) ∧
      (∃ k, st.p.inst.bins[i]? = some (l'.bin, k)) ∧
      l'.placed.get? key = some pi ∧ pi.itemId = id ∧ pi.dt = dt ∧
      pi.shape.val = x.1.shape.transform (Transf.fromDt env.tr dt) ∧ l'.placed.values = [pi] := by
  have h := hr.inv
  have hid := (List.getElem?_eq_some_iff.1 hx).1
  obtain ⟨c1, c2⟩ := catOf_id h.built.ids hx
  have hcat : st.p.inst.cat id = x.1 := by rw [← c1]; exact c2.symm
  obtain ⟨m, b, bin, k, key, l', m', e1, e2, e3, e4, e5⟩ := h.placeTemplate addr (dt := dt) hq hpos hid
  have hin := e3.layouts (Layout.new (st.p.layoutCounter + 1) bin) (by simp)
  obtain ⟨k2, l2, f1, f2, f3, f4, f5, f6, f7⟩ := hin.inv.placeItem addr (item := x.1) (dt := dt) c2 (by
    simp [Layout.new, SlotMap.empty, SlotMap.values])
  rw [hcat, f1, Option.some.injEq, Prod.mk.injEq] at e2
  obtain ⟨rfl, rfl⟩ := e2
  obtain ⟨w1, w2, w3, w4, w5⟩ := SlotMap.insert_spec hin.inv.slots (PlacedItem.new env addr x.1 dt)
  rw [← f5, ← f6] at w2
  refine ⟨k2, _, l2, PlacedItem.new env addr x.1 dt, e4, rfl, ?_, ⟨k, by rw [f4]; exact e1⟩, w2, c1, rfl, rfl, ?_⟩
  · intro y hy he
    have := h.fresh y hy
    rw [he, f3] at this
    simp [Layout.new] at this
  · have : (Layout.new (st.p.layoutCounter + 1) bin).placed.values = [] := by simp [Layout.new, SlotMap.empty, SlotMap.values]
    rw [this] at f7
    exact List.perm_singleton.1 f7

/-- C49: removing by the handle of an item gives the item's number and
transformation. If the layout holds other items, it keeps them with their keys
and no other layout changes; otherwise exactly that layout disappears. -/
theorem C49_remove {env : Env K} {st : BPState K n} (hr : st.Reachable env) {i : ℕ} {key : SlotKey} {l : Layout K n}
    {pi : PlacedItem K} (hl : st.p.layouts[i]? = some l) (hk : l.placed.get? key = some pi) (ci : Bool) :
    ∃ p', st.p.removeItem env (.real i) key ci = some (⟨.real i, pi.itemId, pi.dt⟩, p') ∧
      ((l.placed.values = [pi] ∧ p'.layouts = st.p.layouts.eraseIdx i) ∨
       (2 ≤ l.placed.values.length ∧ ∃ l', p'.layouts = st.p.layouts.set i l' ∧ l'.id = l.id ∧ l'.bin = l.bin ∧
        l'.placed.get? key = none ∧ (∀ k, k ≠ key → l'.placed.get? k = l.placed.get? k) ∧
        l.placed.values.Perm (pi :: l'.placed.values))) := by
  have h := hr.inv
  have hin := h.layouts l (List.mem_of_getElem? hl)
  obtain ⟨l', m, b, e1, e2, e3, e4, e5, e6, e7⟩ := h.remove hl hk ci
  obtain ⟨m2, w1, w2, w3, w4, w5⟩ := SlotMap.remove_spec hin.inv.slots hk
  rw [w1, Option.some.injEq, Prod.mk.injEq] at e6
  have e6 := e6.2
  subst e6
  by_cases hem : l'.isEmpty = true
  · rw [if_pos hem] at e7
    refine ⟨_, e7.1, .inl ⟨?_, rfl⟩⟩
    unfold Layout.isEmpty at hem
    rw [List.isEmpty_iff] at hem
    rw [hem] at e5
    exact List.perm_singleton.1 e5
  · rw [if_neg (by simpa using hem)] at e7
    refine ⟨_, e7.1, .inr ⟨?_, l', rfl, e3, e4, w3, w5, e5⟩⟩
    rw [e5.length_eq, List.length_cons]
    unfold Layout.isEmpty at hem
    have : l'.placed.values ≠ [] := by simpa using hem
    have := List.length_pos_iff.2 this
    omega

/-- Non-trivial instance for C49: there is a layout with two items and a bin left. -/
example : ∃ (st : BPState ℚ 2) (l : Layout ℚ 2) (pi : PlacedItem ℚ) (x : Item ℚ × ℕ), st.Reachable Ex.env ∧
    st.p.layouts[0]? = some l ∧ l.placed.values.length = 2 ∧ l.placed.get? ⟨1, 1⟩ = some pi ∧ st.p.binQtys[0]? = some 1 ∧
    st.p.inst.items[0]? = some x ∧ ∀ pi ∈ l.placed.values, ¬ (pi.itemId = 0 ∧ pi.dt = Ex.shift 4 4) := by
  obtain ⟨st, hst⟩ : ∃ st, Ex.bpAfter Ex.bpOps2 = some st := Option.isSome_iff_exists.1 (by decide +kernel)
  have h : (Ex.bpAfter Ex.bpOps2).bind (fun st => st.p.layouts[0]?.bind fun l => (l.placed.get? ⟨1, 1⟩).bind fun _ =>
      (st.p.inst.items[0]?).map fun _ => (st.p.binQtys[0]?, l.placed.values.length, decide (∀ pi ∈ l.placed.values, ¬ (pi.itemId = 0 ∧ pi.dt = Ex.shift 4 4))))
      = some (some 1, 2, true) := by decide +kernel
  rw [hst, Option.bind_some] at h
  obtain ⟨l, hl, h⟩ := Option.bind_eq_some_iff.1 h
  obtain ⟨pi, hpi, h⟩ := Option.bind_eq_some_iff.1 h
  obtain ⟨x, hx, h⟩ := Option.map_eq_some_iff.1 h
  simp only [Prod.mk.injEq, decide_eq_true_eq] at h
  exact ⟨st, l, pi, x, Ex.bpAfter_reachable hst, hl, h.2.1, hpi, h.1, hx, h.2.2⟩

/-! ## C23 Undoing a removal -/

/-- C23 for items that are not the last in their layout: placing with the
returned option brings back missing quantities, stock, all layouts with their
ids and bins, the items of the layout up to order, keys and addresses, and its
answers. What is missing: the last item of a layout, for which it is false, see
`C23_last_item_option_is_stale`, `C23_fails_panic` and `C23_fails_other_layout`. -/
theorem C23_undo_partial {env : Env K} {st : BPState K n} (hr : st.Reachable env) {i : ℕ} {key : SlotKey} {l : Layout K n}
    {pi : PlacedItem K} (hl : st.p.layouts[i]? = some l) (hk : l.placed.get? key = some pi) (ci : Bool)
    (hlen : 2 ≤ l.placed.values.length) (addr : ℕ) :
    ∃ opt p' k p'' l'', st.p.removeItem env (.real i) key ci = some (opt, p') ∧
      p'.placeItem env addr opt = some ((.real i, k), p'') ∧ p''.missing = st.p.missing ∧ p''.binQtys = st.p.binQtys ∧
      p''.layouts = st.p.layouts.set i l'' ∧ l''.id = l.id ∧ l''.bin = l.bin ∧
      (l''.placed.values.map fun pi => (pi.itemId, pi.dt, pi.hazardFilter, pi.shape.val)).Perm
        (l.placed.values.map fun pi => (pi.itemId, pi.dt, pi.hazardFilter, pi.shape.val)) ∧
      SameAnswers env.f l''.cde l.cde := by
  have h := hr.inv
  have hmem := List.mem_of_getElem? hl
  have hin := h.layouts l hmem
  have hilt := (List.getElem?_eq_some_iff.1 hl).1
  obtain ⟨l', m, b, e1, e2, e3, e4, e5, e6, e7⟩ := h.remove hl hk ci
  have hem : l'.isEmpty = false := by
    unfold Layout.isEmpty
    rw [e5.length_eq, List.length_cons] at hlen
    cases hv : l'.placed.values with
    | nil => rw [hv] at hlen; simp at hlen
    | cons => rfl
  rw [if_neg (by simp [hem])] at e7
  obtain ⟨e7, e8⟩ := e7
  have hpi : pi ∈ l.placed.values := e5.mem_iff.2 List.mem_cons_self
  have hlid := hin.items pi hpi
  have hnd := hin.inv.nodup
  rw [(e5.map PlacedItem.entity).nodup_iff, List.map_cons, List.nodup_cons] at hnd
  have hl' : (st.p.layouts.set i l')[i]? = some l' := by simp [hilt]
  have hnew : ∀ p ∈ l'.placed.values, ¬ (p.itemId = pi.itemId ∧ p.dt = pi.dt) := by
    rintro p hp ⟨q1, q2⟩
    refine hnd.1 (List.mem_map.2 ⟨p, hp, ?_⟩)
    unfold PlacedItem.entity
    rw [q1, q2]
  obtain ⟨k, l'', m', f1, f2, f3⟩ := e8.placeReal addr (i := i) (dt := pi.dt) hl' hlid hnew
  obtain ⟨x, hx⟩ : ∃ x, st.p.inst.items[pi.itemId]? = some x := ⟨_, List.getElem?_eq_getElem hlid⟩
  obtain ⟨c1, c2⟩ := catOf_id h.built.ids hx
  have hcat : st.p.inst.cat pi.itemId = x.1 := by rw [← c1]; exact c2.symm
  obtain ⟨k2, l2, g1, g2, g3, g4, g5, g6, g7⟩ := e2.inv.placeItem addr (item := x.1) (dt := pi.dt) c2 (by
    intro p hp; rw [c1]; exact hnew p hp)
  dsimp only at f1
  rw [hcat, g1, Option.some.injEq, Prod.mk.injEq] at f1
  obtain ⟨rfl, rfl⟩ := f1
  have hperm : (l2.placed.values.map PlacedItem.entity).Perm (l.placed.values.map PlacedItem.entity) := by
    refine (g7.map _).trans (List.Perm.trans ?_ (e5.map _).symm)
    rw [List.map_cons, List.map_cons]
    have : (PlacedItem.new env addr x.1 pi.dt).entity = pi.entity := by
      unfold PlacedItem.entity PlacedItem.new; rw [c1]
    rw [this]
  have hcop : copies ((st.p.layouts.set i l').set i l2) = copies st.p.layouts := by
    funext j
    rw [List.set_set, copies_perm (perm_set hilt l2), copies_perm (perm_of_getElem? hl), copies_cons, copies_cons]
    congr 1
    have := hperm.countP_eq (fun e => match e with | .placedItem id _ => decide (id = j) | _ => false)
    rw [List.countP_map, List.countP_map] at this
    exact this
  refine ⟨_, _, k2, _, l2, e7, f2, ?_, rfl, ?_, g3.trans e3, g4.trans e4, ?_, ?_⟩
  · have hm := f3.missing
    dsimp only at hm ⊢
    rw [hcop] at hm
    exact hm.unique h.missing
  · dsimp only; rw [List.set_set]
  · have key : ∀ (ll : Layout K n), ll.Inv env st.p.inst.cat →
        (ll.placed.values.map fun pi => (pi.itemId, pi.dt, pi.hazardFilter, pi.shape.val)) =
        (ll.placed.values.map PlacedItem.entity).map fun e => match e with
          | .placedItem id dt => (id, dt, (st.p.inst.cat id).hazardFilter, (st.p.inst.cat id).shape.transform (Transf.fromDt env.tr dt))
          | _ => (pi.itemId, pi.dt, pi.hazardFilter, pi.shape.val) := by
      intro ll hll
      rw [List.map_map]
      refine List.map_congr_left fun p hp => ?_
      obtain ⟨o1, o2⟩ := hll.ok p hp
      show _ = (_, _, _, _)
      rw [o1, o2]
    rw [key l2 g2, key l hin.inv]
    exact hperm.map _
  · exact (g2.same hin.inv (g4.trans e4) hperm).same.answers

/-- C23 fails for the last item of a layout: the layout disappears, so the index
in the returned option is that of the next layout, or of none. -/
theorem C23_last_item_option_is_stale {env : Env K} {st : BPState K n} (hr : st.Reachable env) {i : ℕ} {key : SlotKey}
    {l : Layout K n} {pi : PlacedItem K} (hl : st.p.layouts[i]? = some l) (hk : l.placed.get? key = some pi) (ci : Bool)
    (hlen : l.placed.values.length = 1) (addr : ℕ) :
    ∃ opt p', st.p.removeItem env (.real i) key ci = some (opt, p') ∧ p'.getLayout opt.layoutIdx = st.p.layouts[i + 1]? ∧
      (i + 1 = st.p.layouts.length → p'.placeItem env addr opt = none) := by
  obtain ⟨p', e, h⟩ := C49_remove hr hl hk ci
  rcases h with ⟨_, h⟩ | ⟨h, _⟩
  · refine ⟨_, p', e, ?_, fun hi => ?_⟩
    · unfold BPProblem.getLayout
      dsimp only
      rw [h, List.getElem?_eraseIdx, if_neg (by omega)]
    · unfold BPProblem.placeItem BPProblem.targetLayout
      dsimp only
      rw [Option.bind_some]
      dsimp only
      have : p'.layouts[i]? = none := by
        rw [h, List.getElem?_eraseIdx, if_neg (by omega), List.getElem?_eq_none (by omega)]
      rw [this]
  · omega

/-- C23: after removing the last item of a layout, placing it in the bin type of
that layout instead works, and brings back missing quantities, stock and a
layout with that bin and item and the same answers. -/
theorem C23_last_item_by_template {env : Env K} {st : BPState K n} (hr : st.Reachable env) {i : ℕ} {key : SlotKey}
    {l : Layout K n} {pi : PlacedItem K} (hl : st.p.layouts[i]? = some l) (hk : l.placed.get? key = some pi) (ci : Bool)
    (hlen : l.placed.values.length = 1) (addr : ℕ) :
    ∃ opt p' k p'' l'', st.p.removeItem env (.real i) key ci = some (opt, p') ∧
      p'.placeItem env addr { opt with layoutIdx := .template l.bin.id } = some ((.real (st.p.layouts.length - 1), k), p'') ∧
      p''.missing = st.p.missing ∧ p''.binQtys = st.p.binQtys ∧ p''.layouts = st.p.layouts.eraseIdx i ++ [l''] ∧
      l''.bin = l.bin ∧
      (l''.placed.values.map fun pi => (pi.itemId, pi.dt, pi.shape.val)) =
        (l.placed.values.map fun pi => (pi.itemId, pi.dt, pi.shape.val)) ∧
      SameAnswers env.f l''.cde l.cde := by
  have h := hr.inv
  have hmem := List.mem_of_getElem? hl
  have hin := h.layouts l hmem
  have hilt := (List.getElem?_eq_some_iff.1 hl).1
  obtain ⟨l', m, b, e1, e2, e3, e4, e5, e6, e7⟩ := h.remove hl hk ci
  have hv' : l'.placed.values = [] := by
    rw [e5.length_eq, List.length_cons] at hlen
    exact List.eq_nil_of_length_eq_zero (by omega)
  have hv : l.placed.values = [pi] := by rw [hv'] at e5; exact List.perm_singleton.1 e5
  rw [if_pos (by unfold Layout.isEmpty; rw [hv']; rfl)] at e7
  obtain ⟨e7, e8⟩ := e7
  have hlid := hin.items pi (by rw [hv]; simp)
  obtain ⟨q0, hq0⟩ := hin.bin
  have hs := e8.stock l.bin.id
  dsimp only at hs
  rw [hq0, Option.map_some] at hs
  obtain ⟨q, hq, hqe⟩ := Option.map_eq_some_iff.1 hs
  have hs0 := h.stock l.bin.id
  rw [hq0, Option.map_some] at hs0
  obtain ⟨q1, hq1, hqe1⟩ := Option.map_eq_some_iff.1 hs0
  have hpos : 0 < q := by
    rw [binsUsed_split hl, if_pos rfl] at hqe1
    dsimp only at hqe hqe1
    omega
  obtain ⟨m1, b1, bin, k, kk, l2, m', f1, f2, f3, f4, f5⟩ := e8.placeTemplate addr (dt := pi.dt) hq hpos hlid
  dsimp only at f1 f2 f3 f4 f5
  rw [hq0, Option.some.injEq, Prod.mk.injEq] at f1
  obtain ⟨rfl, rfl⟩ := f1
  obtain ⟨x, hx⟩ : ∃ x, st.p.inst.items[pi.itemId]? = some x := ⟨_, List.getElem?_eq_getElem hlid⟩
  obtain ⟨c1, c2⟩ := catOf_id h.built.ids hx
  have hcat : st.p.inst.cat pi.itemId = x.1 := by rw [← c1]; exact c2.symm
  have hnin := f3.layouts (Layout.new (st.p.layoutCounter + 1) l.bin) (by simp)
  obtain ⟨k2, l3, g1, g2, g3, g4, g5, g6, g7⟩ := hnin.inv.placeItem addr (item := x.1) (dt := pi.dt) c2 (by
    simp [Layout.new, SlotMap.empty, SlotMap.values])
  rw [hcat, g1, Option.some.injEq, Prod.mk.injEq] at f2
  obtain ⟨rfl, rfl⟩ := f2
  have hv3 : l3.placed.values = [PlacedItem.new env addr x.1 pi.dt] := by
    have : (Layout.new (st.p.layoutCounter + 1) l.bin).placed.values = [] := by simp [Layout.new, SlotMap.empty, SlotMap.values]
    rw [this] at g7
    exact List.perm_singleton.1 g7
  have hlen2 : (st.p.layouts.eraseIdx i).length = st.p.layouts.length - 1 := List.length_eraseIdx_of_lt hilt
  rw [hlen2] at f4
  have hc3 : ∀ j, copiesIn l3.placed j = copiesIn l.placed j := by
    intro j
    unfold copiesIn
    rw [hv3, hv]
    simp only [List.countP_cons, List.countP_nil, PlacedItem.new, c1]
  refine ⟨_, _, k2, _, l3, e7, f4, ?_, ?_, rfl, g4, ?_, ?_⟩
  · have hm := f5.missing
    dsimp only at hm ⊢
    refine hm.unique ?_
    rw [show copies (st.p.layouts.eraseIdx i ++ [l3]) = copies st.p.layouts from ?_]
    · exact h.missing
    · funext j
      rw [copies_split hl j, copies_perm List.perm_append_comm, List.singleton_append, copies_cons, hc3]
  · have hm := f5.stock
    dsimp only at hm ⊢
    refine hm.unique ?_
    rw [show binsUsed (st.p.layouts.eraseIdx i ++ [l3]) = binsUsed st.p.layouts from ?_]
    · exact h.stock
    · funext j
      rw [binsUsed_split hl j, binsUsed_perm List.perm_append_comm, List.singleton_append, binsUsed_cons, g4]
      rfl
  · rw [hv3, hv]
    have := (hin.inv.ok pi (by rw [hv]; simp)).2
    simp only [List.map_cons, List.map_nil, PlacedItem.new, c1]
    rw [this, hcat]
  · refine (g2.same hin.inv g4 ?_).same.answers
    rw [hv3, hv]
    simp [PlacedItem.entity, PlacedItem.new, c1]

/-- C23 fails: after removing the only item of the last layout, placing with the
returned option panics. -/
theorem C23_fails_panic : ∃ (st : BPState ℚ 2) (opt : PlacingOption ℚ) (p' : BPProblem ℚ 2), st.Reachable Ex.env ∧
    st.p.removeItem Ex.env (.real 1) ⟨0, 1⟩ true = some (opt, p') ∧ p'.placeItem Ex.env 9 opt = none := by
  obtain ⟨st, hst⟩ : ∃ st, Ex.bpAfter Ex.bpOps = some st := Option.isSome_iff_exists.1 (by decide +kernel)
  have hs : ((Ex.bpAfter Ex.bpOps).bind fun st => (st.p.removeItem Ex.env (.real 1) ⟨0, 1⟩ true).map fun r =>
      (r.2.placeItem Ex.env 9 r.1).isNone) = some true := by decide +kernel
  rw [hst, Option.bind_some] at hs
  obtain ⟨⟨opt, p'⟩, h1, h2⟩ := Option.map_eq_some_iff.1 hs
  exact ⟨st, opt, p', Ex.bpAfter_reachable hst, h1, Option.isNone_iff_eq_none.1 h2⟩

/-- C23 fails: after removing the only item of the first layout, placing with the
returned option puts it into the other layout. -/
theorem C23_fails_other_layout : ∃ (st : BPState ℚ 2) (opt : PlacingOption ℚ) (p' p'' : BPProblem ℚ 2) (h : LayoutIndex × SlotKey),
    st.Reachable Ex.env ∧ st.p.removeItem Ex.env (.real 0) ⟨0, 1⟩ true = some (opt, p') ∧
    p'.placeItem Ex.env 9 opt = some (h, p'') ∧
    st.p.layouts.map (fun l => (l.id, l.placed.values.map (·.itemId))) = [(2, [0]), (3, [1])] ∧
    p''.layouts.map (fun l => (l.id, l.placed.values.map (·.itemId))) = [(3, [1, 0])] := by
  obtain ⟨st, hst⟩ : ∃ st, Ex.bpAfter Ex.bpOps = some st := Option.isSome_iff_exists.1 (by decide +kernel)
  have hs : ((Ex.bpAfter Ex.bpOps).bind fun st => (st.p.removeItem Ex.env (.real 0) ⟨0, 1⟩ true).bind fun r =>
      (r.2.placeItem Ex.env 9 r.1).map fun r' => (st.p.layouts.map (fun l => (l.id, l.placed.values.map (·.itemId))),
        r'.2.layouts.map (fun l => (l.id, l.placed.values.map (·.itemId))))) =
      some ([(2, [0]), (3, [1])], [(3, [1, 0])]) := by decide +kernel
  rw [hst, Option.bind_some] at hs
  obtain ⟨⟨opt, p'⟩, h1, hs⟩ := Option.bind_eq_some_iff.1 hs
  obtain ⟨⟨h, p''⟩, h2, h3⟩ := Option.map_eq_some_iff.1 hs
  simp only [Prod.mk.injEq] at h3
  exact ⟨st, opt, p', p'', h, Ex.bpAfter_reachable hst, h1, h2, h3.1, h3.2⟩

/-- Non-trivial instance of the hypotheses of `C23_undo_partial`. -/
example : ∃ (st : BPState ℚ 2) (l : Layout ℚ 2) (pi : PlacedItem ℚ), st.Reachable Ex.env ∧ st.p.layouts[0]? = some l ∧
    l.placed.get? ⟨0, 1⟩ = some pi ∧ 2 ≤ l.placed.values.length := by
  obtain ⟨st, hst⟩ : ∃ st, Ex.bpAfter Ex.bpOps2 = some st := Option.isSome_iff_exists.1 (by decide +kernel)
  have h : (Ex.bpAfter Ex.bpOps2).bind (fun st => st.p.layouts[0]?.bind fun l => (l.placed.get? ⟨0, 1⟩).map fun _ =>
      l.placed.values.length) = some 2 := by decide +kernel
  rw [hst, Option.bind_some] at h
  obtain ⟨l, hl, h⟩ := Option.bind_eq_some_iff.1 h
  obtain ⟨pi, hpi, h⟩ := Option.map_eq_some_iff.1 h
  exact ⟨st, l, pi, Ex.bpAfter_reachable hst, hl, hpi, by omega⟩

/-- Non-trivial instance of the hypotheses of the theorems on last items. -/
example : ∃ (st : BPState ℚ 2) (l : Layout ℚ 2) (pi : PlacedItem ℚ), st.Reachable Ex.env ∧ st.p.layouts[1]? = some l ∧
    l.placed.get? ⟨0, 1⟩ = some pi ∧ l.placed.values.length = 1 := by
  obtain ⟨st, hst⟩ : ∃ st, Ex.bpAfter Ex.bpOps = some st := Option.isSome_iff_exists.1 (by decide +kernel)
  have h : (Ex.bpAfter Ex.bpOps).bind (fun st => st.p.layouts[1]?.bind fun l => (l.placed.get? ⟨0, 1⟩).map fun _ =>
      l.placed.values.length) = some 1 := by decide +kernel
  rw [hst, Option.bind_some] at h
  obtain ⟨l, hl, h⟩ := Option.bind_eq_some_iff.1 h
  obtain ⟨pi, hpi, h⟩ := Option.map_eq_some_iff.1 h
  exact ⟨st, l, pi, Ex.bpAfter_reachable hst, hl, hpi, h⟩

end Jagua
