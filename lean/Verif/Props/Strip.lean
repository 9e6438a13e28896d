import Verif.Lemmas.StripGeo
import Verif.Lemmas.Transf
import Verif.Spec.StripExamples

/-! # C24, C25, C22 (strips): strip packing problems -/

set_option linter.unusedSectionVars false

namespace Jagua

variable {K : Type*} [Arith K] [LinearOrder K] {n : ℕ}

/-! ## C24 Demand is conserved in strip packing -/

/-- C24: after any operations, also modifying and fitting the strip, the missing
quantity of each item is its demand minus the copies in the strip, and there is
one entry per item. -/
theorem C24_demand {env : StripEnv K} {st : SPState K n} (hr : st.Reachable env) :
    st.p.missing.length = st.p.inst.items.length ∧ ∀ (i : ℕ) (x : Item K × ℕ), st.p.inst.items[i]? = some x →
      st.p.missing[i]? = some ((x.2 : ℤ) - (st.p.layout.placed.values.filter fun pi => pi.itemId = i).length) := by
  have h := hr.inv.core.missing
  have key : ∀ (i : ℕ) (x : Item K × ℕ), st.p.inst.items[i]? = some x →
      st.p.missing[i]? = some ((x.2 : ℤ) - (st.p.layout.placed.values.filter fun pi => pi.itemId = i).length) := by
    intro i x hx
    have := h i
    rw [hx, Option.map_some] at this
    obtain ⟨a, ha, he⟩ := Option.map_eq_some_iff.1 this
    have hc : (copiesIn st.p.layout.placed i) = (st.p.layout.placed.values.filter fun pi => pi.itemId = i).length := by
      unfold copiesIn
      rw [List.countP_eq_length_filter]
    rw [ha, ← he, hc]
    congr 1
    ring
  refine ⟨?_, key⟩
  apply le_antisymm
  · by_contra hc
    have := h st.p.inst.items.length
    rw [List.getElem?_eq_none (le_refl st.p.inst.items.length), List.getElem?_eq_getElem (by omega)] at this
    simp at this
  · by_contra hc
    have := h st.p.missing.length
    rw [List.getElem?_eq_none (le_refl st.p.missing.length), List.getElem?_eq_getElem (by omega)] at this
    simp at this

/-- C24: the reported placed quantities are the copies in the strip. -/
theorem C24_placed_quantities {env : StripEnv K} {st : SPState K n} (hr : st.Reachable env) (i : ℕ) :
    (placedQtys st.p.inst.qtys st.p.missing)[i]? =
      if i < st.p.inst.items.length then some (st.p.layout.placed.values.filter fun pi => pi.itemId = i).length else none := by
  rw [SPInstance.qtys, placedQtys_spec hr.inv.core.missing i]
  have hc : (copiesIn st.p.layout.placed i) = (st.p.layout.placed.values.filter fun pi => pi.itemId = i).length := by
    unfold copiesIn
    rw [List.countP_eq_length_filter]
  split_ifs with hi
  · rw [List.getElem?_eq_getElem hi, ← hc]; rfl
  · rw [List.getElem?_eq_none (by omega)]; rfl

/-- C24: what the operations do. Placing adds the item, removing takes it out, and
neither changes the strip; modifying the strip keeps a part of the items. -/
theorem C24_effects {env : StripEnv K} {st : SPState K n} (hr : st.Reachable env) :
    (∀ addr opt, (SPOp.place addr opt).Pre env st → ∃ k p', st.p.placeItem env.toEnv addr opt = some ((.real 0, k), p') ∧
      p'.layout.bin = st.p.layout.bin ∧ (p'.layout.placed.values.map fun pi => (pi.itemId, pi.dt)).Perm
        ((opt.itemId, opt.dt) :: st.p.layout.placed.values.map fun pi => (pi.itemId, pi.dt))) ∧
    (∀ idx key ci, (SPOp.remove idx key ci).Pre env st → ∃ opt p', st.p.removeItem env.toEnv idx key ci = some (opt, p') ∧
      opt.layoutIdx = .real 0 ∧ p'.layout.bin = st.p.layout.bin ∧
      (st.p.layout.placed.values.map fun pi => (pi.itemId, pi.dt)).Perm
        ((opt.itemId, opt.dt) :: p'.layout.placed.values.map fun pi => (pi.itemId, pi.dt))) ∧
    ∀ addr addrs rect p', st.p.modifyStrip env addr addrs rect = some p' →
      (p'.layout.placed.values.map fun pi => (pi.itemId, pi.dt)).Subperm
        (st.p.layout.placed.values.map fun pi => (pi.itemId, pi.dt)) := by
  have h := hr.inv.core
  refine ⟨?_, ?_, ?_⟩
  · rintro addr ⟨idx, id, dt⟩ ⟨h1, h2, h3⟩
    dsimp only at h1 h2 h3
    subst h1
    obtain ⟨k, l', m, e1, e2, e3, e4, _, _, e5⟩ := h.place addr (List.getElem?_eq_getElem h2) h3
    refine ⟨k, _, e1, e4, ?_⟩
    have := e5.map fun pi : PlacedItem K => (pi.itemId, pi.dt)
    rw [List.map_cons] at this
    have he : ((PlacedItem.new env.toEnv addr (st.p.inst.items[id]'h2).1 dt).itemId,
        (PlacedItem.new env.toEnv addr (st.p.inst.items[id]'h2).1 dt).dt) = (id, dt) := by
      simp [PlacedItem.new, (h.cat (List.getElem?_eq_getElem h2)).1]
    rw [he] at this
    exact this
  · rintro idx key ci ⟨rfl, pi, hk⟩
    obtain ⟨l', m, e1, e2, e3, e4, _, e5⟩ := h.remove hk ci
    exact ⟨_, _, e1, rfl, e4, e5.map fun pi : PlacedItem K => (pi.itemId, pi.dt)⟩
  · intro addr addrs rect p' hp
    cases hb : Bin.fromStrip env.toEnv n addr env.stripValue rect with
    | none =>
      unfold SPProblem.modifyStrip at hp
      dsimp only at hp
      rw [hb] at hp
      cases hp
    | some b =>
      obtain ⟨l, m, e1, e2, e3, e4, e5⟩ := h.modifyStrip addr addrs hb
      rw [e1] at hp
      obtain rfl := Option.some.inj hp
      exact e5.subperm.trans List.filter_sublist.subperm

section Ordered
variable {K : Type*} [Field K] [LinearOrder K] [IsStrictOrderedRing K] {n : ℕ}

/-- C24: no admissible operation panics when the new strip is a proper rectangle,
or its width is positive. Fitting the strip is the subject of C25. -/
theorem C24_operations_do_not_panic {env : StripEnv K} {st : SPState K n} (hr : st.Reachable env) {op : SPOp K} (hp : op.Pre env st)
    (hw : match op with
      | .modify _ _ rect => rect.xMin < rect.xMax ∧ rect.yMin < rect.yMax
      | .inBack _ _ w | .atFront _ _ w | .centered _ _ w => 0 < w
      | .fit _ _ => False
      | _ => True) :
    ∃ st', op.run env st = some st' ∧ st'.Reachable env ∧ st'.p.inst = st.p.inst ∧ ∃ t, st'.sols = st.sols ++ t := by
  have h := hr.inv
  have fin : ∀ st', op.run env st = some st' →
      ∃ st', op.run env st = some st' ∧ st'.Reachable env ∧ st'.p.inst = st.p.inst ∧ ∃ t, st'.sols = st.sols ++ t :=
    fun st' e => ⟨st', e, hr.run (.cons hp e (.nil _)), (SPOp.run_inv h hp e).2⟩
  have hm : ∀ (addr : ℕ) (addrs : ℕ → ℕ) {rect : AARect K}, rect.Valid → ∃ p', st.p.modifyStrip env addr addrs rect = some p' := by
    intro addr addrs rect hv
    obtain ⟨b, hb, _⟩ := Bin.fromStrip_valid (n := n) env.toEnv addr env.stripValue hv
    obtain ⟨l, m, e1, _⟩ := h.core.modifyStrip addr addrs hb
    exact ⟨_, e1⟩
  have hbb := h.core.layout.strip.bbox_valid
  cases op with
  | place addr opt =>
    obtain ⟨h1, h2, h3⟩ := hp
    obtain ⟨idx, id, dt⟩ := opt
    dsimp only at h1 h2 h3
    subst h1
    obtain ⟨k, l', m, e1, _⟩ := h.core.place addr (List.getElem?_eq_getElem h2) h3
    exact fin _ (by simp only [SPOp.run]; rw [e1]; rfl)
  | remove idx key ci =>
    obtain ⟨rfl, pi, hk⟩ := hp
    obtain ⟨l', m, e1, _⟩ := h.core.remove hk ci
    exact fin _ (by simp only [SPOp.run]; rw [e1]; rfl)
  | modify addr addrs rect =>
    obtain ⟨p', e⟩ := hm addr addrs (rect := rect) hw
    exact fin _ (by simp only [SPOp.run]; rw [e]; rfl)
  | inBack addr addrs w =>
    have h1 : st.p.layout.bin.outer.val.bbox.xMin < st.p.layout.bin.outer.val.bbox.xMin + w := by
      have : 0 < w := hw
      linarith
    obtain ⟨p', e⟩ := hm addr addrs (rect := ⟨st.p.layout.bin.outer.val.bbox.xMin, st.p.layout.bin.outer.val.bbox.yMin,
      st.p.layout.bin.outer.val.bbox.xMin + w, st.p.layout.bin.outer.val.bbox.yMax⟩) ⟨h1, hbb.2⟩
    exact fin _ (by simp only [SPOp.run, SPProblem.modifyInBack]; rw [AARect.new_valid h1 hbb.2, Option.bind_some, e]; rfl)
  | atFront addr addrs w =>
    have h1 : st.p.layout.bin.outer.val.bbox.xMax - w < st.p.layout.bin.outer.val.bbox.xMax := by
      have : 0 < w := hw
      linarith
    obtain ⟨p', e⟩ := hm addr addrs (rect := ⟨_, _, _, _⟩) ⟨h1, hbb.2⟩
    exact fin _ (by simp only [SPOp.run, SPProblem.modifyAtFront]; rw [AARect.new_valid h1 hbb.2, Option.bind_some, e]; rfl)
  | centered addr addrs w =>
    have hw : 0 < w := hw
    cases hocc : occupiedRange st.p.layout with
    | none =>
      have hw0 : occupiedWidth st.p.layout = 0 := by unfold occupiedWidth; rw [hocc]
      have h1 : (0 : K) - (w - 0) / 2 < 0 + (w - 0) / 2 := by linarith
      obtain ⟨p', e⟩ := hm addr addrs (rect := ⟨_, _, _, _⟩) ⟨h1, hbb.2⟩
      refine fin { st with p := p' } ?_
      simp only [SPOp.run, SPProblem.modifyCentered]
      rw [hocc, hw0, Option.getD_none]
      dsimp only
      rw [AARect.new_valid h1 hbb.2, Option.bind_some, e]
      rfl
    | some r =>
      obtain ⟨lo, hi⟩ := r
      have h1 : lo - (w - (hi - lo)) / 2 < hi + (w - (hi - lo)) / 2 := by linarith
      obtain ⟨p', e⟩ := hm addr addrs (rect := ⟨_, _, _, _⟩) ⟨h1, hbb.2⟩
      exact fin _ (by
        simp only [SPOp.run]
        rw [SPProblem.modifyCentered_eq hocc, AARect.new_valid h1 hbb.2, Option.bind_some, e]; rfl)
  | fit addr addrs => exact absurd hw id
  | solution =>
    obtain ⟨s, l, e1, _⟩ := h.createSolution
    exact fin _ (by simp only [SPOp.run]; rw [e1]; rfl)
  | restore j =>
    obtain ⟨s, hs, hoc⟩ := hp
    obtain ⟨l, m, sn, _, _, e1, _⟩ := h.restore (List.mem_of_getElem? hs) hoc
    exact fin _ (by simp only [SPOp.run]; rw [hs]; dsimp only; rw [e1]; rfl)

end Ordered

/-- Non-trivial instance for C24: two items, then a strip that is too short for
the second one. -/
example : ∃ st st' : SPState ℚ 2, st.Reachable Ex.senv ∧ (SPOp.inBack 7 id 6).run Ex.senv st = some st' ∧
    st.p.missing = [2, 1] ∧ st.p.layout.placed.values.map (·.itemId) = [0, 1] ∧
    st'.p.missing = [2, 2] ∧ st'.p.layout.placed.values.map (·.itemId) = [0] ∧
    (SPOp.remove (.real 0) ⟨0, 1⟩ true).Pre Ex.senv st := by
  obtain ⟨st, hst⟩ : ∃ st, Ex.spAfter Ex.spOps = some st := Option.isSome_iff_exists.1 (by decide +kernel)
  have h : (Ex.spAfter Ex.spOps).bind (fun st => ((SPOp.inBack 7 id 6).run Ex.senv st).map fun st' =>
      (decide (st.p.missing = [2, 1] ∧ st.p.layout.placed.values.map (·.itemId) = [0, 1]) &&
      decide (st'.p.missing = [2, 2] ∧ st'.p.layout.placed.values.map (·.itemId) = [0]) &&
      Ex.spPreB st (.remove (.real 0) ⟨0, 1⟩ true))) = some true := by decide +kernel
  rw [hst, Option.bind_some] at h
  obtain ⟨st', h', he⟩ := Option.map_eq_some_iff.1 h
  simp only [Bool.and_eq_true, decide_eq_true_eq] at he
  exact ⟨st, st', (Ex.spAfter_reachable hst).reachable, h', he.1.1.1, he.1.1.2, he.1.2.1, he.1.2.2, (Ex.spPreB_pre he.2).1⟩

/-! ## C50 Reports of strip packing solutions -/

section
variable {K : Type*} [Field K] [LinearOrder K] {n : ℕ}

/-- C50: a solution of a strip packing problem has one snapshot; it reports the
copies in it as placed quantities, the demand as target, and as usage the area of
the items over the area of the strip. -/
theorem C50_strip {env : StripEnv K} {st : SPState K n} (hr : st.Reachable env) {s : Solution K n} (hs : s ∈ st.sols) :
    ∃ sn, s.snapshots = [sn] ∧ s.target = st.p.inst.items.map (·.2) ∧
      s.placed = (List.range st.p.inst.items.length).map (fun i => (sn.placed.values.filter fun pi => pi.itemId = i).length) ∧
      s.usage = (sn.placed.values.map (·.shape.val.area)).sum / sn.bin.area := by
  obtain ⟨sn, h⟩ := hr.inv.sols s hs
  refine ⟨sn, h.snaps, h.target, ?_, ?_⟩
  · apply List.ext_getElem?
    intro i
    rw [h.placed i, List.getElem?_map]
    by_cases hi : i < st.p.inst.items.length
    · rw [List.getElem?_eq_getElem hi, List.getElem?_range hi, Option.map_some, Option.map_some]
      unfold copiesIn
      rw [List.countP_eq_length_filter]
    · rw [List.getElem?_eq_none (by omega), List.getElem?_eq_none (by simpa using hi)]
      rfl
  · rw [h.usage, h.snap.valid.usage, fsum_eq, zero_add, zero_add]
    by_cases h0 : sn.bin.area = 0
    · simp [h0]
    · field_simp

end

/-- Non-trivial instance: a solution with a triangle and a square. -/
example : ∃ (st : SPState ℚ 2) (s : Solution ℚ 2), st.Reachable Ex.senv ∧ s ∈ st.sols ∧ s.placed = [1, 1] ∧ s.target = [3, 2] ∧
    s.usage = (9 / 2 + 4) / 160 := by
  obtain ⟨st, hst⟩ : ∃ st, Ex.spAfter (Ex.spOps ++ [.solution]) = some st := Option.isSome_iff_exists.1 (by decide +kernel)
  have h : (Ex.spAfter (Ex.spOps ++ [.solution])).bind (fun st => st.sols[0]?.map fun s =>
      (decide (s.placed = [1, 1]) && decide (s.target = [3, 2]) && decide (s.usage = (9 / 2 + 4) / 160))) = some true := by decide +kernel
  rw [hst, Option.bind_some] at h
  obtain ⟨s, h', he⟩ := Option.map_eq_some_iff.1 h
  simp only [Bool.and_eq_true, decide_eq_true_eq] at he
  exact ⟨st, s, (Ex.spAfter_reachable hst).reachable, List.mem_of_getElem? h', he.1.1, he.1.2, he.2⟩

/-! ## C22 Restoring a solution of a strip packing problem -/

/-- C22: whatever happens after a solution was created, also modifying the strip,
restoring it succeeds and brings back the strip, the placed items with their keys
and the missing quantities of that moment; the engine answers as before. -/
theorem C22_strip_restore {env : StripEnv K} {st st₁ st₂ : SPState K n} (hr : st.Reachable env)
    (hsol : (SPOp.solution (K := K)).run env st = some st₁) {ops : List (SPOp K)} (hrun : SPRun env st₁ ops st₂)
    (hoc : env.overflowChecks = true → ∀ (i : ℕ) (x : Item K × ℕ), st.p.inst.items[i]? = some x →
      (st.p.layout.placed.values.filter fun pi => pi.itemId = i).length ≤ x.2) :
    ∃ st₃, (SPOp.restore st.sols.length).run env st₂ = some st₃ ∧ st₃.Reachable env ∧
      st₃.p.layout.id = st.p.layout.id ∧ st₃.p.layout.bin = st.p.layout.bin ∧ st₃.p.layout.placed = st.p.layout.placed ∧
      st₃.p.missing = st.p.missing ∧ SameAnswers env.f st₃.p.layout.cde st.p.layout.cde := by
  have h := hr.inv
  obtain ⟨s, l, e1, i1, e2, _, sn, e3, e4⟩ := h.createSolution
  have hsol' := hsol
  simp only [SPOp.run] at hsol
  rw [e1] at hsol
  obtain rfl := Option.some.inj hsol
  obtain ⟨i2, hinst, t, ht⟩ := hrun.inv i1
  have hget : st₂.sols[st.sols.length]? = some s := by rw [ht]; simp
  have hinst : st₂.p.inst = st.p.inst := hinst
  simp only [Layout.view, LayoutSnapshot.view, Prod.mk.injEq] at e4
  have hoc2 : env.overflowChecks = true → ∀ (i : ℕ) (x : Item K × ℕ) (c : ℕ), st₂.p.inst.items[i]? = some x →
      s.placed[i]? = some c → c ≤ x.2 := by
    intro h1 i x c hx hc
    rw [hinst] at hx
    rw [e3.placed i, hx, Option.map_some, Option.some.injEq] at hc
    rw [← hc, e4.2.2]
    have := hoc h1 i x hx
    unfold copiesIn
    rw [List.countP_eq_length_filter]
    exact this
  obtain ⟨l₃, m, sn', k1, k2, k3, i3⟩ := i2.restore (List.mem_of_getElem? hget) hoc2
  rw [e3.snaps] at k1
  obtain rfl : sn = sn' := by simpa using k1
  simp only [Layout.view, LayoutSnapshot.view, Prod.mk.injEq] at k2
  have hstep : (SPOp.restore st.sols.length).run env st₂ = some ⟨{ st₂.p with layout := l₃, missing := m }, st₂.sols⟩ := by
    simp only [SPOp.run]; rw [hget]; dsimp only; rw [k3]; rfl
  have hpre : (SPOp.restore (K := K) st.sols.length).Pre env st₂ := ⟨s, hget, hoc2⟩
  have hpl : l₃.placed = st.p.layout.placed := k2.2.2.trans e4.2.2
  have hbin : l₃.bin = st.p.layout.bin := k2.2.1.trans e4.2.1
  refine ⟨_, hstep, ?_, k2.1.trans e4.1, hbin, hpl, ?_, ?_⟩
  · exact hr.run (ops := SPOp.solution :: (ops ++ [.restore st.sols.length]))
      (.cons trivial hsol' (hrun.append (.cons hpre hstep (.nil _))))
  · have h3 := i3.core.missing
    dsimp only at h3 ⊢
    rw [hpl, hinst] at h3
    exact h3.unique h.core.missing
  · have a := i3.core.layout.inv
    dsimp only at a ⊢
    rw [hinst] at a
    exact (a.same h.core.layout.inv hbin (by rw [hpl])).same.answers

/-- Non-trivial instance: the strip is shortened after the solution, which drops an
item and replaces the layout, and an item is placed elsewhere. -/
example : ∃ st st₁ st₂ : SPState ℚ 2, st.Reachable Ex.senv ∧ SPOp.solution.run Ex.senv st = some st₁ ∧
    SPRun Ex.senv st₁ [.inBack 7 id 6, .place 3 ⟨.real 0, 1, Ex.shift (9 / 2) 6⟩] st₂ ∧
    st.p.missing = [2, 1] ∧ st₂.p.layout.id ≠ st.p.layout.id ∧ st₂.p.layout.placed.values.length = 2 := by
  obtain ⟨st, hst⟩ : ∃ st, Ex.spAfter Ex.spOps = some st := Option.isSome_iff_exists.1 (by decide +kernel)
  have h : (Ex.spAfter Ex.spOps).bind (fun st => (SPOp.solution.run Ex.senv st).bind fun st₁ =>
      (Ex.spRun [.inBack 7 id 6, .place 3 ⟨.real 0, 1, Ex.shift (9 / 2) 6⟩] st₁).map fun st₂ =>
      (decide (st.p.missing = [2, 1]) && decide (st₂.p.layout.id ≠ st.p.layout.id) &&
        decide (st₂.p.layout.placed.values.length = 2))) = some true := by decide +kernel
  rw [hst, Option.bind_some] at h
  obtain ⟨st₁, h1, h⟩ := Option.bind_eq_some_iff.1 h
  obtain ⟨st₂, h2, he⟩ := Option.map_eq_some_iff.1 h
  simp only [Bool.and_eq_true, decide_eq_true_eq] at he
  exact ⟨st, st₁, st₂, (Ex.spAfter_reachable hst).reachable, h1, (Ex.spRun_run h2).run, he.1.1, he.1.2, he.2⟩

/-! ## C25 Fitting the strip -/

section Ordered
variable {K : Type*} [Field K] [LinearOrder K] [IsStrictOrderedRing K] {n : ℕ}

/-- the shapes of placed items are proper when the items of the instance are -/
theorem SPState.Reachable.proper {env : StripEnv K} {st : SPState K n} (hr : st.Reachable env) (hu : env.tr.Unit)
    (hitems : ∀ x ∈ st.p.inst.items, x.1.shape.Proper ∧ signedArea x.1.shape.points ≠ 0) :
    ∀ pi ∈ st.p.layout.placed.values, pi.shape.val.Proper := by
  intro pi hpi
  have h := hr.inv.core
  have hid := h.layout.items pi hpi
  obtain ⟨c1, c2⟩ := h.cat (List.getElem?_eq_getElem hid)
  rw [c1] at c2
  obtain ⟨k1, k2⟩ := hitems _ (List.getElem_mem hid)
  rw [(h.layout.inv.ok pi hpi).2, ← c2]
  exact SPoly.transform_proper k1 k2 (Transf.IsRigid.rotTransl hu _ _ _)

/-- C25: modifying the strip to a proper rectangle keeps exactly the items that lie
in its interior, at the place where they were, and the strip is that rectangle. -/
theorem C25_modify_strip {env : StripEnv K} {st : SPState K n} (hr : st.Reachable env) (hf : env.f = Fpa.exact)
    (hpoi : PoiOfRects env.poi) (hu : env.tr.Unit)
    (hitems : ∀ x ∈ st.p.inst.items, x.1.shape.Proper ∧ signedArea x.1.shape.points ≠ 0)
    (addr : ℕ) (addrs : ℕ → ℕ) {rect : AARect K} (hx : rect.xMin < rect.xMax) (hy : rect.yMin < rect.yMax) :
    ∃ p', st.p.modifyStrip env addr addrs rect = some p' ∧ p'.layout.bin.outer.val.bbox = rect ∧
      p'.layout.bin.outer.val.points =
        [⟨rect.xMin, rect.yMin⟩, ⟨rect.xMax, rect.yMin⟩, ⟨rect.xMax, rect.yMax⟩, ⟨rect.xMin, rect.yMax⟩] ∧
      (p'.layout.placed.values.map fun pi => (pi.itemId, pi.dt)).Nodup ∧
      ∀ id dt, (∃ pi' ∈ p'.layout.placed.values, pi'.itemId = id ∧ pi'.dt = dt) ↔
        ∃ pi ∈ st.p.layout.placed.values, (pi.itemId = id ∧ pi.dt = dt) ∧ ∀ v ∈ region pi.shape.val.points,
          rect.xMin < v.x ∧ v.x < rect.xMax ∧ rect.yMin < v.y ∧ v.y < rect.yMax := by
  have h := hr.inv.core
  obtain ⟨b, hb, hb1, hb2, _⟩ := Bin.fromStrip_valid (n := n) env.toEnv addr env.stripValue (r := rect) ⟨hx, hy⟩
  have hst : b.IsStrip env := ⟨_, _, hb⟩
  obtain ⟨l, m, e1, e2, e3, e4, e5⟩ := h.modifyStrip addr addrs hb
  refine ⟨_, e1, by dsimp only; rw [e4]; exact hb2, by dsimp only; rw [e4]; exact hb1, ?_, fun id dt => ?_⟩
  · have := e2.layout.inv.nodup
    refine List.Nodup.of_map (fun x : ℕ × DTransf K => HazardEntity.placedItem x.1 x.2) ?_
    rw [List.map_map]
    exact this
  · have hg : ∀ pi ∈ st.p.layout.placed.values, (stripKeeps env st.p.inst b (pi.itemId, pi.dt) = true ↔
        ∀ v ∈ region pi.shape.val.points, rect.xMin < v.x ∧ v.x < rect.xMax ∧ rect.yMin < v.y ∧ v.y < rect.yMax) := by
      intro pi hpi
      have hok := (h.layout.inv.ok pi hpi).2
      rw [stripKeeps_iff hf hpoi hst (by rw [← hok]; exact hr.proper hu hitems pi hpi), ← hok]
      simp only [hst.interior, hb2]
    have hmem : (∃ pi' ∈ l.placed.values, pi'.itemId = id ∧ pi'.dt = dt) ↔ (id, dt) ∈ l.placed.values.map fun pi => (pi.itemId, pi.dt) := by
      simp [List.mem_map, Prod.mk.injEq]
    dsimp only
    rw [hmem, e5.mem_iff, List.mem_filter, List.mem_map]
    constructor
    · rintro ⟨⟨pi, hpi, he⟩, hk⟩
      rw [← he] at hk
      simp only [Prod.mk.injEq] at he
      exact ⟨pi, hpi, he, (hg pi hpi).1 hk⟩
    · rintro ⟨pi, hpi, he, hk⟩
      have he' : (pi.itemId, pi.dt) = (id, dt) := by rw [he.1, he.2]
      exact ⟨⟨pi, hpi, he'⟩, by rw [← he']; exact (hg pi hpi).2 hk⟩

/-- C25: resizing in the back keeps the front of the strip, resizing at the front
keeps the back, and centred resizing puts the same margin on both sides of the
range `[lo, hi]` occupied by the items; the width is as asked for and the height
does not change. -/
theorem C25_resized_strip {env : StripEnv K} {st : SPState K n} (hr : st.Reachable env) (addr : ℕ) (addrs : ℕ → ℕ) {w : K} (hw : 0 < w) :
    let b := st.p.layout.bin.outer.val.bbox
    (∃ st', (SPOp.inBack addr addrs w).run env st = some st' ∧ st'.p.layout.bin.outer.val.bbox = ⟨b.xMin, b.yMin, b.xMin + w, b.yMax⟩) ∧
    (∃ st', (SPOp.atFront addr addrs w).run env st = some st' ∧ st'.p.layout.bin.outer.val.bbox = ⟨b.xMax - w, b.yMin, b.xMax, b.yMax⟩) ∧
    ∀ lo hi, IsLeast {x | ∃ pi ∈ st.p.layout.placed.values, pi.shape.val.bbox.xMin = x} lo →
      IsGreatest {x | ∃ pi ∈ st.p.layout.placed.values, pi.shape.val.bbox.xMax = x} hi →
      ∃ st', (SPOp.centered addr addrs w).run env st = some st' ∧ st'.p.layout.bin.outer.val.bbox.width = w ∧
        lo - st'.p.layout.bin.outer.val.bbox.xMin = st'.p.layout.bin.outer.val.bbox.xMax - hi ∧
        st'.p.layout.bin.outer.val.bbox.yMin = b.yMin ∧ st'.p.layout.bin.outer.val.bbox.yMax = b.yMax := by
  have h := hr.inv
  have hm : ∀ {rect : AARect K}, rect.Valid → ∃ p', st.p.modifyStrip env addr addrs rect = some p' ∧ p'.layout.bin.outer.val.bbox = rect := by
    intro rect hv
    obtain ⟨b, hb, _, hb2, _⟩ := Bin.fromStrip_valid (n := n) env.toEnv addr env.stripValue hv
    obtain ⟨l, m, e1, _, _, e4, _⟩ := h.core.modifyStrip addr addrs hb
    exact ⟨_, e1, by dsimp only; rw [e4]; exact hb2⟩
  have hbb := h.core.layout.strip.bbox_valid
  intro b
  refine ⟨?_, ?_, ?_⟩
  · have h1 : b.xMin < b.xMin + w := by linarith
    obtain ⟨p', e, e'⟩ := hm (rect := ⟨b.xMin, b.yMin, b.xMin + w, b.yMax⟩) ⟨h1, hbb.2⟩
    exact ⟨⟨p', st.sols⟩, by simp only [SPOp.run, SPProblem.modifyInBack]; rw [AARect.new_valid h1 hbb.2, Option.bind_some, e]; rfl, e'⟩
  · have h1 : b.xMax - w < b.xMax := by linarith
    obtain ⟨p', e, e'⟩ := hm (rect := ⟨b.xMax - w, b.yMin, b.xMax, b.yMax⟩) ⟨h1, hbb.2⟩
    exact ⟨⟨p', st.sols⟩, by simp only [SPOp.run, SPProblem.modifyAtFront]; rw [AARect.new_valid h1 hbb.2, Option.bind_some, e]; rfl, e'⟩
  · rintro lo hi ⟨⟨q1, hq1, hlo⟩, hlo'⟩ ⟨⟨q2, hq2, hhi⟩, hhi'⟩
    obtain ⟨lo', hi', f1, f2, ⟨r1, hr1, f3⟩, ⟨r2, hr2, f4⟩⟩ := occupiedRange_spec (l := st.p.layout) (List.ne_nil_of_mem hq1)
    obtain rfl : lo' = lo := le_antisymm (by rw [← hlo]; exact (f2 q1 hq1).1) (hlo' ⟨r1, hr1, f3⟩)
    obtain rfl : hi' = hi := le_antisymm (hhi' ⟨r2, hr2, f4⟩) (by rw [← hhi]; exact (f2 q2 hq2).2)
    have h1 : lo' - (w - (hi' - lo')) / 2 < hi' + (w - (hi' - lo')) / 2 := by linarith
    obtain ⟨p', e, e'⟩ := hm (rect := ⟨lo' - (w - (hi' - lo')) / 2, b.yMin, hi' + (w - (hi' - lo')) / 2, b.yMax⟩) ⟨h1, hbb.2⟩
    refine ⟨⟨p', st.sols⟩, by
      simp only [SPOp.run]
      rw [SPProblem.modifyCentered_eq f1, AARect.new_valid h1 hbb.2, Option.bind_some, e]; rfl, ?_, ?_, ?_, ?_⟩
    all_goals dsimp only; rw [e']
    · unfold AARect.width
      ring
    · ring

/-- C25 (partial: the strip must not be empty, see `C25_empty_strip_panics`):
fitting the strip succeeds when the items lie inside the strip, keeps all items at
their places, and the new strip is the smallest range `[lo, hi]` with all items,
widened by half the tolerance on both sides; the height does not change. -/
theorem C25_fit_strip_partial {env : StripEnv K} {st : SPState K n} (hr : st.Reachable env) (hf : env.f = Fpa.exact)
    (hpoi : PoiOfRects env.poi) (hu : env.tr.Unit) (htol : 0 < env.tolerance)
    (hitems : ∀ x ∈ st.p.inst.items, x.1.shape.Proper ∧ signedArea x.1.shape.points ≠ 0)
    (hne : st.p.layout.placed.values ≠ [])
    (hin : ∀ pi ∈ st.p.layout.placed.values, ∀ v ∈ region pi.shape.val.points, v ∈ interior st.p.layout.bin.outer.val.points)
    (addr : ℕ) (addrs : ℕ → ℕ) :
    ∃ lo hi st', (SPOp.fit addr addrs).run env st = some st' ∧
      IsLeast {x | ∃ pi ∈ st.p.layout.placed.values, ∃ v ∈ region pi.shape.val.points, v.x = x} lo ∧
      IsGreatest {x | ∃ pi ∈ st.p.layout.placed.values, ∃ v ∈ region pi.shape.val.points, v.x = x} hi ∧
      (st'.p.layout.placed.values.map fun pi => (pi.itemId, pi.dt)).Perm
        (st.p.layout.placed.values.map fun pi => (pi.itemId, pi.dt)) ∧
      st'.p.missing = st.p.missing ∧
      st'.p.layout.bin.outer.val.bbox.width = (hi - lo) * (1 + env.tolerance) ∧
      st'.p.layout.bin.outer.val.bbox.xMin = lo - (hi - lo) * env.tolerance / 2 ∧
      st'.p.layout.bin.outer.val.bbox.xMax = hi + (hi - lo) * env.tolerance / 2 ∧
      st'.p.layout.bin.outer.val.bbox.yMin = st.p.layout.bin.outer.val.bbox.yMin ∧
      st'.p.layout.bin.outer.val.bbox.yMax = st.p.layout.bin.outer.val.bbox.yMax := by
  have h := hr.inv.core
  have hsh := hr.proper hu hitems
  obtain ⟨lo, hi, p', e1, e2, e3, e4, e5, e6⟩ := h.fit hf hpoi htol hne hsh
    (fun pi hpi v hv => ((h.layout.strip.interior v).1 (hin pi hpi v hv)).2.2) addr addrs
  obtain ⟨lo', hi', f1, f2, ⟨q1, hq1, f3⟩, ⟨q2, hq2, f4⟩⟩ := occupiedRange_spec hne
  rw [e1] at f1
  simp only [Option.some.injEq, Prod.mk.injEq] at f1
  obtain ⟨rfl, rfl⟩ := f1
  have hatt := fun pi hpi => boundingBox_attained (hsh pi hpi).wf.nonempty
  have hbx : ∀ pi ∈ st.p.layout.placed.values, ∀ v ∈ region pi.shape.val.points, lo ≤ v.x ∧ v.x ≤ hi := by
    intro pi hpi v hv
    have := region_subset_bbox hv
    rw [← (hsh pi hpi).wf.bbox_eq] at this
    exact ⟨(f2 pi hpi).1.trans this.1, this.2.1.trans (f2 pi hpi).2⟩
  refine ⟨lo, hi, { st with p := p' }, by simp only [SPOp.run]; rw [e2]; rfl, ⟨?_, ?_⟩, ⟨?_, ?_⟩, e5, ?_, ?_, ?_, ?_, ?_, ?_⟩
  · obtain ⟨⟨v, hv, hx⟩, _⟩ := hatt q1 hq1
    rw [← (hsh q1 hq1).wf.bbox_eq, f3] at hx
    exact ⟨q1, hq1, v, .inl (vertex_mem_bdry hv), hx⟩
  · rintro x ⟨pi, hpi, v, hv, rfl⟩
    exact (hbx pi hpi v hv).1
  · obtain ⟨_, _, ⟨v, hv, hx⟩, _⟩ := hatt q2 hq2
    rw [← (hsh q2 hq2).wf.bbox_eq, f4] at hx
    exact ⟨q2, hq2, v, .inl (vertex_mem_bdry hv), hx⟩
  · rintro x ⟨pi, hpi, v, hv, rfl⟩
    exact (hbx pi hpi v hv).2
  · have hm := e3.missing
    rw [e4] at hm
    refine MissingOk.unique ?_ h.missing (c := copiesIn st.p.layout.placed)
    have : copiesIn p'.layout.placed = copiesIn st.p.layout.placed := by
      funext i
      have := (e5.map (fun x : ℕ × DTransf K => x.1)).countP_eq (fun j => decide (j = i))
      rw [List.map_map, List.map_map, List.countP_map, List.countP_map] at this
      exact this
    rw [← this]
    exact hm
  all_goals dsimp only; rw [e6]
  unfold AARect.width
  ring

/-- C25 (partial as above): in a problem where every placement was accepted by the
engine, fitting a strip with at least one item always succeeds and keeps all items.
The items are then inside the strip, also after modifying and restoring. -/
theorem C25_fit_after_checked_placements_partial {env : StripEnv K} {st : SPState K n} (hr : st.CheckedReachable env)
    (hf : env.f = Fpa.exact) (hpoi : PoiOfRects env.poi) (hu : env.tr.Unit) (htol : 0 < env.tolerance)
    (hitems : ∀ x ∈ st.p.inst.items, x.1.shape.Proper ∧ signedArea x.1.shape.points ≠ 0) :
    (∀ pi ∈ st.p.layout.placed.values, ∀ v ∈ region pi.shape.val.points, v ∈ interior st.p.layout.bin.outer.val.points) ∧
    (st.p.layout.placed.values ≠ [] → ∀ addr addrs, ∃ st', (SPOp.fit addr addrs).run env st = some st' ∧
      (st'.p.layout.placed.values.map fun pi => (pi.itemId, pi.dt)).Perm
        (st.p.layout.placed.values.map fun pi => (pi.itemId, pi.dt))) := by
  have h := hr.reachable.inv.core
  have hin : ∀ pi ∈ st.p.layout.placed.values, ∀ v ∈ region pi.shape.val.points, v ∈ interior st.p.layout.bin.outer.val.points := by
    intro pi hpi
    have hok := (h.layout.inv.ok pi hpi).2
    have := (stripKeeps_iff hf hpoi h.layout.strip (by rw [← hok]; exact hr.reachable.proper hu hitems pi hpi)).1
      (hr.inside.layout pi hpi)
    rw [← hok] at this
    exact this
  refine ⟨hin, fun hne addr addrs => ?_⟩
  obtain ⟨_, _, st', e1, _, _, e2, _⟩ := C25_fit_strip_partial hr.reachable hf hpoi hu htol hitems hne hin addr addrs
  exact ⟨st', e1, e2⟩

/-- C25 fails for a strip without items: fitting it panics, with and without debug
checks (the new strip would have width zero). -/
theorem C25_empty_strip_panics {env : StripEnv K} {st : SPState K n} (he : st.p.layout.placed.values = []) (addr : ℕ) (addrs : ℕ → ℕ) :
    (SPOp.fit addr addrs).run env st = none := by
  have h0 : occupiedRange st.p.layout = none := by unfold occupiedRange; rw [he]
  have h1 : occupiedWidth st.p.layout = 0 := by unfold occupiedWidth; rw [h0]
  simp only [SPOp.run, SPProblem.fitStrip, SPProblem.modifyCentered]
  rw [h0, h1]
  simp only [Option.getD_none, zero_mul, sub_zero, zero_div, add_zero]
  unfold AARect.new
  split_ifs with hc
  · rw [Option.bind_some]
    unfold SPProblem.modifyStrip Bin.fromStrip SPoly.ofRect SPoly.new
    simp
  · rfl

/-- C25: with debug checks, resizing to a width that is not positive panics. -/
theorem C25_nonpositive_width_rejected {env : StripEnv K} (st : SPState K n) (hd : env.overflowChecks = true) (addr : ℕ) (addrs : ℕ → ℕ)
    {w : K} (hw : w ≤ 0) :
    (SPOp.inBack addr addrs w).run env st = none ∧ (SPOp.atFront addr addrs w).run env st = none ∧
    (SPOp.centered addr addrs w).run env st = none := by
  have key : ∀ {x0 y0 x1 y1 : K}, x1 ≤ x0 → AARect.new env.overflowChecks x0 y0 x1 y1 = none := by
    intro x0 y0 x1 y1 hx
    unfold AARect.new
    rw [if_neg]
    rw [hd]
    rintro (⟨h, _⟩ | h)
    · exact absurd h (not_lt.2 hx)
    · exact absurd h (by simp)
  refine ⟨?_, ?_, ?_⟩
  · simp only [SPOp.run, SPProblem.modifyInBack]
    rw [key (by linarith)]
    rfl
  · simp only [SPOp.run, SPProblem.modifyAtFront]
    rw [key (by linarith)]
    rfl
  · simp only [SPOp.run, SPProblem.modifyCentered]
    cases h : occupiedRange st.p.layout with
    | none =>
      rw [key (by simp [occupiedWidth, h]; linarith)]
      rfl
    | some r =>
      rw [key (by simp [occupiedWidth, h]; linarith)]
      rfl

end Ordered

namespace Ex

theorem trig_unit : trig.Unit := by intro a; simp [trig]

theorem mid_rects : PoiOfRects mid := by
  intro r poly h
  rw [SPoly.ofRect_interior h]
  obtain ⟨hv, -⟩ := SPoly.ofRect_spec h
  obtain ⟨-, -, -, -, -, h6, h7⟩ := SPoly.new_spec h
  rw [h7]
  unfold mid
  dsimp only
  rw [← h6]
  unfold AARect.centroid
  obtain ⟨hx, hy⟩ := hv
  dsimp only
  refine ⟨?_, ?_, ?_, ?_⟩ <;> linarith

theorem unitSq_proper : unitSq.Proper where
  wf := ⟨by decide +kernel, by unfold AARect.Valid; decide +kernel, by decide⟩
  noSpike := by unfold NoSpike; decide +kernel
  poi := (interior_rectPoly (x0 := -1) (y0 := -1) (x1 := 1) (y1 := 1) (by norm_num) (by norm_num) _).2 (by decide +kernel)

theorem unitTri_proper : unitTri.Proper where
  wf := ⟨by decide +kernel, by unfold AARect.Valid; decide +kernel, by decide⟩
  noSpike := by unfold NoSpike; decide +kernel
  poi := by
    have hb : unitTri.poi.center ∉ bdry unitTri.points := by
      have hs : sides unitTri.points = [(⟨-1, -1⟩, ⟨2, -1⟩), (⟨2, -1⟩, ⟨-1, 2⟩), (⟨-1, 2⟩, ⟨-1, -1⟩)] := by decide +kernel
      rintro ⟨s, h, t, h0, h1, h2⟩
      rw [hs] at h
      simp only [List.mem_cons, List.not_mem_nil, or_false] at h
      rcases h with rfl | rfl | rfl <;> simp only [unitTri] at h2 <;> obtain ⟨h3, h4⟩ := h2 <;> linarith
    exact (SPoly.collidesPoint_iff ⟨by decide +kernel, by unfold AARect.Valid; decide +kernel, by decide⟩ hb).1 (by decide +kernel)

theorem stripInst_proper : ∀ x ∈ stripInst.items, x.1.shape.Proper ∧ signedArea x.1.shape.points ≠ 0 := by
  intro x hx
  simp only [stripInst, List.mem_cons, List.not_mem_nil, or_false] at hx
  rcases hx with rfl | rfl
  · exact ⟨unitTri_proper, by decide +kernel⟩
  · exact ⟨unitSq_proper, by decide +kernel⟩

/-- all problems of this file are about `stripInst` -/
theorem spAfter_inst {ops : List (SPOp ℚ)} {st : SPState ℚ 2} (h : spAfter ops = some st) : st.p.inst = stripInst := by
  obtain ⟨p, hp, h⟩ := Option.bind_eq_some_iff.1 h
  obtain ⟨h1, h2⟩ := SPState.inv_new stripInst_built hp
  exact ((spRun_run h).run.inv h1).2.1.trans h2

end Ex

/-- Non-trivial instance for C25: a triangle and a square in a strip of width 20
are kept when the strip is fitted, which makes it 6 · 11/10 wide. -/
example : ∃ st st' : SPState ℚ 2, st.CheckedReachable Ex.senv ∧ Ex.senv.f = Fpa.exact ∧ PoiOfRects Ex.senv.poi ∧ Ex.senv.tr.Unit ∧
    0 < Ex.senv.tolerance ∧ (∀ x ∈ st.p.inst.items, x.1.shape.Proper ∧ signedArea x.1.shape.points ≠ 0) ∧
    st.p.layout.placed.values.map (·.itemId) = [0, 1] ∧ st.p.layout.bin.outer.val.bbox = ⟨0, 0, 20, 8⟩ ∧
    (SPOp.fit 7 id).run Ex.senv st = some st' ∧ st'.p.layout.placed.values.map (·.itemId) = [0, 1] ∧
    st'.p.layout.bin.outer.val.bbox = ⟨7 / 10, 0, 73 / 10, 8⟩ := by
  obtain ⟨st, hst⟩ : ∃ st, Ex.spAfter Ex.spOps = some st := Option.isSome_iff_exists.1 (by decide +kernel)
  have h : (Ex.spAfter Ex.spOps).bind (fun st => ((SPOp.fit 7 id).run Ex.senv st).map fun st' =>
      (decide (st.p.layout.placed.values.map (·.itemId) = [0, 1]) && decide (st.p.layout.bin.outer.val.bbox = ⟨0, 0, 20, 8⟩) &&
      decide (st'.p.layout.placed.values.map (·.itemId) = [0, 1]) &&
      decide (st'.p.layout.bin.outer.val.bbox = ⟨7 / 10, 0, 73 / 10, 8⟩))) = some true := by decide +kernel
  rw [hst, Option.bind_some] at h
  obtain ⟨st', h', he⟩ := Option.map_eq_some_iff.1 h
  simp only [Bool.and_eq_true, decide_eq_true_eq] at he
  exact ⟨st, st', Ex.spAfter_reachable hst, rfl, Ex.mid_rects, Ex.trig_unit, by decide +kernel,
    by rw [Ex.spAfter_inst hst]; exact Ex.stripInst_proper, he.1.1.1, he.1.1.2, h', he.1.2, he.2⟩

/-- Non-trivial instance for resizing: shortening at the front drops the triangle. -/
example : ∃ st st' : SPState ℚ 2, st.Reachable Ex.senv ∧ (SPOp.atFront 7 id 17).run Ex.senv st = some st' ∧
    st'.p.layout.bin.outer.val.bbox = ⟨3, 0, 20, 8⟩ ∧ st'.p.layout.placed.values.map (·.itemId) = [1] := by
  obtain ⟨st, hst⟩ : ∃ st, Ex.spAfter Ex.spOps = some st := Option.isSome_iff_exists.1 (by decide +kernel)
  have h : (Ex.spAfter Ex.spOps).bind (fun st => ((SPOp.atFront 7 id 17).run Ex.senv st).map fun st' =>
      (decide (st'.p.layout.placed.values.map (·.itemId) = [1]) &&
      decide (st'.p.layout.bin.outer.val.bbox = ⟨3, 0, 20, 8⟩))) = some true := by decide +kernel
  rw [hst, Option.bind_some] at h
  obtain ⟨st', h', he⟩ := Option.map_eq_some_iff.1 h
  simp only [Bool.and_eq_true, decide_eq_true_eq] at he
  exact ⟨st, st', (Ex.spAfter_reachable hst).reachable, h', he.2, he.1⟩

/-- Non-trivial instance for the empty strip: a new problem. -/
example : ∃ st : SPState ℚ 2, st.CheckedReachable Ex.senv ∧ st.p.layout.placed.values = [] ∧ (SPOp.fit 7 id).run Ex.senv st = none := by
  obtain ⟨st, hst⟩ : ∃ st, Ex.spAfter [] = some st := Option.isSome_iff_exists.1 (by decide +kernel)
  have h : (Ex.spAfter []).map (fun st => decide (st.p.layout.placed.values.length = 0)) = some true := by decide +kernel
  rw [hst, Option.map_some, Option.some.injEq, decide_eq_true_eq] at h
  exact ⟨st, Ex.spAfter_reachable hst, List.length_eq_zero_iff.1 h, C25_empty_strip_panics (List.length_eq_zero_iff.1 h) _ _⟩

/-- Non-trivial instance for widths that are not positive: with debug checks on, a
strip with two items. -/
example : ∃ st : SPState ℚ 2, st.Reachable Ex.senv ∧ Ex.senv.overflowChecks = true ∧ st.p.layout.placed.values.map (·.itemId) = [0, 1] ∧
    (SPOp.inBack 7 id (-3)).run Ex.senv st = none := by
  obtain ⟨st, hst⟩ : ∃ st, Ex.spAfter Ex.spOps = some st := Option.isSome_iff_exists.1 (by decide +kernel)
  have h : (Ex.spAfter Ex.spOps).map (fun st => decide (st.p.layout.placed.values.map (·.itemId) = [0, 1])) = some true := by decide +kernel
  rw [hst, Option.map_some, Option.some.injEq, decide_eq_true_eq] at h
  exact ⟨st, (Ex.spAfter_reachable hst).reachable, rfl, h, (C25_nonpositive_width_rejected st rfl 7 id (by norm_num)).1⟩

end Jagua
