import Verif.Lemmas.Problem

/-!
# Removing, solutions and restoring in bin packing problems
-/

set_option linter.unusedSectionVars false

namespace Jagua

variable {K : Type*} [Arith K] [LinearOrder K] {n : ℕ}

/-- dropping the layout at `i` -/
theorem BPState.Inv.drop {env : Env K} {st : BPState K n} (h : st.Inv env) {i : ℕ} {l l' : Layout K n}
    (hl : st.p.layouts[i]? = some l) (hl' : LayoutIn env st.p.inst l') (hid : l'.id = l.id) (hbin : l'.bin = l.bin)
    {m : List ℤ} (hm : MissingOk st.p.inst.items m (copies (st.p.layouts.eraseIdx i)))
    {b : List ℕ} (hb : StockOk st.p.inst.bins b (binsUsed (st.p.layouts.eraseIdx i))) :
    BPState.Inv env ⟨{ st.p with
      missing := m, binQtys := b, layouts := st.p.layouts.eraseIdx i, unmodified := st.p.unmodified.erase l.id,
      removed := st.p.removed ++ [l'] }, st.sols⟩ := by
  have hmem : l ∈ st.p.layouts := List.mem_of_getElem? hl
  have hknown : ∀ x ∈ BPState.known ⟨{ st.p with
      missing := m, binQtys := b, layouts := st.p.layouts.eraseIdx i, unmodified := st.p.unmodified.erase l.id,
      removed := st.p.removed ++ [l'] }, st.sols⟩, x ∈ st.known := by
    intro x hx
    unfold BPState.known at hx
    rcases List.mem_append.1 hx with hx | hx
    · obtain ⟨y, hy, rfl⟩ := List.mem_map.1 hx
      rcases List.mem_append.1 hy with hy | hy
      · exact BPState.known_layout (List.mem_of_mem_eraseIdx hy)
      · rcases List.mem_append.1 hy with hy | hy
        · exact BPState.known_removed hy
        · rw [List.mem_singleton.1 hy, hid, hbin]
          exact BPState.known_layout hmem
    · exact List.mem_append.2 (.inr hx)
  exact {
    built := h.built
    templates := h.templates
    layouts := fun x hx => h.layouts x (List.mem_of_mem_eraseIdx hx)
    removed := fun x hx => by
      rcases List.mem_append.1 hx with hx | hx
      · exact h.removed x hx
      · rw [List.mem_singleton.1 hx]; exact hl'
    nodup := List.Nodup.sublist ((List.eraseIdx_sublist _ _).map _) h.nodup
    known := fun x hx y hy => h.known x (hknown x hx) y (hknown y hy)
    fresh := fun x hx => h.fresh x (hknown x hx)
    missing := hm
    stock := hb
    sols := h.sols
    solIds := h.solIds
    solFresh := h.solFresh
    unmodNodup := h.unmodNodup.erase _
    unmod := fun id hid' => by
      dsimp only at hid'
      obtain ⟨hne, hmem'⟩ := (h.unmodNodup.mem_erase_iff).1 hid'
      obtain ⟨l2, h2, h3, r⟩ := h.unmod id hmem'
      refine ⟨l2, ?_, h3, r⟩
      rcases List.mem_cons.1 ((perm_of_getElem? hl).mem_iff.1 h2) with rfl | h2
      · exact absurd h3.symm hne
      · exact h2 }

theorem binsUsed_split {ls : List (Layout K n)} {i : ℕ} {l : Layout K n} (hl : ls[i]? = some l) (b : ℕ) :
    binsUsed ls b = binsUsed (ls.eraseIdx i) b + if b = l.bin.id then 1 else 0 := by
  rw [binsUsed_perm (perm_of_getElem? hl), binsUsed_cons]

theorem BPState.Inv.deregisterLayout {env : Env K} {st : BPState K n} (h : st.Inv env) {i : ℕ} {l : Layout K n}
    (hl : st.p.layouts[i]? = some l) :
    ∃ m b, st.p.deregisterLayout (.real i) = some { st.p with
        missing := m, binQtys := b, layouts := st.p.layouts.eraseIdx i, unmodified := st.p.unmodified.erase l.id,
        removed := st.p.removed ++ [l] } ∧
      BPState.Inv env ⟨{ st.p with
        missing := m, binQtys := b, layouts := st.p.layouts.eraseIdx i, unmodified := st.p.unmodified.erase l.id,
        removed := st.p.removed ++ [l] }, st.sols⟩ := by
  have hin := h.layouts l (List.mem_of_getElem? hl)
  have hm := h.missing
  have hs := h.stock
  rw [show copies st.p.layouts = fun j => copiesIn l.placed j + copies (st.p.layouts.eraseIdx i) j from
    funext (copies_split hl)] at hm
  rw [show binsUsed st.p.layouts = fun j => binsUsed (st.p.layouts.eraseIdx i) j + if j = l.bin.id then 1 else 0 from
    funext (binsUsed_split hl)] at hs
  obtain ⟨m, b, e, h1, h2⟩ := BPProblem.deregisterLayout_spec hl hm hs hin.items hin.bin_lt
  exact ⟨m, b, e, h.drop hl hin rfl rfl h1 h2⟩

theorem BPState.Inv.remove {env : Env K} {st : BPState K n} (h : st.Inv env) {i : ℕ} {key : SlotKey} {l : Layout K n}
    {pi : PlacedItem K} (hl : st.p.layouts[i]? = some l) (hk : l.placed.get? key = some pi) (ci : Bool) :
    ∃ l' m b, l.removeItem env key ci = some (pi, l') ∧ LayoutIn env st.p.inst l' ∧ l'.id = l.id ∧ l'.bin = l.bin ∧
      l.placed.values.Perm (pi :: l'.placed.values) ∧ l.placed.remove key = some (pi, l'.placed) ∧
      (if l'.isEmpty then
        st.p.removeItem env (.real i) key ci = some (⟨.real i, pi.itemId, pi.dt⟩, { st.p with
          missing := m, binQtys := b, layouts := st.p.layouts.eraseIdx i, unmodified := st.p.unmodified.erase l.id,
          removed := st.p.removed ++ [l'] }) ∧
        BPState.Inv env ⟨{ st.p with
          missing := m, binQtys := b, layouts := st.p.layouts.eraseIdx i, unmodified := st.p.unmodified.erase l.id,
          removed := st.p.removed ++ [l'] }, st.sols⟩
      else
        st.p.removeItem env (.real i) key ci = some (⟨.real i, pi.itemId, pi.dt⟩, { st.p with
          layouts := st.p.layouts.set i l', missing := m, unmodified := st.p.unmodified.erase l.id }) ∧
        BPState.Inv env ⟨{ st.p with
          layouts := st.p.layouts.set i l', missing := m, unmodified := st.p.unmodified.erase l.id }, st.sols⟩) := by
  have hin := h.layouts l (List.mem_of_getElem? hl)
  have hi := (List.getElem?_eq_some_iff.1 hl).1
  obtain ⟨mm, l', e0, e1, e2, e3, e4, e5, e6⟩ := hin.inv.removeItem hk ci
  subst e5
  have hpi : pi.itemId < st.p.inst.items.length := hin.items pi (e6.mem_iff.2 List.mem_cons_self)
  have hin' : LayoutIn env st.p.inst l' :=
    ⟨e2, fun x hx => hin.items x (e6.mem_iff.2 (List.mem_cons_of_mem _ hx)), by rw [e4]; exact hin.bin⟩
  have hcount : ∀ j, copies st.p.layouts j = (copiesIn l'.placed j + copies (st.p.layouts.eraseIdx i) j) +
      if j = pi.itemId then 1 else 0 := by
    intro j
    rw [copies_split hl j, copiesIn_perm e6 j]
    unfold copiesIn
    omega
  cases hem : l'.isEmpty with
  | false =>
    obtain ⟨m, f1, f2⟩ := h.missing.add hpi (d := 1)
      (c' := fun j => copiesIn l'.placed j + copies (st.p.layouts.eraseIdx i) j) (by
        intro j
        rw [hcount j]
        push_cast
        rfl)
    refine ⟨l', m, [], e1, hin', e3, e4, e6, e0, ?_⟩
    rw [if_neg (by simp [hem])]
    refine ⟨?_, h.replace hl hin' e3 e4 f2⟩
    unfold BPProblem.removeItem
    dsimp only
    rw [hl]
    dsimp only
    rw [e1, Option.bind_some]
    dsimp only
    rw [hem, if_neg (by simp), Option.bind_some]
    unfold BPProblem.deregisterItem BPProblem.layoutHasChanged
    dsimp only
    rw [f1]
    rfl
  | true =>
    have hz : l'.placed.values = [] := by
      unfold Layout.isEmpty at hem
      exact List.isEmpty_iff.1 hem
    have hz' : ∀ j, copiesIn l'.placed j = 0 := fun j => by unfold copiesIn; rw [hz]; rfl
    have hm := h.missing
    have hs := h.stock
    rw [show copies st.p.layouts = fun j => copiesIn l'.placed j + copies st.p.layouts j from
      funext fun j => by rw [hz' j, zero_add]] at hm
    rw [show binsUsed st.p.layouts = fun j => binsUsed (st.p.layouts.eraseIdx i) j + if j = l'.bin.id then 1 else 0 from
      funext fun j => by rw [e4]; exact binsUsed_split hl j] at hs
    obtain ⟨m1, b, g1, g2, g3⟩ := BPProblem.deregisterLayout_spec (i := i) (l := l')
      (p := { st.p with unmodified := st.p.unmodified.erase l.id, layouts := st.p.layouts.set i l' })
      (by dsimp only; rw [List.getElem?_set, if_pos rfl, if_pos hi]) hm hs hin'.items hin'.bin_lt
    obtain ⟨m, f1, f2⟩ := g2.add hpi (d := 1) (c' := copies (st.p.layouts.eraseIdx i)) (by
        intro j
        rw [hcount j, hz' j, zero_add]
        push_cast
        rfl)
    refine ⟨l', m, b, e1, hin', e3, e4, e6, e0, ?_⟩
    rw [if_pos hem]
    refine ⟨?_, h.drop hl hin' e3 e4 f2 g3⟩
    unfold BPProblem.removeItem
    dsimp only
    rw [hl]
    dsimp only
    rw [e1, Option.bind_some]
    unfold BPProblem.layoutHasChanged
    dsimp only
    rw [hem, if_pos rfl, g1, Option.bind_some]
    unfold BPProblem.deregisterItem
    dsimp only
    rw [f1, Option.map_some]
    rw [List.eraseIdx_set_eq, e3, List.erase_of_not_mem (a := l.id) (l := st.p.unmodified.erase l.id)
      (fun hh => absurd rfl ((h.unmodNodup.mem_erase_iff).1 hh).1)]
    rfl

/-! ## Solutions -/

/-- the snapshot found in the reference solution -/
theorem SolutionIn.find {env : Env K} {inst : BPInstance K n} {s : Solution K n} (h : SolutionIn env inst s)
    {sn : LayoutSnapshot K n} (hsn : sn ∈ s.snapshots) : s.snapshots.find? (fun x => x.id = sn.id) = some sn := by
  cases hf : s.snapshots.find? (fun x => x.id = sn.id) with
  | none =>
    rw [List.find?_eq_none] at hf
    exact absurd (hf sn hsn) (by simp)
  | some y =>
    have h1 := List.mem_of_find?_eq_some hf
    have h2 := List.find?_some hf
    rw [List.inj_on_of_nodup_map h.nodup h1 hsn (by simpa using h2)]

/-- an unmodified layout agrees with its snapshot in the reference solution -/
theorem BPState.Inv.unmod_find {env : Env K} {st : BPState K n} (h : st.Inv env) {l : Layout K n} (hl : l ∈ st.p.layouts)
    (hu : l.id ∈ st.p.unmodified) {o : Solution K n} (ho : o ∈ st.sols) (hr : st.p.refSolution = some o.id) :
    ∃ sn ∈ o.snapshots, o.snapshots.find? (fun x => x.id = l.id) = some sn ∧ sn.id = l.id ∧ sn.placed = l.placed ∧
      sn.bin = l.bin := by
  obtain ⟨l2, h1, h2, s, hs, h3, sn, h4, h5, h6⟩ := h.unmod l.id hu
  have e1 := h.eq_of_id h1 hl h2
  subst e1
  have e2 : s = o := List.inj_on_of_nodup_map h.solIds hs ho (Option.some.inj (h3.symm.trans hr))
  subst e2
  refine ⟨sn, h4, by rw [← h5]; exact (h.sols s hs).find h4, h5, h6, ?_⟩
  exact h.known (sn.id, sn.bin) (BPState.known_snap hs h4) (l2.id, l2.bin) (BPState.known_layout h1) h5

theorem LayoutIn.usage_eq {env : Env K} {inst : BPInstance K n} {l : Layout K n} {s : LayoutSnapshot K n}
    (hs : SnapshotIn env inst s) (hp : s.placed = l.placed) (hb : s.bin = l.bin) : s.usage = l.usage := by
  rw [hs.valid.usage, hp, hb]
  rfl

/-- what `snapshotLayout` gives -/
structure SnapRel (env : Env K) (inst : BPInstance K n) (l : Layout K n) (r : Layout K n × LayoutSnapshot K n) : Prop where
  layout : LayoutIn env inst r.1
  snap : SnapshotIn env inst r.2
  view : r.1.view = l.view
  snapView : r.2.view = l.view
  usage : r.2.usage = l.usage

theorem BPState.Inv.snapshotLayout {env : Env K} {st : BPState K n} (h : st.Inv env) {l : Layout K n} (hl : l ∈ st.p.layouts)
    (old : Option (Solution K n)) (ho : ∀ o, old = some o → o ∈ st.sols ∧ st.p.refSolution = some o.id) :
    ∃ r, BPProblem.snapshotLayout st.p.unmodified old l = some r ∧ SnapRel env st.p.inst l r := by
  have hin := h.layouts l hl
  obtain ⟨l', s, e1, e2, e3, e4, e5, e6, e7, e8, e9, e10⟩ := hin.inv.createSnapshot
  have hfresh : SnapRel env st.p.inst l (l', s) :=
    ⟨⟨e2, by rw [e5]; exact hin.items, by rw [e4]; exact hin.bin⟩, ⟨e6, by rw [e9]; exact hin.items, by rw [e8]; exact hin.bin⟩,
      by unfold Layout.view; rw [e3, e4, e5], by unfold Layout.view LayoutSnapshot.view; rw [e7, e8, e9], e10⟩
  unfold BPProblem.snapshotLayout
  cases old with
  | none => exact ⟨(l', s), e1, hfresh⟩
  | some o =>
    dsimp only
    split_ifs with hc
    · obtain ⟨ho, hr⟩ := ho o rfl
      obtain ⟨sn, h1, h2, h3, h4, h5⟩ := h.unmod_find hl (by simpa using hc) ho hr
      have hsn := (h.sols o ho).snaps sn h1
      refine ⟨(l, sn), by rw [h2]; rfl, hin, hsn, rfl, ?_, LayoutIn.usage_eq hsn h4 h5⟩
      unfold Layout.view LayoutSnapshot.view
      rw [h3, h4, h5]
    · exact ⟨(l', s), e1, hfresh⟩

theorem placedQtys_spec {items : List (Item K × ℕ)} {m : List ℤ} {c : ℕ → ℕ} (h : MissingOk items m c) (i : ℕ) :
    (placedQtys (items.map (·.2)) m)[i]? = (items[i]?).map fun _ => c i := by
  unfold placedQtys
  rw [List.getElem?_map, List.getElem?_zipIdx]
  have := h i
  cases hm : m[i]? with
  | none =>
    rw [hm] at this
    cases hx : items[i]? with
    | none => rfl
    | some x => rw [hx] at this; simp at this
  | some a =>
    rw [hm] at this
    cases hx : items[i]? with
    | none => rw [hx] at this; simp at this
    | some x =>
      rw [hx] at this
      simp only [Option.map_some, Option.some.injEq] at this
      simp only [Option.map_some, zero_add, List.getElem?_map, hx, Option.getD_some, Option.some.injEq]
      omega

/-- The problem's own solution, without a hint or with any hint that is the last
created or restored solution. -/
theorem BPState.Inv.createSolution {env : Env K} {st : BPState K n} (h : st.Inv env) (old : Option (Solution K n))
    (ho : ∀ o, old = some o → o ∈ st.sols ∧ st.p.refSolution = some o.id) :
    ∃ rs : List (Layout K n × LayoutSnapshot K n), ∃ sol p', List.Forall₂ (SnapRel env st.p.inst) st.p.layouts rs ∧
      st.p.createSolution old = some (sol, p') ∧
      p' = { st.p with
        solutionCounter := st.p.solutionCounter + 1, layouts := rs.map (·.1), unmodified := (rs.map (·.1)).map (·.id),
        refSolution := some (st.p.solutionCounter + 1) } ∧
      sol = ⟨st.p.solutionCounter + 1, rs.map (·.2), problemUsage (rs.map (·.1)), placedQtys st.p.inst.qtys st.p.missing,
        st.p.inst.qtys, st.p.binQtys⟩ ∧
      BPState.Inv env ⟨p', st.sols ++ [sol]⟩ := by
  obtain ⟨rs, e1, hF⟩ := mapM_forall₂ (R := SnapRel env st.p.inst) st.p.layouts
    (fun l hl => h.snapshotLayout hl old ho)
  refine ⟨rs, _, _, hF, ?_, rfl, rfl, ?_⟩
  · unfold BPProblem.createSolution
    dsimp only
    rw [if_pos (fun o h' => (ho o h').2), e1]
    rfl
  · have hv1 : (rs.map (·.1)).map Layout.view = st.p.layouts.map Layout.view := by
      rw [List.map_map]
      exact (Forall₂.map_eq hF (f := Layout.view) (g := fun r => r.1.view) fun a b r => r.view.symm).symm
    have hv2 : (rs.map (·.2)).map LayoutSnapshot.view = st.p.layouts.map Layout.view := by
      rw [List.map_map]
      exact (Forall₂.map_eq hF (f := Layout.view) (g := fun r => r.2.view) fun a b r => r.snapView.symm).symm
    have hids1 : (rs.map (·.1)).map (·.id) = st.p.layouts.map (·.id) := by
      have := congrArg (List.map (·.1)) hv1
      simp only [List.map_map] at this ⊢
      exact this
    have hids2 : (rs.map (·.2)).map (·.id) = st.p.layouts.map (·.id) := by
      have := congrArg (List.map (·.1)) hv2
      simp only [List.map_map] at this ⊢
      exact this
    have hk1 : (rs.map (·.1)).map (fun l => (l.id, l.bin)) = st.p.layouts.map (fun l => (l.id, l.bin)) := by
      have := congrArg (List.map fun v => (v.1, v.2.1)) hv1
      simp only [List.map_map] at this ⊢
      exact this
    have hk2 : (rs.map (·.2)).map (fun l => (l.id, l.bin)) = st.p.layouts.map (fun l => (l.id, l.bin)) := by
      have := congrArg (List.map fun v => (v.1, v.2.1)) hv2
      simp only [List.map_map] at this ⊢
      exact this
    have hknown : ∀ x ∈ BPState.known (⟨{ st.p with
        solutionCounter := st.p.solutionCounter + 1, layouts := rs.map (·.1), unmodified := (rs.map (·.1)).map (·.id),
        refSolution := some (st.p.solutionCounter + 1) }, st.sols ++ [⟨st.p.solutionCounter + 1, rs.map (·.2),
        problemUsage (rs.map (·.1)), placedQtys st.p.inst.qtys st.p.missing, st.p.inst.qtys, st.p.binQtys⟩]⟩ : BPState K n),
        x ∈ st.known := by
      intro x hx
      unfold BPState.known at hx ⊢
      dsimp only at hx
      rw [List.map_append, hk1, List.flatMap_append, List.flatMap_singleton, hk2] at hx
      rw [List.map_append]
      simp only [List.mem_append] at hx ⊢
      tauto
    have hcop : copies (rs.map (·.1)) = copies st.p.layouts := by
      funext i; rw [copies_view, copies_view, hv1]
    have hbins : binsUsed (rs.map (·.1)) = binsUsed st.p.layouts := by
      funext i; rw [binsUsed_view, binsUsed_view, hv1]
    have hsol : SolutionIn env st.p.inst ⟨st.p.solutionCounter + 1, rs.map (·.2), problemUsage (rs.map (·.1)),
        placedQtys st.p.inst.qtys st.p.missing, st.p.inst.qtys, st.p.binQtys⟩ := {
      snaps := fun sn hsn => by
        obtain ⟨r, hr, rfl⟩ := List.mem_map.1 hsn
        obtain ⟨l, hl, hR⟩ := Forall₂.exists_left hF hr
        exact hR.snap
      nodup := by dsimp only; rw [hids2]; exact h.nodup
      placed := fun i => by
        dsimp only
        rw [BPInstance.qtys, placedQtys_spec h.missing i]
        congr 1
        funext _
        rw [copies_view, ← hv2]
        simp only [List.map_map]
        rfl
      stock := by
        dsimp only
        have : (fun b => (rs.map (·.2)).countP fun (sn : LayoutSnapshot K n) => sn.bin.id = b) = binsUsed st.p.layouts := by
          funext b
          rw [binsUsed_view, ← hv2]
          simp only [List.countP_map]
          rfl
        rw [this]
        exact h.stock
      target := rfl
      usage := by
        dsimp only
        unfold problemUsage
        simp only [List.map_map]
        congr 2
        · refine List.map_congr_left fun r hr => ?_
          obtain ⟨l, hl, hR⟩ := Forall₂.exists_left hF hr
          have e1 := hR.view
          have e2 := hR.snapView
          simp only [Layout.view, LayoutSnapshot.view] at e1 e2
          simp only [Prod.mk.injEq] at e1 e2
          show r.1.bin.area * r.1.usage = r.2.bin.area * r.2.usage
          rw [hR.usage, e1.2.1, e2.2.1]
          unfold Layout.usage
          rw [e1.2.1, e1.2.2]
        · refine List.map_congr_left fun r hr => ?_
          obtain ⟨l, hl, hR⟩ := Forall₂.exists_left hF hr
          have e1 := hR.view
          have e2 := hR.snapView
          simp only [Layout.view, LayoutSnapshot.view] at e1 e2
          simp only [Prod.mk.injEq] at e1 e2
          show r.1.bin.area = r.2.bin.area
          rw [e1.2.1, e2.2.1] }
    exact {
      built := h.built
      templates := h.templates
      layouts := fun l hl => by
        obtain ⟨r, hr, rfl⟩ := List.mem_map.1 hl
        obtain ⟨l, hl, hR⟩ := Forall₂.exists_left hF hr
        exact hR.layout
      removed := h.removed
      nodup := by dsimp only; rw [hids1]; exact h.nodup
      known := fun x hx y hy => h.known x (hknown x hx) y (hknown y hy)
      fresh := fun x hx => h.fresh x (hknown x hx)
      missing := by dsimp only; rw [hcop]; exact h.missing
      stock := by dsimp only; rw [hbins]; exact h.stock
      sols := fun s hs => by
        rcases List.mem_append.1 hs with hs | hs
        · exact h.sols s hs
        · rw [List.mem_singleton.1 hs]; exact hsol
      solIds := by
        dsimp only
        rw [List.map_append, List.nodup_append]
        refine ⟨h.solIds, by simp, ?_⟩
        intro a ha b hb he
        obtain ⟨s, hs, rfl⟩ := List.mem_map.1 ha
        have := h.solFresh s hs
        simp at hb
        omega
      solFresh := fun s hs => by
        rcases List.mem_append.1 hs with hs | hs
        · exact Nat.le_succ_of_le (h.solFresh s hs)
        · rw [List.mem_singleton.1 hs]
      unmodNodup := by dsimp only; rw [hids1]; exact h.nodup
      unmod := fun id hid => by
        dsimp only at hid ⊢
        obtain ⟨l, hl, rfl⟩ := List.mem_map.1 hid
        obtain ⟨r, hr, rfl⟩ := List.mem_map.1 hl
        obtain ⟨l0, hl0, hR⟩ := Forall₂.exists_left hF hr
        have e := hR.snapView.trans hR.view.symm
        refine ⟨r.1, hl, rfl, _, List.mem_append.2 (.inr (List.mem_singleton.2 rfl)), rfl, r.2, List.mem_map.2 ⟨r, hr, rfl⟩, ?_, ?_⟩
        · exact congrArg (·.1) e
        · exact congrArg (·.2.2) e }

end Jagua
