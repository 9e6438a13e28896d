import Verif.Lemmas.ProblemSol

/-!
# Restoring solutions in bin packing problems
-/

set_option linter.unusedSectionVars false

namespace Jagua

variable {K : Type*} [Arith K] [LinearOrder K] {n : ℕ}

/-- a restored layout -/
theorem SnapshotIn.ofLayout {env : Env K} {inst : BPInstance K n} {s : LayoutSnapshot K n} (hs : SnapshotIn env inst s)
    {l : Layout K n} (hl : l.Inv env inst.cat) (hv : l.view = s.view) : LayoutIn env inst l := by
  unfold Layout.view LayoutSnapshot.view at hv
  simp only [Prod.mk.injEq] at hv
  obtain ⟨_, h2, h3⟩ := hv
  exact ⟨hl, by rw [h3]; exact hs.items, by rw [h2]; exact hs.bin⟩

theorem SnapshotIn.fromSnapshot {env : Env K} {inst : BPInstance K n} {s : LayoutSnapshot K n} (hs : SnapshotIn env inst s) :
    ∃ l, Layout.fromSnapshot env s = some l ∧ LayoutIn env inst l ∧ l.view = s.view := by
  obtain ⟨l, e1, e2, e3, e4, e5⟩ := hs.valid.fromSnapshot
  have hv : l.view = s.view := by unfold Layout.view LayoutSnapshot.view; rw [e3, e4, e5]
  exact ⟨l, e1, hs.ofLayout e2 hv, hv⟩

/-- the layouts of the problem that are in the solution -/
theorem BPState.Inv.restoreCommon {env : Env K} {st : BPState K n} (h : st.Inv env) {o : Solution K n} (ho : o ∈ st.sols)
    (hr : st.p.refSolution = some o.id) {l : Layout K n} (hl : l ∈ st.p.layouts) :
    ∃ l', BPProblem.restoreCommon env st.p.unmodified o.snapshots l = some l' ∧ l'.id = l.id ∧ LayoutIn env st.p.inst l' ∧
      ∀ s, o.snapshots.find? (fun s => s.id = l.id) = some s → l'.view = s.view := by
  have hin := h.layouts l hl
  unfold BPProblem.restoreCommon
  cases hf : o.snapshots.find? (fun s => s.id = l.id) with
  | none => exact ⟨l, rfl, rfl, hin, by simp⟩
  | some s =>
    dsimp only
    have hs := List.mem_of_find?_eq_some hf
    have hid : s.id = l.id := by simpa using List.find?_some hf
    have hbin : s.bin = l.bin :=
      h.known (s.id, s.bin) (BPState.known_snap ho hs) (l.id, l.bin) (BPState.known_layout hl) hid
    split_ifs with hc
    · obtain ⟨sn, h1, h2, h3, h4, h5⟩ := h.unmod_find hl (by simpa using hc) ho hr
      rw [hf] at h2
      cases h2
      refine ⟨l, rfl, rfl, hin, ?_⟩
      rintro s' ⟨⟩
      unfold Layout.view LayoutSnapshot.view
      rw [h3, h4, h5]
    · obtain ⟨l', e1, e2, e3, e4, e5⟩ := hin.inv.restore ((h.sols o ho).snaps s hs).valid hid.symm
      have hv : l'.view = s.view := by unfold Layout.view LayoutSnapshot.view; rw [e3, e4, e5, hbin]
      refine ⟨l', e1, e3.trans hid, ((h.sols o ho).snaps s hs).ofLayout e2 hv, ?_⟩
      rintro s' ⟨⟩
      exact hv

theorem foldl_retain (ids : List ℕ) (ls : List (Layout K n)) :
    (ids.foldl (fun ls id => ls.filter fun (l : Layout K n) => l.id ≠ id) ls).Sublist ls ∧
    ∀ l, l ∈ ids.foldl (fun ls id => ls.filter fun (l : Layout K n) => l.id ≠ id) ls ↔ l ∈ ls ∧ l.id ∉ ids := by
  induction ids generalizing ls with
  | nil => simp
  | cons id ids ih =>
    rw [List.foldl_cons]
    obtain ⟨h1, h2⟩ := ih (ls.filter fun l => l.id ≠ id)
    refine ⟨h1.trans List.filter_sublist, fun l => ?_⟩
    rw [h2, List.mem_filter, List.mem_cons]
    simp only [decide_not, Bool.not_eq_eq_eq_not, Bool.not_true, decide_eq_false_iff_not]
    tauto

theorem BPState.Inv.restoreMissing {env : Env K} {st : BPState K n} (h : st.Inv env) {o : Solution K n} (ho : o ∈ st.sols)
    (present : List ℕ) (snaps : List (LayoutSnapshot K n)) (hs : ∀ s ∈ snaps, s ∈ o.snapshots) :
    ∀ (A R : List (Layout K n)), (∀ l ∈ R, l ∈ st.p.removed) →
      ∃ added R', snaps.foldlM (BPProblem.restoreMissing env present) (A, R) = some (A ++ added, R') ∧
        (∀ l ∈ added, LayoutIn env st.p.inst l) ∧
        added.map Layout.view = (snaps.filter fun s => !present.contains s.id).map LayoutSnapshot.view := by
  induction snaps with
  | nil => intro A R hR; exact ⟨[], R, by simp, by simp, rfl⟩
  | cons s snaps ih =>
    intro A R hR
    have ih := ih fun x hx => hs x (List.mem_cons_of_mem _ hx)
    have hso := hs s List.mem_cons_self
    have hsn := (h.sols o ho).snaps s hso
    rw [List.foldlM_cons]
    by_cases hp : present.contains s.id = true
    · obtain ⟨added, R', e1, e2, e3⟩ := ih A R hR
      refine ⟨added, R', ?_, e2, ?_⟩
      · rw [BPProblem.restoreMissing, if_pos hp]
        exact e1
      · rw [List.filter_cons_of_neg (by rw [hp]; simp), e3]
    · have key : ∃ l R1, BPProblem.restoreMissing env present (A, R) s = some (A ++ [l], R1) ∧ LayoutIn env st.p.inst l ∧
          l.view = s.view ∧ ∀ x ∈ R1, x ∈ st.p.removed := by
        rw [BPProblem.restoreMissing, if_neg hp]
        dsimp only
        cases hf : R.findIdx? (fun l => l.id = s.id) with
        | none =>
          obtain ⟨l, e1, e2, e3⟩ := hsn.fromSnapshot
          refine ⟨l, R, ?_, e2, e3, hR⟩
          dsimp only
          rw [e1]
          rfl
        | some i =>
          obtain ⟨hi, hid, _⟩ := List.findIdx?_eq_some_iff_getElem.1 hf
          have hmem : R[i] ∈ st.p.removed := hR _ (List.getElem_mem hi)
          have hid : R[i].id = s.id := by simpa using hid
          have hbin : R[i].bin = s.bin :=
            h.known (R[i].id, R[i].bin) (BPState.known_removed hmem) (s.id, s.bin) (BPState.known_snap ho hso) hid
          obtain ⟨l', e1, e2, e3, e4, e5⟩ := (h.removed _ hmem).inv.restore hsn.valid hid
          have hv : l'.view = s.view := by unfold Layout.view LayoutSnapshot.view; rw [e3, e4, e5, hbin]
          refine ⟨l', swapRemove R i, ?_, hsn.ofLayout e2 hv, hv, fun x hx => hR x ?_⟩
          · dsimp only
            rw [List.getElem?_eq_getElem hi]
            dsimp only
            rw [e1]
            rfl
          · exact (swapRemove_perm (List.getElem?_eq_getElem hi)).mem_iff.2 (List.mem_cons_of_mem _ hx)
      obtain ⟨l, R1, e1, e2, e3, e4⟩ := key
      obtain ⟨added, R', f1, f2, f3⟩ := ih (A ++ [l]) R1 e4
      refine ⟨l :: added, R', ?_, ?_, ?_⟩
      · rw [e1]
        refine Eq.trans f1 ?_
        rw [List.append_assoc]
        rfl
      · intro x hx
        rcases List.mem_cons.1 hx with rfl | hx
        · exact e2
        · exact f2 x hx
      · rw [List.filter_cons_of_pos (by simpa using hp), List.map_cons, List.map_cons, e3, f3]

theorem SolutionIn.views_nodup {env : Env K} {inst : BPInstance K n} {s : Solution K n} (h : SolutionIn env inst s) :
    (s.snapshots.map LayoutSnapshot.view).Nodup := by
  have : (s.snapshots.map LayoutSnapshot.view).map (·.1) = s.snapshots.map (·.id) := by rw [List.map_map]; rfl
  exact List.Nodup.of_map (·.1) (by rw [this]; exact h.nodup)

theorem BPState.Inv.restoreLayouts {env : Env K} {st : BPState K n} (h : st.Inv env) {o : Solution K n} (ho : o ∈ st.sols) :
    ∃ ls, BPProblem.restoreLayouts env st.p o = some ls ∧ (∀ l ∈ ls, LayoutIn env st.p.inst l) ∧
      (ls.map Layout.view).Perm (o.snapshots.map LayoutSnapshot.view) := by
  unfold BPProblem.restoreLayouts
  split_ifs with hr
  · obtain ⟨ls, e, hF⟩ := mapM_forall₂ (R := fun s l => LayoutIn env st.p.inst l ∧ l.view = s.view) o.snapshots
      (fun s hs => ((h.sols o ho).snaps s hs).fromSnapshot)
    refine ⟨ls, e, fun l hl => ?_, ?_⟩
    · obtain ⟨s, _, hs⟩ := Forall₂.exists_left hF hl
      exact hs.1
    · rw [Forall₂.map_eq hF (f := LayoutSnapshot.view) (g := Layout.view) fun a b r => r.2.symm]
  · have hr : st.p.refSolution = some o.id := (not_not.1 hr).symm
    obtain ⟨ls, e, hF⟩ := mapM_forall₂ (R := fun l l' => l'.id = l.id ∧ LayoutIn env st.p.inst l' ∧
      ∀ s, o.snapshots.find? (fun s => s.id = l.id) = some s → l'.view = s.view) st.p.layouts
      (fun l hl => h.restoreCommon ho hr hl)
    rw [e, Option.bind_some]
    dsimp only
    have hids : ls.map (·.id) = st.p.layouts.map (·.id) :=
      (Forall₂.map_eq hF (f := (·.id)) (g := (·.id)) fun a b r => r.1.symm).symm
    have hnd : (ls.map (·.id)).Nodup := by rw [hids]; exact h.nodup
    have hls : ∀ l ∈ ls, LayoutIn env st.p.inst l ∧ ∀ s, o.snapshots.find? (fun s => s.id = l.id) = some s → l.view = s.view := by
      intro l hl
      obtain ⟨l0, _, r1, r2, r3⟩ := Forall₂.exists_left hF hl
      refine ⟨r2, fun s hs => r3 s ?_⟩
      rw [r1] at hs
      exact hs
    set inSol : Layout K n → Bool := fun l => (o.snapshots.find? fun s => s.id = l.id).isSome with hin
    set notIn := (ls.filter fun l => !inSol l).map (·.id) with hnot
    set present := (ls.filter inSol).map (·.id) with hpres
    obtain ⟨k1, k2⟩ := foldl_retain notIn ls
    set kept := notIn.foldl (fun ls id => ls.filter fun (l : Layout K n) => l.id ≠ id) ls with hk
    have hkept : ∀ l, l ∈ kept ↔ l ∈ ls ∧ inSol l = true := by
      intro l
      rw [k2 l, hnot, List.mem_map]
      constructor
      · rintro ⟨h1, h2⟩
        refine ⟨h1, ?_⟩
        by_contra hc
        exact h2 ⟨l, List.mem_filter.2 ⟨h1, by simpa using hc⟩, rfl⟩
      · rintro ⟨h1, h2⟩
        refine ⟨h1, ?_⟩
        rintro ⟨l', h3, h4⟩
        obtain ⟨h5, h6⟩ := List.mem_filter.1 h3
        rw [List.inj_on_of_nodup_map hnd h5 h1 h4, h2] at h6
        simp at h6
    obtain ⟨added, R', f1, f2, f3⟩ := h.restoreMissing ho present o.snapshots (fun s hs => hs) kept st.p.removed
      (fun l hl => hl)
    refine ⟨kept ++ added, ?_, ?_, ?_⟩
    · rw [f1]
      rfl
    · intro l hl
      rcases List.mem_append.1 hl with hl | hl
      · exact (hls l ((hkept l).1 hl).1).1
      · exact f2 l hl
    · rw [List.map_append, f3]
      have hsplit : (o.snapshots.map LayoutSnapshot.view).Perm
          ((o.snapshots.filter fun s => present.contains s.id).map LayoutSnapshot.view ++
            (o.snapshots.filter fun s => !present.contains s.id).map LayoutSnapshot.view) := by
        rw [← List.map_append]
        exact (List.filter_append_perm _ _).symm.map _
      refine List.Perm.trans ?_ hsplit.symm
      refine List.Perm.append_right _ ?_
      refine (List.perm_ext_iff_of_nodup ?_ ?_).2 ?_
      · have : (kept.map Layout.view).map (·.1) = kept.map (·.id) := by rw [List.map_map]; rfl
        refine List.Nodup.of_map (·.1) ?_
        rw [this]
        exact hnd.sublist (k1.map _)
      · exact (h.sols o ho).views_nodup.sublist (List.filter_sublist.map _)
      · intro v
        rw [List.mem_map, List.mem_map]
        constructor
        · rintro ⟨l, hl, rfl⟩
          obtain ⟨h1, h2⟩ := (hkept l).1 hl
          obtain ⟨s, hs⟩ := Option.isSome_iff_exists.1 h2
          have hid : s.id = l.id := by simpa using List.find?_some hs
          refine ⟨s, List.mem_filter.2 ⟨List.mem_of_find?_eq_some hs, ?_⟩, ((hls l h1).2 s hs).symm⟩
          rw [List.contains_iff_mem, hpres, hid]
          exact List.mem_map.2 ⟨l, List.mem_filter.2 ⟨h1, h2⟩, rfl⟩
        · rintro ⟨s, hs, rfl⟩
          obtain ⟨h1, h2⟩ := List.mem_filter.1 hs
          rw [List.contains_iff_mem, hpres] at h2
          obtain ⟨l, hl, hid⟩ := List.mem_map.1 h2
          obtain ⟨h3, h4⟩ := List.mem_filter.1 hl
          refine ⟨l, (hkept l).2 ⟨h3, h4⟩, (hls l h3).2 s ?_⟩
          rw [hid]
          exact (h.sols o ho).find h1

theorem missingOfSolution_spec {items : List (Item K × ℕ)} {c c' : ℕ → ℕ} {m : List ℤ} (hm : MissingOk items m c) {placed : List ℕ}
    (hp : ∀ i, placed[i]? = (items[i]?).map fun _ => c' i) (oc : Bool)
    (hoc : oc = true → ∀ (i : ℕ) (x : Item K × ℕ) (k : ℕ), items[i]? = some x → placed[i]? = some k → k ≤ x.2) :
    ∃ m', missingOfSolution oc (items.map (·.2)) placed m = some m' ∧ MissingOk items m' c' := by
  have key : ∀ (x : ℤ × ℕ), x ∈ m.zipIdx → ∃ y, (match (items.map (·.2))[x.2]?, placed[x.2]? with
      | some q, some p => usizeSubAsIsize oc q p
      | _, _ => none) = some y ∧ ∃ z, items[x.2]? = some z ∧ y = (z.2 : ℤ) - c' x.2 := by
    intro x hx
    have h1 := hm x.2
    rw [List.mem_zipIdx_iff_getElem?.1 hx] at h1
    obtain ⟨z, hz, _⟩ := Option.map_eq_some_iff.1 h1.symm
    have h2 := hp x.2
    rw [hz] at h2
    refine ⟨(z.2 : ℤ) - c' x.2, ?_, z, hz, rfl⟩
    rw [List.getElem?_map, hz, h2]
    dsimp only [Option.map_some]
    unfold usizeSubAsIsize
    rw [if_neg]
    rintro ⟨hlt, ho⟩
    have : c' x.2 ≤ z.2 := hoc ho x.2 z _ hz h2
    omega
  obtain ⟨m', e, hF⟩ := mapM_forall₂ (R := fun (x : ℤ × ℕ) (y : ℤ) => ∃ z, items[x.2]? = some z ∧ y = (z.2 : ℤ) - c' x.2)
    m.zipIdx key
  refine ⟨m', e, fun i => ?_⟩
  have hlen := hF.length_eq
  rw [List.length_zipIdx] at hlen
  cases hmi : m[i]? with
  | none =>
    have h1 := hm i
    rw [hmi] at h1
    rw [← h1, List.getElem?_eq_none (by rw [← hlen]; exact List.getElem?_eq_none_iff.1 hmi)]
    rfl
  | some a =>
    have hi : i < m.length := (List.getElem?_eq_some_iff.1 hmi).1
    have hi' : i < m'.length := by omega
    have := List.forall₂_iff_get.1 hF |>.2 i (by rw [List.length_zipIdx]; exact hi) hi'
    obtain ⟨z, hz, hy⟩ := this
    simp only [List.get_eq_getElem, List.getElem_zipIdx, zero_add] at hz hy
    rw [List.getElem?_eq_getElem hi', hz, Option.map_some, Option.map_some, Option.some.injEq, hy]
    ring

theorem StockOk.length {bins : List (Bin K n × ℕ)} {q : List ℕ} {c : ℕ → ℕ} (h : StockOk bins q c) : q.length = bins.length := by
  rcases lt_trichotomy q.length bins.length with hl | hl | hl
  · have := h q.length
    rw [List.getElem?_eq_none (le_refl _), List.getElem?_eq_getElem hl] at this
    simp at this
  · exact hl
  · have := h bins.length
    rw [List.getElem?_eq_none (le_refl bins.length), List.getElem?_eq_getElem hl] at this
    simp at this

theorem BPState.Inv.restore {env : Env K} {st : BPState K n} (h : st.Inv env) {o : Solution K n} (ho : o ∈ st.sols)
    (hoc : env.overflowChecks = true →
      ∀ (i : ℕ) (x : Item K × ℕ) (c : ℕ), st.p.inst.items[i]? = some x → o.placed[i]? = some c → c ≤ x.2) :
    ∃ ls m, (ls.map Layout.view).Perm (o.snapshots.map LayoutSnapshot.view) ∧
      st.p.restore env o = some { st.p with
        layouts := ls, missing := m, binQtys := o.binQtys, removed := [], unmodified := ls.map (·.id), refSolution := some o.id } ∧
      BPState.Inv env ⟨{ st.p with
        layouts := ls, missing := m, binQtys := o.binQtys, removed := [], unmodified := ls.map (·.id), refSolution := some o.id },
        st.sols⟩ := by
  have hso := h.sols o ho
  obtain ⟨ls, e, hin, hperm⟩ := h.restoreLayouts ho
  obtain ⟨m, e', hm⟩ := missingOfSolution_spec h.missing hso.placed env.overflowChecks hoc
  have hids : (ls.map (·.id)).Perm (o.snapshots.map (·.id)) := by
    have := hperm.map (·.1)
    simp only [List.map_map] at this
    exact this
  have hcop : copies ls = fun i => (o.snapshots.map fun sn => copiesIn sn.placed i).sum := by
    funext i
    rw [copies_view, (hperm.map _).sum_eq]
    simp only [List.map_map]
    rfl
  have hbins : binsUsed ls = fun b => o.snapshots.countP fun sn => sn.bin.id = b := by
    funext b
    rw [binsUsed_view, hperm.countP_eq]
    simp only [List.countP_map]
    rfl
  refine ⟨ls, m, hperm, ?_, ?_⟩
  · unfold BPProblem.restore
    rw [e, Option.bind_some]
    rw [BPInstance.qtys, e', Option.bind_some, if_neg (by rw [h.stock.length, hso.stock.length]; simp)]
    rfl
  · have hview : ∀ l ∈ ls, ∃ s ∈ o.snapshots, l.view = s.view := by
      intro l hl
      obtain ⟨s, hs, he⟩ := List.mem_map.1 (hperm.mem_iff.1 (List.mem_map_of_mem (f := Layout.view) hl))
      exact ⟨s, hs, he.symm⟩
    have hknown : ∀ x ∈ BPState.known (⟨{ st.p with
        layouts := ls, missing := m, binQtys := o.binQtys, removed := [], unmodified := ls.map (·.id), refSolution := some o.id },
        st.sols⟩ : BPState K n), x ∈ st.known := by
      intro x hx
      unfold BPState.known at hx
      rcases List.mem_append.1 hx with hx | hx
      · obtain ⟨l, hl, rfl⟩ := List.mem_map.1 hx
        rw [List.append_nil] at hl
        obtain ⟨s, hs, he⟩ := hview l hl
        unfold Layout.view LayoutSnapshot.view at he
        simp only [Prod.mk.injEq] at he
        rw [he.1, he.2.1]
        exact BPState.known_snap ho hs
      · exact List.mem_append.2 (.inr hx)
    exact {
      built := h.built
      templates := h.templates
      layouts := hin
      removed := by simp
      nodup := hids.nodup_iff.2 hso.nodup
      known := fun x hx y hy => h.known x (hknown x hx) y (hknown y hy)
      fresh := fun x hx => h.fresh x (hknown x hx)
      missing := by dsimp only; rw [hcop]; exact hm
      stock := by dsimp only; rw [hbins]; exact hso.stock
      sols := h.sols
      solIds := h.solIds
      solFresh := h.solFresh
      unmodNodup := hids.nodup_iff.2 hso.nodup
      unmod := fun id hid => by
        obtain ⟨l, hl, rfl⟩ := List.mem_map.1 hid
        obtain ⟨s, hs, he⟩ := hview l hl
        unfold Layout.view LayoutSnapshot.view at he
        simp only [Prod.mk.injEq] at he
        exact ⟨l, hl, rfl, o, ho, rfl, s, hs, he.1.symm, he.2.2.symm⟩ }

end Jagua
