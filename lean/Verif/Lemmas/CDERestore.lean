import Verif.Lemmas.CDEInv

/-!
# Restoring a snapshot of the collision detection engine
-/

set_option linter.unusedSectionVars false

namespace Jagua

variable {K : Type*} [Arith K] [LinearOrder K] {n : ℕ}

theorem CDE.Inv.of_perm {f : Fpa K} {c : CDE K n} (h : c.Inv f) {us : List (Hazard K)} (p : c.uncommitted.Perm us) :
    CDE.Inv f { c with uncommitted := us } where
  canon := h.canon.perm ((p.map _).append_left _)
  distinct := (((p.map _).append_left _).nodup_iff).1 h.distinct

theorem restorePlan_spec (snap : List (Hazard K)) (rem : List (HazardEntity K)) (add : List (Hazard K))
    (hr : rem.Nodup) (hs : (snap.map (·.entity)).Nodup) :
    (CDE.restorePlan rem add snap).1.Perm (rem.filter fun e => e ∉ snap.map (·.entity)) ∧
    (CDE.restorePlan rem add snap).2 = add ++ snap.filter (fun h => h.entity ∉ rem) := by
  induction snap generalizing rem add with
  | nil => simp [CDE.restorePlan]
  | cons h hs' ih =>
    rw [List.map_cons, List.nodup_cons] at hs
    rw [CDE.restorePlan]
    cases hf : rem.findIdx? (fun x => x = h.entity) with
    | some i =>
      obtain ⟨e, he, heq⟩ := findIdx?_getElem hf
      have heq : e = h.entity := by simpa using heq
      subst heq
      have hperm := swapRemove_perm he
      have hr' := hperm.nodup_iff.1 hr
      rw [List.nodup_cons] at hr'
      obtain ⟨i1, i2⟩ := ih (swapRemove rem i) add hr'.2 hs.2
      dsimp only
      constructor
      · refine i1.trans ?_
        refine List.Perm.trans ?_ (hperm.filter _).symm
        rw [List.filter_cons_of_neg (by simp)]
        rw [List.filter_congr]
        intro x hx
        have : x ≠ h.entity := fun hxe => hr'.1 (hxe ▸ hx)
        simp [this]
      · rw [i2, List.filter_cons_of_neg (by simpa using List.mem_of_getElem? he)]
        congr 1
        refine List.filter_congr ?_
        intro x hx
        have : x.entity ≠ h.entity := fun hxe => hs.1 (hxe ▸ List.mem_map.2 ⟨x, hx, rfl⟩)
        simp only [decide_eq_decide]
        rw [hperm.mem_iff, List.mem_cons]
        simp [this]
    | none =>
      have hno : h.entity ∉ rem := by
        intro hm
        have := findIdx?_none hf _ hm
        simp at this
      obtain ⟨i1, i2⟩ := ih rem (add ++ [h]) hr hs.2
      dsimp only
      constructor
      · refine i1.trans ?_
        rw [List.filter_congr]
        intro x hx
        have : x ≠ h.entity := fun hxe => hno (hxe ▸ hx)
        simp [this]
      · rw [i2, List.filter_cons_of_pos (by simpa using hno)]
        simp

theorem restoreRemove_eq (o : SearchOracle K) (c : CDE K n) (e : HazardEntity K) :
    c.restoreRemove e = c.deregister o e true := by
  unfold CDE.restoreRemove CDE.deregister
  cases hf : c.dynamics.findIdx? (fun x => x.entity = e) with
  | none => rfl
  | some i =>
    obtain ⟨h, hh, _⟩ := findIdx?_getElem hf
    dsimp only
    rw [hh]
    rfl

theorem restoreRemove_loop {f : Fpa K} (o : SearchOracle K) (es : List (HazardEntity K)) {c : CDE K n} (hi : c.Inv f)
    (hes : es.Nodup) (hsub : ∀ e ∈ es, e ∈ c.dynamics.map (·.entity)) :
    ∃ c', es.foldlM CDE.restoreRemove c = some c' ∧ c'.Inv f ∧ c'.statics = c.statics ∧ c'.bbox = c.bbox ∧
      c'.uncommitted = c.uncommitted ∧ c'.dynamics.Perm (c.dynamics.filter fun h => h.entity ∉ es) := by
  induction es generalizing c with
  | nil => exact ⟨c, rfl, hi, rfl, rfl, rfl, by simp⟩
  | cons e es ih =>
    rw [List.nodup_cons] at hes
    obtain ⟨h, hh, rfl⟩ := List.mem_map.1 (hsub e List.mem_cons_self)
    obtain ⟨c1, e1, i1, s1, b1, p1, u1⟩ := CDE.deregister_inv (o := o) hi hh true
    obtain ⟨c2, e2, i2, s2, b2, u2, p2⟩ := ih i1 hes.2 (by
      intro e' he'
      have := hsub e' (List.mem_cons_of_mem _ he')
      rw [(p1.map (·.entity)).mem_iff, List.map_cons, List.mem_cons] at this
      rcases this with rfl | h'
      · exact absurd he' hes.1
      · exact h')
    refine ⟨c2, ?_, i2, s2.trans s1, b2.trans b1, u2.trans u1, ?_⟩
    · rw [List.foldlM_cons, restoreRemove_eq o, e1]; exact e2
    · refine p2.trans ?_
      refine List.Perm.trans ?_ (p1.filter _).symm
      rw [List.filter_cons_of_neg (by simp)]
      rw [List.filter_congr]
      intro x hx
      have hne : x.entity ≠ h.entity := by
        obtain ⟨_, _, _, _, n5, _⟩ := not_mem_of_nodup hi
        have := (p1.map (·.entity)).nodup_iff.1 n5
        rw [List.map_cons, List.nodup_cons] at this
        intro he
        exact this.1 (he ▸ List.mem_map.2 ⟨x, hx, rfl⟩)
      simp [hne]

theorem restoreUncommitted_loop {f : Fpa K} (o : SearchOracle K) (us : List (Hazard K)) {c : CDE K n} {add : List (Hazard K)}
    (hi : CDE.Inv f { c with uncommitted := us }) (hu : c.uncommitted = [])
    (ha : (add.map (·.entity)).Nodup) :
    ∃ st, us.foldlM (CDE.restoreUncommitted o) (c, add) = some st ∧ st.1.Inv f ∧ st.1.statics = c.statics ∧
      st.1.bbox = c.bbox ∧ st.1.uncommitted = [] ∧
      st.1.dynamics = c.dynamics ++ us.filter (fun u => u.entity ∈ add.map (·.entity)) ∧
      st.2.Perm (add.filter fun h => h.entity ∉ us.map (·.entity)) := by
  induction us generalizing c add with
  | nil =>
    refine ⟨(c, add), rfl, ?_, rfl, rfl, hu, by simp, by simp⟩
    rw [← hu] at hi
    exact hi
  | cons u us ih =>
    obtain ⟨n1, n2, n3, n4, n5, n6⟩ := not_mem_of_nodup hi
    dsimp only at n1 n2 n3 n4 n5 n6
    have hus : ∀ x ∈ us, x.entity ≠ u.entity := by
      rw [List.map_cons, List.nodup_cons] at n6
      intro x hx he
      exact n6.1 (he ▸ List.mem_map.2 ⟨x, hx, rfl⟩)
    rw [List.foldlM_cons]
    cases hf : add.findIdx? (fun h => h.entity = u.entity) with
    | some i =>
      obtain ⟨a, hai, hae⟩ := findIdx?_getElem hf
      have hae : a.entity = u.entity := by simpa using hae
      have hperm := swapRemove_perm hai
      have hand := (hperm.map (·.entity)).nodup_iff.1 ha
      rw [List.map_cons, List.nodup_cons] at hand
      have hstep : CDE.restoreUncommitted o (c, add) u =
          some ({ c with tree := c.tree.activate o u.entity, dynamics := c.dynamics ++ [u] }, swapRemove add i) := by
        unfold CDE.restoreUncommitted
        rw [hf]
      obtain ⟨c', e1, i1, s1, b1, _, r1⟩ := CDE.register_inv (o := o) (h := u) hi
        (by intro hm; obtain ⟨x, hx, he⟩ := List.mem_map.1 hm; exact n2 x hx u List.mem_cons_self he)
        (by intro hm; obtain ⟨x, hx, he⟩ := List.mem_map.1 hm; exact n3 x hx u List.mem_cons_self he)
      have hreg : CDE.register f o { c with uncommitted := u :: us } u = some { c with
          uncommitted := swapRemove (u :: us) 0
          tree := c.tree.activate o u.entity
          dynamics := c.dynamics ++ [u] } := by
        unfold CDE.register
        have : (u :: us).findIdx? (fun x => x.entity = u.entity) = some 0 := by
          rw [List.findIdx?_cons]; simp
        dsimp only
        rw [this]
        rfl
      rw [hreg] at e1
      obtain rfl := Option.some.inj e1
      have hp0 := (swapRemove_perm (l := u :: us) (i := 0) (a := u) rfl).cons_inv
      have i2 := i1.of_perm hp0.symm
      obtain ⟨st, f1, f2, f3, f4, f5, f6, f7⟩ := ih
        (c := { c with tree := c.tree.activate o u.entity, dynamics := c.dynamics ++ [u] })
        (add := swapRemove add i) i2 hu hand.2
      refine ⟨st, ?_, f2, f3, f4, f5, ?_, ?_⟩
      · rw [hstep]; exact f1
      · rw [f6]
        dsimp only
        rw [List.filter_cons_of_pos (by
          refine decide_eq_true ?_
          exact List.mem_map.2 ⟨a, List.mem_of_getElem? hai, hae⟩), List.append_assoc, List.singleton_append]
        congr 2
        refine List.filter_congr ?_
        intro x hx
        rw [decide_eq_decide, (hperm.map (·.entity)).mem_iff, List.map_cons, List.mem_cons, hae]
        simp [hus x hx]
      · refine f7.trans ?_
        refine List.Perm.trans ?_ (hperm.filter _).symm
        rw [List.filter_cons_of_neg (by simp [hae])]
        rw [List.filter_congr]
        intro x hx
        have : x.entity ≠ u.entity := by
          intro he
          exact hand.1 (hae ▸ he ▸ List.mem_map.2 ⟨x, hx, rfl⟩)
        simp [this]
    | none =>
      have hno : ∀ x ∈ add, x.entity ≠ u.entity := by
        intro x hx he
        have := findIdx?_none hf x hx
        simp [he] at this
      obtain ⟨t, e1, c1⟩ := QTNode.deregister_canon c.tree c.bbox
        (CDE.treeHaz { c with uncommitted := u :: us }) u.entity hi.canon (treeHaz_ok _) hi.distinctTree
      have hstep : CDE.restoreUncommitted o (c, add) u = some ({ c with tree := t }, add) := by
        unfold CDE.restoreUncommitted
        rw [hf]
        dsimp only
        rw [e1]
        rfl
      have i2 : CDE.Inv f { { c with tree := t } with uncommitted := us } := by
        constructor
        · dsimp only
          convert c1 using 1
          unfold CDE.treeHaz
          dsimp only
          rw [List.filter_append, List.filter_append,
            filter_map_ne (fun _ => rfl) (fun x hx => n2 x hx u List.mem_cons_self),
            filter_map_ne (fun _ => rfl) (fun x hx => n3 x hx u List.mem_cons_self),
            List.map_cons, List.filter_cons_of_neg (by simp [QTHazard.ofInactive, QTHazard.ofHazard]),
            filter_map_ne (fun _ => rfl) hus]
        · have := hi.distinct
          dsimp only at this ⊢
          rw [List.map_cons] at this
          exact List.Nodup.sublist (List.Sublist.append_left (List.sublist_cons_self _ _) _) this
      obtain ⟨st, f1, f2, f3, f4, f5, f6, f7⟩ := ih (c := { c with tree := t }) (add := add) i2 hu ha
      refine ⟨st, ?_, f2, f3, f4, f5, ?_, ?_⟩
      · rw [hstep]; exact f1
      · rw [f6, List.filter_cons_of_neg]
        rw [decide_eq_true_iff]
        intro hm
        obtain ⟨x, hx, he⟩ := List.mem_map.1 hm
        exact hno x hx he
      · refine f7.trans ?_
        rw [List.filter_congr]
        intro x hx
        simp [hno x hx]

theorem restoreAdd_eq {f : Fpa K} {o : SearchOracle K} {c : CDE K n} (hu : c.uncommitted = []) (h : Hazard K) :
    c.restoreAdd f o h = c.register f o h := by
  unfold CDE.restoreAdd CDE.register
  rw [hu]
  simp only [List.findIdx?_nil]
  cases c.tree.register f o (QTHazard.ofHazard h) <;> rfl

theorem restoreAdd_loop {f : Fpa K} {o : SearchOracle K} (l : List (Hazard K)) {c : CDE K n} (hi : c.Inv f)
    (hu : c.uncommitted = []) (hl : (l.map (·.entity)).Nodup)
    (hs : ∀ h ∈ l, h.entity ∉ c.statics.map (·.entity)) (hd : ∀ h ∈ l, h.entity ∉ c.dynamics.map (·.entity)) :
    ∃ c', l.foldlM (CDE.restoreAdd f o) c = some c' ∧ c'.Inv f ∧ c'.statics = c.statics ∧ c'.bbox = c.bbox ∧
      c'.uncommitted = [] ∧ c'.dynamics = c.dynamics ++ l := by
  induction l generalizing c with
  | nil => exact ⟨c, rfl, hi, rfl, rfl, hu, by simp⟩
  | cons h l ih =>
    rw [List.map_cons, List.nodup_cons] at hl
    obtain ⟨c1, e1, i1, s1, b1, r1, _⟩ := CDE.register_inv (o := o) hi (hs h List.mem_cons_self) (hd h List.mem_cons_self)
    obtain ⟨d1, u1⟩ := r1 (by rw [hu]; simp)
    obtain ⟨c2, e2, i2, s2, b2, u2, d2⟩ := ih i1 (u1.trans hu) hl.2
      (fun x hx => by rw [s1]; exact hs x (List.mem_cons_of_mem _ hx))
      (fun x hx => by
        rw [d1, List.map_append, List.mem_append, not_or]
        refine ⟨hd x (List.mem_cons_of_mem _ hx), ?_⟩
        simp only [List.map_cons, List.map_nil, List.mem_singleton]
        intro he
        exact hl.1 (he ▸ List.mem_map.2 ⟨x, hx, rfl⟩))
    refine ⟨c2, ?_, i2, s2.trans s1, b2.trans b1, u2, ?_⟩
    · rw [List.foldlM_cons, restoreAdd_eq hu, e1]; exact e2
    · rw [d2, d1]; simp

/-- **`restore` never panics and brings back exactly the entities of the snapshot.** -/
theorem CDE.restore_inv {f : Fpa K} {o : SearchOracle K} {c : CDE K n} (hi : c.Inv f) {snap : List (Hazard K)}
    (hn : (snap.map (·.entity)).Nodup) (hs : ∀ h ∈ snap, h.entity ∉ c.statics.map (·.entity)) :
    ∃ c', c.restore f o snap = some c' ∧ c'.Inv f ∧ c'.statics = c.statics ∧ c'.bbox = c.bbox ∧ c'.uncommitted = [] ∧
      (c'.dynamics.map (·.entity)).Perm (snap.map (·.entity)) ∧
      ∀ h ∈ c'.dynamics, h ∈ c.dynamics ∨ h ∈ c.uncommitted ∨ h ∈ snap := by
  obtain ⟨n1, n2, n3, n4, n5, n6⟩ := not_mem_of_nodup hi
  obtain ⟨p1, p2⟩ := restorePlan_spec snap (c.dynamics.map (·.entity)) [] n5 hn
  rw [List.nil_append] at p2
  obtain ⟨c1, e1, i1, s1, b1, u1, d1⟩ := restoreRemove_loop o (CDE.restorePlan (c.dynamics.map (·.entity)) [] snap).1 hi
    (p1.nodup_iff.2 (n5.filter _))
    (fun e he => List.mem_of_mem_filter (p1.mem_iff.1 he))
  have hd1 : ∀ x, x ∈ c1.dynamics ↔ x ∈ c.dynamics ∧ x.entity ∈ snap.map (·.entity) := by
    intro x
    rw [d1.mem_iff, List.mem_filter]
    refine and_congr_right fun hx => ?_
    rw [decide_eq_true_iff, p1.mem_iff, List.mem_filter, decide_eq_true_iff, not_and, not_not]
    exact ⟨fun h => h (List.mem_map.2 ⟨x, hx, rfl⟩), fun h _ => h⟩
  have hadd : ((CDE.restorePlan (c.dynamics.map (·.entity)) [] snap).2.map (·.entity)).Nodup := by
    rw [p2]
    exact hn.sublist (List.Sublist.map _ List.filter_sublist)
  obtain ⟨st, e2, i2, s2, b2, u2, d2, a2⟩ := restoreUncommitted_loop o c1.uncommitted
    (c := { c1 with uncommitted := [] }) (add := (CDE.restorePlan (c.dynamics.map (·.entity)) [] snap).2)
    i1 rfl hadd
  dsimp only at s2 b2 d2
  have hst2 : ∀ x, x ∈ st.2 ↔ x ∈ snap ∧ x.entity ∉ c.dynamics.map (·.entity) ∧ x.entity ∉ c.uncommitted.map (·.entity) := by
    intro x
    rw [a2.mem_iff, List.mem_filter, p2, List.mem_filter, decide_eq_true_iff, decide_eq_true_iff, u1]
    tauto
  have hst1 : ∀ x, x ∈ st.1.dynamics ↔ (x ∈ c.dynamics ∧ x.entity ∈ snap.map (·.entity)) ∨
      (x ∈ c.uncommitted ∧ x.entity ∈ snap.map (·.entity)) := by
    intro x
    rw [d2, List.mem_append, hd1, List.mem_filter, u1, decide_eq_true_iff, p2]
    refine or_congr_right (and_congr_right fun hx => ?_)
    constructor
    · intro h
      obtain ⟨y, hy, he⟩ := List.mem_map.1 h
      exact List.mem_map.2 ⟨y, List.mem_of_mem_filter hy, he⟩
    · intro h
      obtain ⟨y, hy, he⟩ := List.mem_map.1 h
      refine List.mem_map.2 ⟨y, List.mem_filter.2 ⟨hy, ?_⟩, he⟩
      refine decide_eq_true ?_
      intro hm
      obtain ⟨z, hz, hze⟩ := List.mem_map.1 hm
      exact n3 z hz x hx (hze.trans he)
  obtain ⟨c3, e3, i3, s3, b3, u3, d3⟩ := restoreAdd_loop (f := f) (o := o) st.2 i2 u2
    ((a2.map (·.entity)).nodup_iff.2 (hadd.sublist (List.Sublist.map _ List.filter_sublist)))
    (fun h hh => by rw [s2, s1]; exact hs h ((hst2 h).1 hh).1)
    (fun h hh => by
      intro hm
      obtain ⟨y, hy, he⟩ := List.mem_map.1 hm
      obtain ⟨q1, q2, q3⟩ := (hst2 h).1 hh
      rcases (hst1 y).1 hy with ⟨h1, _⟩ | ⟨h1, _⟩
      · exact q2 (he ▸ List.mem_map.2 ⟨y, h1, rfl⟩)
      · exact q3 (he ▸ List.mem_map.2 ⟨y, h1, rfl⟩))
  refine ⟨c3, ?_, i3, s3.trans (s2.trans s1), b3.trans (b2.trans b1), u3, ?_, ?_⟩
  · unfold CDE.restore
    dsimp only
    rw [e1]
    dsimp only [Option.bind_some]
    rw [e2]
    exact e3
  · refine (List.perm_ext_iff_of_nodup (not_mem_of_nodup i3).2.2.2.2.1 hn).2 ?_
    intro e
    rw [d3, List.map_append, List.mem_append]
    constructor
    · rintro (h | h)
      · obtain ⟨x, hx, rfl⟩ := List.mem_map.1 h
        rcases (hst1 x).1 hx with ⟨_, h1⟩ | ⟨_, h1⟩ <;> exact h1
      · obtain ⟨x, hx, rfl⟩ := List.mem_map.1 h
        exact List.mem_map.2 ⟨x, ((hst2 x).1 hx).1, rfl⟩
    · intro h
      obtain ⟨x, hx, rfl⟩ := List.mem_map.1 h
      by_cases h1 : x.entity ∈ c.dynamics.map (·.entity)
      · obtain ⟨y, hy, he⟩ := List.mem_map.1 h1
        exact .inl (List.mem_map.2 ⟨y, (hst1 y).2 (.inl ⟨hy, he ▸ h⟩), he⟩)
      · by_cases h2 : x.entity ∈ c.uncommitted.map (·.entity)
        · obtain ⟨y, hy, he⟩ := List.mem_map.1 h2
          exact .inl (List.mem_map.2 ⟨y, (hst1 y).2 (.inr ⟨hy, he ▸ h⟩), he⟩)
        · exact .inr (List.mem_map.2 ⟨x, (hst2 x).2 ⟨hx, h1, h2⟩, rfl⟩)
  · intro h hh
    rw [d3, List.mem_append] at hh
    rcases hh with hh | hh
    · rcases (hst1 h).1 hh with ⟨h1, _⟩ | ⟨h1, _⟩
      · exact .inl h1
      · exact .inr (.inl h1)
    · exact .inr (.inr ((hst2 h).1 hh).1)

/-- If entities determine hazards, the snapshot's hazards are back. -/
theorem restore_perm {old snap now : List (Hazard K)} (hn : (snap.map (·.entity)).Nodup)
    (hp : (now.map (·.entity)).Perm (snap.map (·.entity))) (hm : ∀ h ∈ now, h ∈ old ∨ h ∈ snap)
    (hcons : ∀ a ∈ old, ∀ b ∈ snap, a.entity = b.entity → a = b) : now.Perm snap := by
  have hsub : ∀ h ∈ now, h ∈ snap := by
    intro h hh
    rcases hm h hh with h1 | h1
    · obtain ⟨b, hb, he⟩ := List.mem_map.1 (hp.mem_iff.1 (List.mem_map.2 ⟨h, hh, rfl⟩))
      rw [hcons h h1 b hb he.symm]
      exact hb
    · exact h1
  have hnn : now.Nodup := List.Nodup.of_map _ (hp.nodup_iff.2 hn)
  refine (List.perm_ext_iff_of_nodup hnn (List.Nodup.of_map _ hn)).2 ?_
  intro b
  refine ⟨hsub b, fun hb => ?_⟩
  obtain ⟨h, hh, he⟩ := List.mem_map.1 (hp.mem_iff.2 (List.mem_map.2 ⟨b, hb, rfl⟩))
  have := List.inj_on_of_nodup_map hn (hsub h hh) hb he
  rw [← this]
  exact hh

end Jagua
