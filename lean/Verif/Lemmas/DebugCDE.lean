import Verif.Lemmas.DebugTree
import Verif.Lemmas.CDEReach
import Mathlib.Data.List.Dedup

/-!
# The checks of the collision detection engine always succeed

For an engine that satisfies its invariant every operation of a debug build gives
the result of the operation of a release build.
-/

set_option linter.unusedSectionVars false

namespace Jagua

variable {K : Type*} [Field K] [LinearOrder K] [IsStrictOrderedRing K] {n : ℕ}

theorem checkDangling_eq {f : Fpa K} {c : CDE K n} (hi : c.Inv f) : c.checkDangling = some c := by
  unfold CDE.checkDangling
  rw [assertThen_pos (QTNode.Canon.noDangling _ _ _ hi.canon)]

theorem CDE.Inv.inactive {f : Fpa K} {c : CDE K n} (hi : c.Inv f) {u : Hazard K} (hu : u ∈ c.uncommitted) :
    ∀ x ∈ c.treeHaz, x.entity = u.entity → x.active = false := by
  obtain ⟨n1, n2, n3, n4, n5, n6⟩ := not_mem_of_nodup hi
  intro x hx he
  unfold CDE.treeHaz at hx
  simp only [List.append_assoc, List.mem_append, List.mem_map] at hx
  rcases hx with ⟨y, hy, rfl⟩ | ⟨y, hy, rfl⟩ | ⟨y, hy, rfl⟩
  · exact absurd he (n2 y hy u hu)
  · exact absurd he (n3 y hy u hu)
  · rfl

theorem CDE.Inv.active {f : Fpa K} {c : CDE K n} (hi : c.Inv f) {u : Hazard K} (hu : u ∈ c.dynamics) :
    ∀ x ∈ c.treeHaz, x.entity = u.entity → x.active = true := by
  obtain ⟨n1, n2, n3, n4, n5, n6⟩ := not_mem_of_nodup hi
  intro x hx he
  unfold CDE.treeHaz at hx
  simp only [List.append_assoc, List.mem_append, List.mem_map] at hx
  rcases hx with ⟨y, hy, rfl⟩ | ⟨y, hy, rfl⟩ | ⟨y, hy, rfl⟩
  · rfl
  · rfl
  · exact absurd he (n3 u hu y hy).symm

theorem treeHaz_cons_distinct {f : Fpa K} {c : CDE K n} (hi : c.Inv f) {h : Hazard K}
    (hs : h.entity ∉ c.statics.map (·.entity)) (hd : h.entity ∉ c.dynamics.map (·.entity))
    (hu : h.entity ∉ c.uncommitted.map (·.entity)) : DistinctEntities (QTHazard.ofHazard h :: c.treeHaz) := by
  refine distinct_of_nodup ?_
  rw [List.map_cons, List.nodup_cons, treeHaz_entities]
  refine ⟨?_, hi.distinct⟩
  simp only [List.mem_append, not_or]
  exact ⟨⟨hs, hd⟩, hu⟩

/-- building a tree from a list of hazards -/
theorem registerAllDbg_eq {f : Fpa K} {o : SearchOracle K} (l : List (Hazard K)) {t : QTNode K n} {r : AARect K}
    (hv : r.Valid) {hs : List (QTHazard K)} (hc : t.Canon f r hs) (hok : AllOK hs)
    (hd : DistinctEntities (l.map QTHazard.ofHazard ++ hs)) :
    l.foldlM (fun (t : QTNode K n) h => t.registerDbg f o (QTHazard.ofHazard h)) t =
      l.foldlM (fun (t : QTNode K n) h => t.register f o (QTHazard.ofHazard h)) t := by
  induction l generalizing t hs with
  | nil => rfl
  | cons a l ih =>
    have hp : ((a :: l).map QTHazard.ofHazard ++ hs).Perm (l.map QTHazard.ofHazard ++ QTHazard.ofHazard a :: hs) := by
      simpa using List.perm_middle.symm
    have hd' := hd.perm hp
    have hda : DistinctEntities (QTHazard.ofHazard a :: hs) := by
      unfold DistinctEntities at hd' ⊢
      exact (List.pairwise_append.1 hd').2.1
    rw [List.foldlM_cons, List.foldlM_cons, QTNode.Canon.registerDbg_eq t r hs _ hc hv hok (ofHazard_ok a) hda]
    obtain ⟨t1, e1, c1⟩ := QTNode.register_canon (o := o) t r hs _ hc hok (ofHazard_ok a)
    rw [e1]
    refine ih c1 ?_ hd'
    intro x hx
    rcases List.mem_cons.1 hx with rfl | hx
    · trivial
    · exact hok x hx

theorem CDE.newDbg_eq {f : Fpa K} {o : SearchOracle K} {r : AARect K} (hv : r.Valid) {statics : List (Hazard K)}
    (hd : (statics.map (·.entity)).Nodup) : CDE.newDbg f o n r statics = CDE.new f o n r statics := by
  unfold CDE.newDbg CDE.new
  rw [registerAllDbg_eq statics hv (QTNode.canon_new f n r) (fun x hx => by simp at hx) (by
    rw [List.append_nil]
    refine distinct_of_nodup ?_
    rw [List.map_map]
    exact hd)]
  rfl

theorem CDE.registerDbg_eq {f : Fpa K} {o : SearchOracle K} {c : CDE K n} (hi : c.Inv f) (hv : c.bbox.Valid) {h : Hazard K}
    (hs : h.entity ∉ c.statics.map (·.entity)) (hd : h.entity ∉ c.dynamics.map (·.entity)) :
    c.registerDbg f o h = c.register f o h := by
  obtain ⟨c', e1, i1, _⟩ := CDE.register_inv (o := o) hi hs hd
  unfold CDE.registerDbg
  rw [assertThen_pos]
  · refine Eq.trans (b := (c.register f o h).bind CDE.checkDangling) ?_ ?_
    · congr 1
      unfold CDE.register
      generalize hf : List.findIdx? _ c.uncommitted = r
      rcases r with _ | i
      · dsimp only
        rw [QTNode.Canon.registerDbg_eq _ _ _ _ hi.canon hv (treeHaz_ok c) (ofHazard_ok h)
          (treeHaz_cons_distinct hi hs hd (by
            intro hm
            obtain ⟨u, hu, he⟩ := List.mem_map.1 hm
            have := findIdx?_none hf u hu
            simp [he] at this))]
        rfl
      · obtain ⟨u, hu, hue⟩ := findIdx?_getElem hf
        dsimp only
        rw [hu]
        dsimp only
        rw [QTNode.Canon.activateDbg_eq _ _ _ _ hi.canon hi.distinctTree (hi.inactive (List.mem_of_getElem? hu))]
        rfl
    · rw [e1]
      exact checkDangling_eq i1
  · rw [Bool.not_eq_true', List.any_eq_false]
    intro x hx he
    exact hd (List.mem_map.2 ⟨x, hx, by simpa using he⟩)

theorem CDE.deregisterDbg_eq {f : Fpa K} {o : SearchOracle K} {c : CDE K n} (hi : c.Inv f) {e : HazardEntity K} {h : Hazard K}
    (hh : h ∈ c.dynamics) (he : h.entity = e) (ci : Bool) : c.deregisterDbg o e ci = c.deregister o e ci := by
  subst he
  obtain ⟨c', e1, i1, _⟩ := CDE.deregister_inv (o := o) hi hh ci
  unfold CDE.deregisterDbg
  refine Eq.trans (b := (c.deregister o h.entity ci).bind CDE.checkDangling) ?_ ?_
  · congr 1
    unfold CDE.deregister
    rw [QTNode.Canon.deregisterDbg_eq _ _ _ _ hi.canon hi.distinctTree,
      QTNode.Canon.deactivateDbg_eq _ _ _ _ hi.canon hi.distinctTree (hi.active hh)]
    rfl
  · rw [e1]
    exact checkDangling_eq i1

theorem deregisterAllDbg_eq {f : Fpa K} (l : List (Hazard K)) {t : QTNode K n} {r : AARect K}
    {hs : List (QTHazard K)} (hc : t.Canon f r hs) (hok : AllOK hs) (hd : DistinctEntities hs) :
    l.foldlM (fun (t : QTNode K n) h => t.deregisterDbg h.entity) t =
      l.foldlM (fun (t : QTNode K n) h => t.deregister h.entity) t := by
  induction l generalizing t hs with
  | nil => rfl
  | cons a l ih =>
    rw [List.foldlM_cons, List.foldlM_cons, QTNode.Canon.deregisterDbg_eq _ _ _ _ hc hd]
    obtain ⟨t1, e1, c1⟩ := QTNode.deregister_canon t r hs a.entity hc hok hd
    rw [e1]
    exact ih c1 (fun x hx => hok x (List.mem_of_mem_filter hx)) (List.Pairwise.filter _ hd)

theorem CDE.commitDbg_eq {f : Fpa K} {c : CDE K n} (hi : c.Inv f) : c.commitDbg = c.commit := by
  unfold CDE.commitDbg CDE.commit
  rw [deregisterAllDbg_eq c.uncommitted hi.canon (treeHaz_ok c) hi.distinctTree]

theorem CDE.createSnapshotDbg_eq {f : Fpa K} {c : CDE K n} (hi : c.Inv f) : c.createSnapshotDbg = c.createSnapshot := by
  unfold CDE.createSnapshotDbg CDE.createSnapshot
  rw [CDE.commitDbg_eq hi]

theorem CDE.restoreRemoveDbg_eq {f : Fpa K} {c : CDE K n} (hi : c.Inv f) (e : HazardEntity K) :
    c.restoreRemoveDbg e = c.restoreRemove e := by
  unfold CDE.restoreRemoveDbg CDE.restoreRemove
  rw [QTNode.Canon.deregisterDbg_eq _ _ _ _ hi.canon hi.distinctTree]
  rfl

theorem restoreRemoveDbg_loop {f : Fpa K} (o : SearchOracle K) (es : List (HazardEntity K)) {c : CDE K n} (hi : c.Inv f)
    (hes : es.Nodup) (hsub : ∀ e ∈ es, e ∈ c.dynamics.map (·.entity)) :
    es.foldlM CDE.restoreRemoveDbg c = es.foldlM CDE.restoreRemove c := by
  induction es generalizing c with
  | nil => rfl
  | cons e es ih =>
    rw [List.nodup_cons] at hes
    obtain ⟨h, hh, rfl⟩ := List.mem_map.1 (hsub e List.mem_cons_self)
    obtain ⟨c1, e1, i1, s1, b1, p1, u1⟩ := CDE.deregister_inv (o := o) hi hh true
    rw [List.foldlM_cons, List.foldlM_cons, CDE.restoreRemoveDbg_eq hi, restoreRemove_eq o, e1]
    refine ih i1 hes.2 ?_
    intro e' he'
    have := hsub e' (List.mem_cons_of_mem _ he')
    rw [(p1.map (·.entity)).mem_iff, List.map_cons, List.mem_cons] at this
    rcases this with rfl | h'
    · exact absurd he' hes.1
    · exact h'

theorem restoreUncommittedDbg_loop {f : Fpa K} (o : SearchOracle K) (us : List (Hazard K)) {c : CDE K n} {add : List (Hazard K)}
    (hi : CDE.Inv f { c with uncommitted := us }) (hu : c.uncommitted = []) :
    us.foldlM (CDE.restoreUncommittedDbg o) (c, add) = us.foldlM (CDE.restoreUncommitted o) (c, add) := by
  induction us generalizing c add with
  | nil => rfl
  | cons u us ih =>
    obtain ⟨n1, n2, n3, n4, n5, n6⟩ := not_mem_of_nodup hi
    dsimp only at n1 n2 n3 n4 n5 n6
    have hus : ∀ x ∈ us, x.entity ≠ u.entity := by
      rw [List.map_cons, List.nodup_cons] at n6
      intro x hx he
      exact n6.1 (he ▸ List.mem_map.2 ⟨x, hx, rfl⟩)
    have hcan : c.tree.Canon f c.bbox (CDE.treeHaz { c with uncommitted := u :: us }) := hi.canon
    have ha := QTNode.Canon.activateDbg_eq (o := o) _ _ _ u.entity hcan hi.distinctTree (hi.inactive List.mem_cons_self)
    have hr := QTNode.Canon.deregisterDbg_eq _ _ _ u.entity hcan hi.distinctTree
    rw [List.foldlM_cons, List.foldlM_cons]
    cases hf : add.findIdx? (fun h => h.entity = u.entity) with
    | some i =>
      have hstep : CDE.restoreUncommitted o (c, add) u =
          some ({ c with tree := c.tree.activate o u.entity, dynamics := c.dynamics ++ [u] }, swapRemove add i) := by
        unfold CDE.restoreUncommitted
        rw [hf]
      have hstepD : CDE.restoreUncommittedDbg o (c, add) u =
          some ({ c with tree := c.tree.activate o u.entity, dynamics := c.dynamics ++ [u] }, swapRemove add i) := by
        unfold CDE.restoreUncommittedDbg
        rw [hf]
        dsimp only
        rw [ha]
        rfl
      obtain ⟨c', e1, i1, s1, b1, _, r1⟩ := CDE.register_inv (o := o) (h := u) hi
        (by intro hm; obtain ⟨x, hx, he⟩ := List.mem_map.1 hm; exact n2 x hx u List.mem_cons_self he)
        (by intro hm; obtain ⟨x, hx, he⟩ := List.mem_map.1 hm; exact n3 x hx u List.mem_cons_self he)
      have hreg : CDE.register f o { c with uncommitted := u :: us } u = some { c with
          uncommitted := swapRemove (u :: us) 0
          tree := c.tree.activate o u.entity
          dynamics := c.dynamics ++ [u] } := by
        unfold CDE.register
        have : (u :: us).findIdx? (fun x => x.entity = u.entity) = some 0 := by
          rw [List.findIdx?_cons]; simp
        dsimp only
        rw [this]
        rfl
      rw [hreg] at e1
      obtain rfl := Option.some.inj e1
      have hp0 := (swapRemove_perm (l := u :: us) (i := 0) (a := u) rfl).cons_inv
      have i2 := i1.of_perm hp0.symm
      rw [hstep, hstepD]
      exact ih (c := { c with tree := c.tree.activate o u.entity, dynamics := c.dynamics ++ [u] })
        (add := swapRemove add i) i2 hu
    | none =>
      obtain ⟨t, e1, c1⟩ := QTNode.deregister_canon c.tree c.bbox
        (CDE.treeHaz { c with uncommitted := u :: us }) u.entity hi.canon (treeHaz_ok _) hi.distinctTree
      have hstep : CDE.restoreUncommitted o (c, add) u = some ({ c with tree := t }, add) := by
        unfold CDE.restoreUncommitted
        rw [hf]
        dsimp only
        rw [e1]
        rfl
      have hstepD : CDE.restoreUncommittedDbg o (c, add) u = some ({ c with tree := t }, add) := by
        unfold CDE.restoreUncommittedDbg
        rw [hf]
        dsimp only
        rw [hr, e1]
        rfl
      have i2 : CDE.Inv f { { c with tree := t } with uncommitted := us } := by
        constructor
        · dsimp only
          convert c1 using 1
          unfold CDE.treeHaz
          dsimp only
          rw [List.filter_append, List.filter_append,
            filter_map_ne (fun _ => rfl) (fun x hx => n2 x hx u List.mem_cons_self),
            filter_map_ne (fun _ => rfl) (fun x hx => n3 x hx u List.mem_cons_self),
            List.map_cons, List.filter_cons_of_neg (by simp [QTHazard.ofInactive, QTHazard.ofHazard]),
            filter_map_ne (fun _ => rfl) hus]
        · have := hi.distinct
          dsimp only at this ⊢
          rw [List.map_cons] at this
          exact List.Nodup.sublist (List.Sublist.append_left (List.sublist_cons_self _ _) _) this
      rw [hstep, hstepD]
      exact ih (c := { c with tree := t }) (add := add) i2 hu

theorem CDE.restoreAddDbg_eq {f : Fpa K} {o : SearchOracle K} {c : CDE K n} (hi : c.Inv f) (hv : c.bbox.Valid)
    (hu : c.uncommitted = []) {h : Hazard K} (hs : h.entity ∉ c.statics.map (·.entity))
    (hd : h.entity ∉ c.dynamics.map (·.entity)) : c.restoreAddDbg f o h = c.restoreAdd f o h := by
  unfold CDE.restoreAddDbg CDE.restoreAdd
  rw [QTNode.Canon.registerDbg_eq _ _ _ _ hi.canon hv (treeHaz_ok c) (ofHazard_ok h)
    (treeHaz_cons_distinct hi hs hd (by rw [hu]; simp))]

theorem restoreAddDbg_loop {f : Fpa K} {o : SearchOracle K} (l : List (Hazard K)) {c : CDE K n} (hi : c.Inv f) (hv : c.bbox.Valid)
    (hu : c.uncommitted = []) (hl : (l.map (·.entity)).Nodup)
    (hs : ∀ h ∈ l, h.entity ∉ c.statics.map (·.entity)) (hd : ∀ h ∈ l, h.entity ∉ c.dynamics.map (·.entity)) :
    l.foldlM (CDE.restoreAddDbg f o) c = l.foldlM (CDE.restoreAdd f o) c := by
  induction l generalizing c with
  | nil => rfl
  | cons h l ih =>
    rw [List.map_cons, List.nodup_cons] at hl
    obtain ⟨c1, e1, i1, s1, b1, r1, _⟩ := CDE.register_inv (o := o) hi (hs h List.mem_cons_self) (hd h List.mem_cons_self)
    obtain ⟨d1, u1⟩ := r1 (by rw [hu]; simp)
    rw [List.foldlM_cons, List.foldlM_cons,
      CDE.restoreAddDbg_eq hi hv hu (hs h List.mem_cons_self) (hd h List.mem_cons_self), restoreAdd_eq hu, e1]
    refine ih i1 (by rw [b1]; exact hv) (u1.trans hu) hl.2 (fun x hx => by rw [s1]; exact hs x (List.mem_cons_of_mem _ hx)) ?_
    intro x hx
    rw [d1, List.map_append, List.mem_append, not_or]
    refine ⟨hd x (List.mem_cons_of_mem _ hx), ?_⟩
    simp only [List.map_cons, List.map_nil, List.mem_singleton]
    intro he
    exact hl.1 (he ▸ List.mem_map.2 ⟨x, hx, rfl⟩)

theorem CDE.restoreDbg_eq {f : Fpa K} {o : SearchOracle K} {c : CDE K n} (hi : c.Inv f) (hv : c.bbox.Valid)
    {snap : List (Hazard K)} (hn : (snap.map (·.entity)).Nodup) (hs : ∀ h ∈ snap, h.entity ∉ c.statics.map (·.entity)) :
    c.restoreDbg f o snap = c.restore f o snap := by
  obtain ⟨n1, n2, n3, n4, n5, n6⟩ := not_mem_of_nodup hi
  obtain ⟨cR, eR, _, _, _, _, pR, _⟩ := CDE.restore_inv (o := o) hi hn hs
  obtain ⟨p1, p2⟩ := restorePlan_spec snap (c.dynamics.map (·.entity)) [] n5 hn
  rw [List.nil_append] at p2
  have hes := p1.nodup_iff.2 (n5.filter _)
  have hsub : ∀ e ∈ (CDE.restorePlan (c.dynamics.map (·.entity)) [] snap).1, e ∈ c.dynamics.map (·.entity) :=
    fun e he => List.mem_of_mem_filter (p1.mem_iff.1 he)
  obtain ⟨c1, e1, i1, s1, b1, u1, d1⟩ := restoreRemove_loop o (CDE.restorePlan (c.dynamics.map (·.entity)) [] snap).1 hi
    hes hsub
  have hadd : ((CDE.restorePlan (c.dynamics.map (·.entity)) [] snap).2.map (·.entity)).Nodup := by
    rw [p2]
    exact hn.sublist (List.Sublist.map _ List.filter_sublist)
  obtain ⟨st, e2, i2, s2, b2, u2, d2, a2⟩ := restoreUncommitted_loop o c1.uncommitted
    (c := { c1 with uncommitted := [] }) (add := (CDE.restorePlan (c.dynamics.map (·.entity)) [] snap).2)
    i1 rfl hadd
  dsimp only at s2 b2 d2
  have hst2 : ∀ x ∈ st.2, x ∈ snap ∧ x.entity ∉ c.dynamics.map (·.entity) ∧ x.entity ∉ c.uncommitted.map (·.entity) := by
    intro x
    rw [a2.mem_iff, List.mem_filter, p2, List.mem_filter, decide_eq_true_iff, decide_eq_true_iff, u1]
    tauto
  have hst1 : ∀ x ∈ st.1.dynamics, x ∈ c.dynamics ∨ x ∈ c.uncommitted := by
    intro x hx
    rw [d2, List.mem_append, d1.mem_iff, List.mem_filter, List.mem_filter, u1] at hx
    rcases hx with hx | hx
    · exact .inl hx.1
    · exact .inr hx.1
  have e3 : st.2.foldlM (CDE.restoreAddDbg f o) st.1 = st.2.foldlM (CDE.restoreAdd f o) st.1 := by
    refine restoreAddDbg_loop st.2 i2 (by rw [b2, b1]; exact hv) u2
      ((a2.map (·.entity)).nodup_iff.2 (hadd.sublist (List.Sublist.map _ List.filter_sublist)))
      (fun h hh => by rw [s2, s1]; exact hs h (hst2 h hh).1) ?_
    intro h hh hm
    obtain ⟨y, hy, he⟩ := List.mem_map.1 hm
    obtain ⟨q1, q2, q3⟩ := hst2 h hh
    rcases hst1 y hy with h1 | h1
    · exact q2 (he ▸ List.mem_map.2 ⟨y, h1, rfl⟩)
    · exact q3 (he ▸ List.mem_map.2 ⟨y, h1, rfl⟩)
  have hplain : st.2.foldlM (CDE.restoreAdd f o) st.1 = some cR := by
    unfold CDE.restore at eR
    dsimp only at eR
    rw [e1] at eR
    dsimp only [Option.bind_some] at eR
    rw [e2] at eR
    exact eR
  rw [eR]
  unfold CDE.restoreDbg
  dsimp only
  rw [List.dedup_eq_self.2 n5, assertThen_pos (by simp), restoreRemoveDbg_loop o _ hi hes hsub, e1]
  dsimp only [Option.bind_some]
  rw [restoreUncommittedDbg_loop o c1.uncommitted (c := { c1 with uncommitted := [] }) i1 rfl, e2]
  dsimp only [Option.bind_some]
  rw [e3, hplain]
  dsimp only [Option.bind_some]
  rw [assertThen_pos]
  rw [decide_eq_true_iff]
  simpa using pR.length_eq

/-! ## Queries -/

theorem CDE.hitsDbg_eq {f : Fpa K} {c : CDE K n} (hi : c.Inv f) (q : Queryable K) (irr : List (HazardEntity K)) :
    c.hitsDbg q irr = c.hits q irr := by
  unfold CDE.hitsDbg CDE.hits
  rw [QTNode.Canon.collidesDbg_eq _ _ _ _ _ hi.canon]

theorem CDE.surrogateCollidesDbg_eq {f : Fpa K} {c : CDE K n} (hi : c.Inv f) (poles : List (Circle K)) (piers : List (Edge K))
    (irr : List (HazardEntity K)) : c.surrogateCollidesDbg poles piers irr = c.surrogateCollides poles piers irr := by
  unfold CDE.surrogateCollidesDbg CDE.surrogateCollides
  congr 1
  funext q
  exact CDE.hitsDbg_eq hi q irr

theorem CDE.edgeDefinitelyCollidesDbg_eq {f : Fpa K} {c : CDE K n} (hi : c.Inv f) (e : Edge K) (irr : List (HazardEntity K)) :
    c.edgeDefinitelyCollidesDbg e irr = c.edgeDefinitelyCollides e irr := by
  unfold CDE.edgeDefinitelyCollidesDbg CDE.edgeDefinitelyCollides
  rw [QTNode.Canon.definitelyCollidesDbg_eq _ _ _ _ _ hi.canon]

theorem CDE.circleDefinitelyCollidesDbg_eq {f : Fpa K} {c : CDE K n} (hi : c.Inv f) (ci : Circle K)
    (irr : List (HazardEntity K)) : c.circleDefinitelyCollidesDbg ci irr = c.circleDefinitelyCollides ci irr := by
  unfold CDE.circleDefinitelyCollidesDbg CDE.circleDefinitelyCollides
  rw [QTNode.Canon.definitelyCollidesDbg_eq _ _ _ _ _ hi.canon]

theorem CDE.polyCollidesDbg_eq {f : Fpa K} {c : CDE K n} (hi : c.Inv f) (shape : SPoly K) (irr : List (HazardEntity K)) :
    c.polyCollidesDbg f shape irr = c.polyCollides f shape irr := by
  have h1 : c.byEdgeIntersectionDbg shape irr = c.byEdgeIntersection shape irr := by
    unfold CDE.byEdgeIntersectionDbg CDE.byEdgeIntersection
    congr 1
    funext e
    exact CDE.hitsDbg_eq hi _ irr
  unfold CDE.polyCollidesDbg CDE.polyCollides
  rw [h1]
  rfl

theorem CDE.surrogateOrPolyCollidesDbg_eq {f : Fpa K} {c : CDE K n} (hi : c.Inv f) (poles : List (Circle K))
    (piers : List (Edge K)) (shape : SPoly K) (irr : List (HazardEntity K)) :
    c.surrogateOrPolyCollidesDbg f poles piers shape irr = c.surrogateOrPolyCollides f poles piers shape irr := by
  unfold CDE.surrogateOrPolyCollidesDbg CDE.surrogateOrPolyCollides
  rw [CDE.surrogateCollidesDbg_eq hi, CDE.polyCollidesDbg_eq hi]
  rfl

theorem CDE.hazardsWithinDbg_eq {f : Fpa K} {c : CDE K n} (hi : c.Inv f) (q : Queryable K) (irr det : List (HazardEntity K)) :
    c.hazardsWithinDbg q irr det = c.hazardsWithin q irr det := by
  unfold CDE.hazardsWithinDbg CDE.hazardsWithin
  rw [QTNode.Canon.collectDbg_eq _ _ _ _ hi.canon]
  rfl

theorem CDE.collectPolyCollisionsDbg_eq {f : Fpa K} {c : CDE K n} (hi : c.Inv f) (shape : SPoly K)
    (irr det : List (HazardEntity K)) :
    c.collectPolyCollisionsDbg f shape irr det = c.collectPolyCollisions f shape irr det := by
  unfold CDE.collectPolyCollisionsDbg CDE.collectPolyCollisions
  have : (fun (d : List (HazardEntity K)) (e : Edge K) => c.tree.collectDbg e.toQuery d) = fun d e => c.tree.collect e.toQuery d := by
    funext d e
    exact QTNode.Canon.collectDbg_eq _ _ _ _ hi.canon d
  rw [this]

theorem CDE.collectSurrogateCollisionsDbg_eq {f : Fpa K} {c : CDE K n} (hi : c.Inv f) (poles : List (Circle K))
    (piers : List (Edge K)) (irr det : List (HazardEntity K)) :
    c.collectSurrogateCollisionsDbg poles piers irr det = c.collectSurrogateCollisions poles piers irr det := by
  unfold CDE.collectSurrogateCollisionsDbg CDE.collectSurrogateCollisions
  have : (fun (d : List (HazardEntity K)) (q : Queryable K) => c.tree.collectDbg q d) = fun d q => c.tree.collect q d := by
    funext d q
    exact QTNode.Canon.collectDbg_eq _ _ _ _ hi.canon d
  rw [this]

end Jagua
